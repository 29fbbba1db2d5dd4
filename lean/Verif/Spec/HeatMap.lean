import Verif.Model.HeatMap
import Verif.Spec.Calendar

/-!
# What a heat map shows
-/

namespace Flix

/-- The time `t` lies in slot `i`: weeks begin with Monday and are named by their Sunday; 1970-01-04 was a Sunday. -/
def MapStep.Holds : MapStep → Nat → Nat → Prop
  | .W, i, t => 7 * i * 1440 ≤ t + 3 * 1440 ∧ t < (7 * i + 4) * 1440
  | .D, i, t => i * 1440 ≤ t ∧ t < (i + 1) * 1440
  | .h, i, t => i * 60 ≤ t ∧ t < (i + 1) * 60
  | .quarter, i, t => i * 15 ≤ t ∧ t < (i + 1) * 15
  | .min, i, t => t = i

/-- `i` is a slot between the first and the last time of the frame. -/
def SlotOf (st : MapStep) (df : List MapRow) (i : Nat) : Prop :=
  ∃ r ∈ df, ∃ r' ∈ df, ∃ a b, st.Holds a r.time ∧ st.Holds b r'.time ∧ a ≤ i ∧ i ≤ b

instance (st : MapStep) (i t : Nat) : Decidable (st.Holds i t) := by
  cases st <;> unfold MapStep.Holds <;> infer_instance

/-- The values of the first column that belong to slot `i`. -/
def valuesIn (st : MapStep) (df : List MapRow) (i : Nat) : List ℚ := (df.filter fun r => st.Holds i r.time).map fun r => r.values.headD 0

/-- `m` is the mean of the values in the first column that belong to slot `i`. -/
def MeanOf (st : MapStep) (df : List MapRow) (i : Nat) (m : ℚ) : Prop := valuesIn st df i ≠ [] ∧ m * (valuesIn st df i).length = (valuesIn st df i).sum

/-- The value in row `r` and column `c`, `none` if there is none. -/
def HeatMap.cell (h : HeatMap) (r c : Nat) : Option ℚ := (h.cells[r]?).bind fun xs => (xs[c]?).join

end Flix
