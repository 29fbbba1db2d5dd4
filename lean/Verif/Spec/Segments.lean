import Verif.Spec.Linear
import Mathlib.Algebra.Order.Field.Rat

/-!
# Intended meaning of piecewise-linear relations

Several variables are coupled: all of them sit at the same relative position `u ∈ [0,1]` of the same segment.
-/

namespace Flix

/-- The position `u` of the way from the start to the end of a segment, at time `t`. -/
def between (seg : Num × Num) (u : ℚ) (t : Nat) : ℚ := (1 - u) * seg.1.at t + u * seg.2.at t

/-- At time `t` the values `val q.1` of all coupled variables lie at one common position of segment `i`. -/
def OnSegment {α : Type} (pts : List (α × List (Num × Num))) (val : α → ℚ) (t i : Nat) : Prop :=
  ∃ u : ℚ, 0 ≤ u ∧ u ≤ 1 ∧ ∀ q ∈ pts, ∃ seg, q.2[i]? = some seg ∧ val q.1 = between seg u t

end Flix
