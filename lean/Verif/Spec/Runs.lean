import Mathlib.Algebra.BigOperators.Intervals
import Mathlib.Data.Rat.Defs
import Mathlib.Algebra.Order.Ring.Rat

/-!
# On/off schedules: what runs, starts and their lengths are

`b` is a 0/1 schedule over time steps, `w` the step widths in hours.
-/

namespace Flix

/-- `RunUpTo b w before t h`: at the end of step `t` the unit has been continuously on for `h` hours (0 if it is off);
`before` are the hours it was already on when the first step began. -/
inductive RunUpTo (b w : Nat → ℚ) (before : ℚ) : Nat → ℚ → Prop
  | idle {t} : b t = 0 → RunUpTo b w before t 0
  | started {s t} : s < t → b s = 0 → (∀ k, s < k → k ≤ t → b k = 1) →
      RunUpTo b w before t (∑ k ∈ Finset.Icc (s + 1) t, w k)
  | carried {t} : (∀ k ≤ t, b k = 1) → RunUpTo b w before t (before + ∑ k ∈ Finset.range (t + 1), w k)

/-- The state in the step before `t`; `last` is the state before the first step. -/
def stateBefore (b : Nat → ℚ) (last : ℚ) : Nat → ℚ
  | 0 => last
  | t + 1 => b t

/-- A start: off in the step before and on now. -/
def Starts (b : Nat → ℚ) (last : ℚ) (t : Nat) : Prop := stateBefore b last t = 0 ∧ b t = 1

/-- A stop: on in the step before and off now. -/
def Stops (b : Nat → ℚ) (last : ℚ) (t : Nat) : Prop := stateBefore b last t = 1 ∧ b t = 0

instance (b : Nat → ℚ) (last : ℚ) (t : Nat) : Decidable (Starts b last t) := by unfold Starts; infer_instance

/-- The steps below `n` in which the unit starts. -/
def startSteps (b : Nat → ℚ) (last : ℚ) (n : Nat) : Finset Nat := (Finset.range n).filter (Starts b last)

/-- The steps below `n` in which the unit is on. -/
def onSteps (b : Nat → ℚ) (n : Nat) : Finset Nat := (Finset.range n).filter fun t => b t = 1

/-- A schedule over `n` steps whose runs respect a minimum and a maximum duration (series `t ↦ lo t`, `t ↦ hi t` of
limits): a run that ends inside the horizon lasts at least the minimum given for its last step, no run exceeds the
maximum, and a run from before the horizon that is still too short is continued in the first step. -/
structure RunsRespect (n : Nat) (b w : Nat → ℚ) (before : ℚ) (lo hi : Option (Nat → ℚ)) : Prop where
  longEnough : ∀ m, lo = some m → ∀ t h, t + 1 < n → b t = 1 → b (t + 1) = 0 → RunUpTo b w before t h → m t ≤ h
  notTooLong : ∀ m, hi = some m → ∀ t h, t < n → b t = 1 → RunUpTo b w before t h → h ≤ m t
  continued : ∀ m, lo = some m → 0 < before → before < m 0 → b 0 = 1

/-- The number of trailing ones. -/
def trailingOnes (bs : List ℚ) : Nat := (bs.reverse.takeWhile (· = 1)).length

/-- The histories for which the duration before the horizon is computed correctly: only ones, or the `k` ones at the end
are preceded by enough other entries and the entries from position `k` up to them are all zero. -/
def HistoryOk (bs : List ℚ) : Prop :=
  trailingOnes bs = bs.length ∨ (2 * trailingOnes bs ≤ bs.length ∧
    ∀ i, trailingOnes bs ≤ i → i < bs.length - trailingOnes bs → bs.getD i 0 = 0)

end Flix
