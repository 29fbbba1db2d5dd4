import Verif.Spec.Penalties

/-!
# Dearer excess

How the penalties of two or three otherwise equal systems compare.
-/

namespace Flix

/-- What excess costs at a bus per flow hour in a step (0 if excess is not possible). -/
def BusData.penaltyAt (b : BusData) (t : Nat) : ℚ :=
  match b.excessPenalty with
  | none => 0
  | some pen => pen.at t

/-- Flow hours of excess at the named buses. -/
def System.excessHours (sys : Sys) (names : List String) (s : System) (σ : Assignment) : ℚ :=
  (s.buses.map fun b => if b.label ∈ names ∧ b.excessPenalty ≠ none then
    ∑ t ∈ Finset.range sys.n, sys.dt.getD t 0 * (σ (b.label ++ "_" ++ "excess_input") t + σ (b.label ++ "_" ++ "excess_output") t) else 0).sum

/-- The systems differ only in that excess costs `d` more per flow hour at the named buses. -/
structure System.Dearer (n : Nat) (d : ℚ) (names : List String) (s s' : System) : Prop where
  same : s.OnlyPenalties s'
  raised : List.Forall₂ (fun b b' => b.excessPenalty ≠ none → ∀ t < n, b'.penaltyAt t = b.penaltyAt t + if b.label ∈ names then d else 0) s.buses s'.buses

/-- The systems differ only in the penalties, and none is lower in the second one. -/
structure System.NotCheaperExcess (n : Nat) (s s' : System) : Prop where
  same : s.OnlyPenalties s'
  raised : List.Forall₂ (fun b b' => ∀ t < n, b.penaltyAt t ≤ b'.penaltyAt t) s.buses s'.buses

/-- The penalties of `s` lie between those of `s₀` and `s₁`, the part `w` of the way from `s₀` to `s₁`. -/
structure System.BetweenPenalties (n : Nat) (w : ℚ) (s s₀ s₁ : System) : Prop where
  first : s.OnlyPenalties s₀
  second : s.OnlyPenalties s₁
  mixed : List.Forall₂ (fun b q => ∀ t < n, b.penaltyAt t = (1 - w) * q.1.penaltyAt t + w * q.2.penaltyAt t) s.buses (s₀.buses.zip s₁.buses)

end Flix
