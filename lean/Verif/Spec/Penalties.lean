import Verif.Props.System

/-!
# Penalties of excess

Systems that differ in what excess costs, and operation without excess.
-/

namespace Flix

/-- The systems differ at most in what excess costs. -/
structure System.OnlyPenalties (s s' : System) : Prop where
  effects : s'.effects = s.effects
  comps : s'.comps = s.comps
  buses : List.Forall₂ (fun b b' => b'.label = b.label ∧ (b'.excessPenalty = none ↔ b.excessPenalty = none)) s.buses s'.buses

/-- The system without the possibility of excess. -/
def System.strict (s : System) : System := { s with buses := s.buses.map fun b => { b with excessPenalty := none } }

/-- Wherever excess is possible it costs at least `p` per flow hour. -/
def System.PenaltiesAbove (n : Nat) (p : ℚ) (s : System) : Prop := ∀ b ∈ s.buses, ∀ pen, b.excessPenalty = some pen → ∀ t < n, p ≤ pen.at t

/-- Nothing is missing and nothing is left over at any bus. -/
def System.NoExcess (n : Nat) (s : System) (σ : Assignment) : Prop := ∀ b ∈ s.buses, ∀ t < n, fedInto σ s b.label t = takenFrom σ s b.label t ∧
  (b.excessPenalty ≠ none → σ (b.label ++ "_" ++ "excess_input") t = 0 ∧ σ (b.label ++ "_" ++ "excess_output") t = 0)

end Flix
