import Verif.Spec.Contrib

/-!
# Bookkeeping of effects

Totals of effects, what makes them right, and what makes them allowed; without reference to the model.
-/

namespace Flix

/-- A proposed total of every effect: operation per step and investment. -/
structure Totals where
  op : String → Nat → ℚ
  inv : String → ℚ

/-- Every effect is what the components cause directly plus the shares of the other effects. -/
def Totals.Balanced (T : Totals) (es : List EffectData) (n : Nat) (op : String → Nat → ℚ) (inv : String → ℚ) : Prop :=
  ∀ e ∈ es,
    (∀ t < n, T.op e.label t = op e.label t + (es.map fun o => ((o.shareOperation.filter fun q => q.1 = e.label).map fun q => q.2.at t * T.op o.label t).sum).sum) ∧
    T.inv e.label = inv e.label + (es.map fun o => ((o.shareInvest.filter fun q => q.1 = e.label).map fun q => q.2.at 0 * T.inv o.label).sum).sum

/-- Operation over the horizon. -/
def Totals.opSum (T : Totals) (n : Nat) (l : String) : ℚ := ∑ t ∈ Finset.range n, T.op l t

/-- All declared limits of the effects are kept. -/
structure Totals.Allowed (T : Totals) (sys : Sys) (e : EffectData) : Prop where
  minOperation : ∀ m, e.minOperation = some m → m ≤ T.opSum sys.n e.label
  maxOperation : ∀ m, e.maxOperation = some m → T.opSum sys.n e.label ≤ m
  minInvest : ∀ m, e.minInvest = some m → m ≤ T.inv e.label
  maxInvest : ∀ m, e.maxInvest = some m → T.inv e.label ≤ m
  minTotal : ∀ m, e.minTotal = some m → m ≤ T.opSum sys.n e.label + T.inv e.label
  maxTotal : ∀ m, e.maxTotal = some m → T.opSum sys.n e.label + T.inv e.label ≤ m
  minPerHour : ∀ m, e.minOperationPerHour = some m → ∀ t < sys.n, m.at t * sys.dt.getD t 0 ≤ T.op e.label t
  maxPerHour : ∀ m, e.maxOperationPerHour = some m → ∀ t < sys.n, T.op e.label t ≤ m.at t * sys.dt.getD t 0

end Flix
