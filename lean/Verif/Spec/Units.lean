import Verif.Spec.Looser

/-!
# Other units for effects

The same flow system with effects counted in other units: one unit of the effect `l` becomes `u l` new ones (euros and cents, tonnes and kilograms).  Prices and limits of the
effect are multiplied by `u l`, a share of one effect in another by the quotient of both factors, penalties by the factor of the objective.
-/

namespace Flix

/-- The same effects, each value in the new unit of the effect it names. -/
def PricesInUnits (n : Nat) (u : String → ℚ) (es : List EffectData) (d d' : EffDict) : Prop :=
  List.Forall₂ (fun p p' => p'.1 = p.1 ∧ ∀ l, names es l p.1 → ∀ t < n, p'.2.at t = u l * p.2.at t) d d'

/-- A limit in the new unit. -/
def LimitInUnits (k : ℚ) (a b : Option ℚ) : Prop := b = a.map fun m => k * m

/-- A limit per step in the new unit. -/
def SeriesInUnits (n : Nat) (k : ℚ) : Option Num → Option Num → Prop
  | none, none => True
  | some m, some m' => ∀ t < n, m'.at t = k * m.at t
  | _, _ => False

/-- Shares of the effect `l` in others: new units of the other per new unit of `l`. -/
def SharesInUnits (n : Nat) (u : String → ℚ) (l : String) (d d' : List (String × Num)) : Prop :=
  List.Forall₂ (fun p p' => p'.1 = p.1 ∧ ∀ t < n, p'.2.at t * u l = u p.1 * p.2.at t) d d'

/-- The effect in its new unit. -/
structure EffectData.InUnits (n : Nat) (u : String → ℚ) (e e' : EffectData) : Prop where
  label : e'.label = e.label
  standard : e'.isStandard = e.isStandard
  objective : e'.isObjective = e.isObjective
  operation : SharesInUnits n u e.label e.shareOperation e'.shareOperation
  invest : SharesInUnits n u e.label e.shareInvest e'.shareInvest
  minOperation : LimitInUnits (u e.label) e.minOperation e'.minOperation
  maxOperation : LimitInUnits (u e.label) e.maxOperation e'.maxOperation
  minInvest : LimitInUnits (u e.label) e.minInvest e'.minInvest
  maxInvest : LimitInUnits (u e.label) e.maxInvest e'.maxInvest
  minTotal : LimitInUnits (u e.label) e.minTotal e'.minTotal
  maxTotal : LimitInUnits (u e.label) e.maxTotal e'.maxTotal
  minPerHour : SeriesInUnits n (u e.label) e.minOperationPerHour e'.minOperationPerHour
  maxPerHour : SeriesInUnits n (u e.label) e.maxOperationPerHour e'.maxOperationPerHour

/-- The bus with its penalty in the new unit of the objective. -/
structure BusData.InUnits (n : Nat) (k : ℚ) (b b' : BusData) : Prop where
  label : b'.label = b.label
  penalty : SeriesInUnits n k b.excessPenalty b'.excessPenalty

/-- Effects that depend piecewise on the size keep their unit. -/
def InvestParams.KeepsPieces (u : String → ℚ) (q : InvestParams) : Prop := ∀ x es, q.effectsInSegments = some (x, es) → ∀ p ∈ es, u p.1 = 1

/-- The same for all investments of a component. -/
def Comp.KeepsPieces (u : String → ℚ) (c : Comp) : Prop :=
  (∀ f ∈ c.flows, ∀ q, f.size = .invest q → q.KeepsPieces u) ∧ ∀ st q, c = .storage st → st.capacity = .invest q → q.KeepsPieces u

/-- The flow system `s'` is `s` with effects in other units: what components may do is the same, effects that depend piecewise on a size keep their unit. -/
structure System.InUnits (big : ℚ) (n : Nat) (u : String → ℚ) (k : ℚ) (s s' : System) : Prop where
  effects : List.Forall₂ (EffectData.InUnits n u) s.effects s'.effects
  comps : List.Forall₂ (fun c c' => Comp.Looser big n c c' ∧ Comp.Looser big n c' c ∧ c.Priced (PricesInUnits n u s.effects) c') s.comps s'.comps
  pieces : ∀ c ∈ s.comps, c.KeepsPieces u
  buses : List.Forall₂ (BusData.InUnits n k) s.buses s'.buses
  goal : ∀ e ∈ s.effects, e.isObjective = true → u e.label = k

end Flix
