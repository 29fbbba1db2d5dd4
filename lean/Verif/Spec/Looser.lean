import Verif.Props.FlowInvest
import Verif.Spec.Contrib

/-!
# Looser limits

When one declaration restricts less than another: every limit is dropped, or moved so that it allows more.  Given sizes count as written; a flow without
a size and an investment without a largest size are limited by `big`.  What operation and investments cost is compared separately (`System.Priced`).
-/

namespace Flix

/-- The lower limit `b` is dropped or not above `a`. -/
def LooserMin (a b : Option ℚ) : Prop := ∀ m', b = some m' → ∃ m, a = some m ∧ m' ≤ m

/-- The upper limit `b` is dropped or not below `a`. -/
def LooserMax (a b : Option ℚ) : Prop := ∀ m', b = some m' → ∃ m, a = some m ∧ m ≤ m'

/-- The same for limits per step. -/
def LooserMinTS (n : Nat) (a b : Option Num) : Prop := ∀ m', b = some m' → ∃ m, a = some m ∧ ∀ t < n, m'.at t ≤ m.at t
def LooserMaxTS (n : Nat) (a b : Option Num) : Prop := ∀ m', b = some m' → ∃ m, a = some m ∧ ∀ t < n, m.at t ≤ m'.at t

/-- The states `q'` restrict less than `q`. -/
structure OnOffParams.Looser (n : Nat) (q q' : OnOffParams) : Prop where
  totalMin : LooserMin q.onHoursTotalMin q'.onHoursTotalMin
  totalMax : LooserMax q.onHoursTotalMax q'.onHoursTotalMax
  onMin : LooserMinTS n q.consecOnMin q'.consecOnMin
  onMax : LooserMaxTS n q.consecOnMax q'.consecOnMax
  offMin : LooserMinTS n q.consecOffMin q'.consecOffMin
  offMax : LooserMaxTS n q.consecOffMax q'.consecOffMax
  switches : LooserMax q.switchOnTotalMax q'.switchOnTotalMax

/-- Both have states, or none has. -/
def LooserStates (n : Nat) : Option OnOffParams → Option OnOffParams → Prop
  | none, none => True
  | some q, some q' => q.Looser n q'
  | _, _ => False

/-- The investment `q'` restricts the size less than `q`. -/
structure InvestParams.Looser (big : ℚ) (q q' : InvestParams) : Prop where
  fixedSize : q'.fixedSize = q.fixedSize
  optional : q'.optional = q.optional
  segments : q'.effectsInSegments = q.effectsInSegments
  min : q'.minimumSize ≤ q.minimumSize
  max : q.maximumSize.getD big ≤ q'.maximumSize.getD big

/-- The size of a flow, if it is not decided. -/
def SizeArg.given (big : ℚ) : SizeArg → Option ℚ
  | .unset => some big
  | .num x => some x
  | .invest _ => none

/-- A larger size that allows smaller rates too, or a freer decision. -/
def LooserSize (big : ℚ) (n : Nat) (f f' : FlowData) : Prop :=
  (∃ S S', f.size.given big = some S ∧ f'.size.given big = some S' ∧
    (∀ t < n, f'.lowRel t * S' ≤ f.lowRel t * S ∧ f.highRel t * S ≤ f'.highRel t * S') ∧
    (∀ m m', f.loadFactorMin = some m → f'.loadFactorMin = some m' → m' * S' ≤ m * S) ∧
    (∀ m m', f.loadFactorMax = some m → f'.loadFactorMax = some m' → m * S ≤ m' * S')) ∨
  ∃ q q', f.size = .invest q ∧ f'.size = .invest q' ∧ q.Looser big q'

/-- The flow `f'` restricts less than `f`; its profile may be dropped. -/
structure FlowData.Looser (big : ℚ) (n : Nat) (f f' : FlowData) : Prop where
  label : f'.label = f.label
  bus : f'.bus = f.bus
  previous : f'.previousFlowRate = f.previousFlowRate
  profile : f'.fixedProfile = none ∨ f'.fixedProfile = f.fixedProfile
  low : ∀ t < n, f'.lowRel t ≤ f.lowRel t
  high : ∀ t < n, f.highRel t ≤ f'.highRel t
  states : LooserStates n f.onOff f'.onOff
  hoursMin : LooserMin f.flowHoursTotalMin f'.flowHoursTotalMin
  hoursMax : LooserMax f.flowHoursTotalMax f'.flowHoursTotalMax
  loadMin : LooserMin f.loadFactorMin f'.loadFactorMin
  loadMax : LooserMax f.loadFactorMax f'.loadFactorMax
  size : LooserSize big n f f'

/-- The component `c'` restricts less than `c`. -/
structure CompData.Looser (big : ℚ) (n : Nat) (c c' : CompData) : Prop where
  label : c'.label = c.label
  inputs : List.Forall₂ (FlowData.Looser big n) c.inputs c'.inputs
  outputs : List.Forall₂ (FlowData.Looser big n) c.outputs c'.outputs
  states : LooserStates n c.onOff c'.onOff
  prevent : c'.prevent = c.prevent

/-- The capacity is larger and its limits allow more, or the decision on it is freer. -/
def LooserCapacity (big : ℚ) (n : Nat) (s s' : StorageData) : Prop :=
  (∃ S S', s.capacity = .num S ∧ s'.capacity = .num S' ∧
    ∀ t ≤ n, s'.relMinCharge.at t * S' ≤ s.relMinCharge.at t * S ∧ s.relMaxCharge.at t * S ≤ s'.relMaxCharge.at t * S') ∨
  ∃ q q', s.capacity = .invest q ∧ s'.capacity = .invest q' ∧ q.Looser big q'

/-- The storage `s'` restricts less than `s`. -/
structure StorageData.Looser (big : ℚ) (n : Nat) (s s' : StorageData) : Prop where
  label : s'.label = s.label
  charging : s.charging.Looser big n s'.charging
  discharging : s.discharging.Looser big n s'.discharging
  low : ∀ t ≤ n, s'.relMinCharge.at t ≤ s.relMinCharge.at t
  high : ∀ t ≤ n, s.relMaxCharge.at t ≤ s'.relMaxCharge.at t
  capacity : LooserCapacity big n s s'
  initial : s'.initial = s.initial
  minFinal : LooserMin s.minFinal s'.minFinal
  maxFinal : LooserMax s.maxFinal s'.maxFinal
  etaCharge : s'.etaCharge = s.etaCharge
  etaDischarge : s'.etaDischarge = s.etaDischarge
  relLoss : s'.relLoss = s.relLoss
  prevent : s'.preventSimultaneous = s.preventSimultaneous

/-- Both have a second direction, or none has. -/
def LooserOption (big : ℚ) (n : Nat) : Option FlowData → Option FlowData → Prop
  | none, none => True
  | some f, some f' => f.Looser big n f'
  | _, _ => False

/-- The transmission `t'` restricts less than `t`. -/
structure TransData.Looser (big : ℚ) (n : Nat) (t t' : TransData) : Prop where
  label : t'.label = t.label
  in1 : t.in1.Looser big n t'.in1
  out1 : t.out1.Looser big n t'.out1
  in2 : LooserOption big n t.in2 t'.in2
  out2 : LooserOption big n t.out2 t'.out2
  relLosses : t'.relLosses = t.relLosses
  absLosses : t'.absLosses = t.absLosses
  states : LooserStates n t.onOff t'.onOff
  prevent : t'.preventBoth = t.preventBoth

/-- A component of the same kind that restricts less. -/
def Comp.Looser (big : ℚ) (n : Nat) : Comp → Comp → Prop
  | .plain c, .plain c' => c.Looser big n c'
  | .converter c, .converter c' => c.comp.Looser big n c'.comp ∧ c'.factors = c.factors ∧ c'.segments = c.segments
  | .storage s, .storage s' => s.Looser big n s'
  | .transmission t, .transmission t' => t.Looser big n t'
  | _, _ => False

/-- The effect `e'` is limited less than `e`. -/
structure EffectData.Looser (n : Nat) (e e' : EffectData) : Prop where
  label : e'.label = e.label
  standard : e'.isStandard = e.isStandard
  objective : e'.isObjective = e.isObjective
  minOperation : LooserMin e.minOperation e'.minOperation
  maxOperation : LooserMax e.maxOperation e'.maxOperation
  minInvest : LooserMin e.minInvest e'.minInvest
  maxInvest : LooserMax e.maxInvest e'.maxInvest
  minPerHour : LooserMinTS n e.minOperationPerHour e'.minOperationPerHour
  maxPerHour : LooserMaxTS n e.maxOperationPerHour e'.maxOperationPerHour
  minTotal : LooserMin e.minTotal e'.minTotal
  maxTotal : LooserMax e.maxTotal e'.maxTotal

/-- The bus `b'` allows an excess that `b` did not, or the penalty is not higher. -/
structure BusData.Looser (n : Nat) (b b' : BusData) : Prop where
  label : b'.label = b.label
  penalty : ∀ p, b.excessPenalty = some p → ∃ p', b'.excessPenalty = some p' ∧ ∀ t < n, p'.at t ≤ p.at t

/-- The bus `b'` allows an excess if `b` did. -/
structure BusData.Freer (b b' : BusData) : Prop where
  label : b'.label = b.label
  allowed : b.excessPenalty ≠ none → b'.excessPenalty ≠ none

/-- Components and buses of the flow system `s'` restrict less than those of `s`. -/
structure System.Freer (big : ℚ) (n : Nat) (s s' : System) : Prop where
  comps : List.Forall₂ (Comp.Looser big n) s.comps s'.comps
  buses : List.Forall₂ BusData.Freer s.buses s'.buses

/-- The flow system `s'` restricts less than `s`. -/
structure System.Looser (big : ℚ) (n : Nat) (s s' : System) : Prop where
  effects : List.Forall₂ (EffectData.Looser n) s.effects s'.effects
  comps : List.Forall₂ (Comp.Looser big n) s.comps s'.comps
  buses : List.Forall₂ (BusData.Looser n) s.buses s'.buses

/-! ## Prices -/

/-- The prices of starts and running hours are related. -/
structure OnOffParams.Priced (R : EffDict → EffDict → Prop) (q q' : OnOffParams) : Prop where
  starts : R q.effectsPerSwitchOn q'.effectsPerSwitchOn
  hours : R q.effectsPerRunningHour q'.effectsPerRunningHour

/-- The prices of an investment are related. -/
structure InvestParams.Priced (R : EffDict → EffDict → Prop) (q q' : InvestParams) : Prop where
  fix : R q.fixEffects q'.fixEffects
  divest : R q.divestEffects q'.divestEffects
  specific : R q.specificEffects q'.specificEffects

/-- The prices of a flow, of its states and of its investment are related. -/
structure FlowData.Priced (R : EffDict → EffDict → Prop) (f f' : FlowData) : Prop where
  effects : R f.effectsPerFlowHour f'.effectsPerFlowHour
  states : ∀ q q', f.onOff = some q → f'.onOff = some q' → q.Priced R q'
  size : ∀ q q', f.size = .invest q → f'.size = .invest q' → q.Priced R q'

/-- The prices of a component are related. -/
structure Comp.Priced (R : EffDict → EffDict → Prop) (c c' : Comp) : Prop where
  flows : List.Forall₂ (FlowData.Priced R) c.flows c'.flows
  states : ∀ q q', c.onOff = some q → c'.onOff = some q' → q.Priced R q'
  capacity : ∀ s s' q q', c = .storage s → c' = .storage s' → s.capacity = .invest q → s'.capacity = .invest q' → q.Priced R q'

/-- The shares between effects are related. -/
structure EffectData.Priced (S : List (String × Num) → List (String × Num) → Prop) (e e' : EffectData) : Prop where
  operation : S e.shareOperation e'.shareOperation
  invest : S e.shareInvest e'.shareInvest

/-- All prices in a flow system are related. -/
structure System.Priced (R : EffDict → EffDict → Prop) (S : List (String × Num) → List (String × Num) → Prop) (s s' : System) : Prop where
  effects : List.Forall₂ (EffectData.Priced S) s.effects s'.effects
  comps : List.Forall₂ (Comp.Priced R) s.comps s'.comps

/-- Both flow systems have the same prices. -/
def System.SamePrices (s s' : System) : Prop := s.Priced Eq Eq s'

/-- The same effects, with values that are not higher in any step. -/
def LowerPrices (n : Nat) (d d' : EffDict) : Prop := List.Forall₂ (fun p p' => p'.1 = p.1 ∧ ∀ t < n, p'.2.at t ≤ p.2.at t) d d'

/-- The same effects, with factors that are not negative and not higher in any step. -/
def LowerShares (n : Nat) (d d' : List (String × Num)) : Prop := List.Forall₂ (fun p p' => p'.1 = p.1 ∧ ∀ t < n, 0 ≤ p'.2.at t ∧ p'.2.at t ≤ p.2.at t) d d'

/-- No price in `s'` is higher than in `s`. -/
def System.Cheaper (n : Nat) (s s' : System) : Prop := s.Priced (LowerPrices n) (LowerShares n) s'

end Flix
