import Verif.Model.System
import Verif.Spec.Effects
import Verif.Spec.Components
import Verif.Spec.Invest

/-!
# What the user declared to cost something

Contributions of flows, components, storages and buses to an effect, in terms of the declared values and the reported variables.
-/

namespace Flix

/-- The key of a dictionary of effects names the effect `l`; `None` names the standard effect. -/
def names (es : List EffectData) (l : String) : Option String → Bool
  | some e => decide (e = l)
  | none => match es.find? (·.isStandard) with | some e => decide (e.label = l) | none => false

/-- The value declared for the effect `l` in step `t`. -/
def effVal (es : List EffectData) (vals : EffDict) (l : String) (t : Nat) : ℚ :=
  ((vals.filter fun q => names es l q.1).map fun q => q.2.at t).sum

/-- Effects of starts and running hours of the element `el` in step `t`. -/
def onOffOperation (dt : Nat → ℚ) (σ : Assignment) (es : List EffectData) (el : String) (q : Option OnOffParams) (l : String) (t : Nat) : ℚ :=
  match q with
  | none => 0
  | some q => effVal es q.effectsPerSwitchOn l t * σ (el ++ "__OnOff" ++ "_" ++ "switchOn") t +
      effVal es q.effectsPerRunningHour l t * dt t * σ (el ++ "__OnOff" ++ "_" ++ "on") t

/-- Effects of a flow in step `t`. -/
def flowOperation (dt : Nat → ℚ) (σ : Assignment) (es : List EffectData) (comp : String) (f : FlowData) (l : String) (t : Nat) : ℚ :=
  effVal es f.effectsPerFlowHour l t * dt t * σ (rateL comp f.label) t + onOffOperation dt σ es (comp ++ "__" ++ f.label) f.onOff l t

/-- Sum of the segmented shares for the effect `l`. -/
def segmentedCost (σ : Assignment) (el : String) (q : InvestParams) (l : String) : ℚ :=
  match q.effectsInSegments with
  | none => 0
  | some (_, es) => ((es.filter fun p => p.1 = l).map fun p => σ (el ++ "__" ++ "SegmentedShares" ++ "_" ++ (p.1 ++ "_segmented")) 0).sum

/-- 1 if invested, 0 if not. -/
def decision (σ : Assignment) (el : String) (q : InvestParams) : ℚ :=
  if q.optional then σ (el ++ "__" ++ "Investment" ++ "_" ++ "isInvested") 0 else 1

/-- Effects of an investment: fixed if invested, divestment if not, specific per size, segmented. -/
def investCost (σ : Assignment) (es : List EffectData) (el : String) (q : InvestParams) (l : String) : ℚ :=
  effVal es q.fixEffects l 0 * decision σ el q + effVal es q.divestEffects l 0 * (1 - decision σ el q) +
    effVal es q.specificEffects l 0 * σ (el ++ "__" ++ "Investment" ++ "_" ++ "size") 0 + segmentedCost σ el q l

/-- Effects of the investment of a flow. -/
def flowInvestment (σ : Assignment) (es : List EffectData) (comp : String) (f : FlowData) (l : String) : ℚ :=
  match f.size with
  | .invest q => investCost σ es (comp ++ "__" ++ f.label) q l
  | _ => 0

/-- Effects of the investment in the capacity of a storage. -/
def capacityInvestment (σ : Assignment) (es : List EffectData) (s : StorageData) (l : String) : ℚ :=
  match s.capacity with
  | .invest q => investCost σ es s.label q l
  | .num _ => 0

/-- The label given to a component. -/
def Comp.label : Comp → String
  | .plain c => c.label
  | .converter c => c.comp.label
  | .storage s => s.label
  | .transmission t => t.label

/-- The inputs given to a component. -/
def Comp.inputs : Comp → List FlowData
  | .plain c => c.inputs
  | .converter c => c.comp.inputs
  | .storage s => [s.charging]
  | .transmission t => t.in1 :: t.in2.toList

/-- The outputs given to a component. -/
def Comp.outputs : Comp → List FlowData
  | .plain c => c.outputs
  | .converter c => c.comp.outputs
  | .storage s => [s.discharging]
  | .transmission t => t.out1 :: t.out2.toList

def Comp.flows (c : Comp) : List FlowData := c.inputs ++ c.outputs

/-- The on/off parameters given to a component (storages have none). -/
def Comp.onOff : Comp → Option OnOffParams
  | .plain c => c.onOff
  | .converter c => c.comp.onOff
  | .storage _ => none
  | .transmission t => t.onOff

/-- Effects of the operation of a component in step `t`. -/
def Comp.operation (dt : Nat → ℚ) (σ : Assignment) (es : List EffectData) (c : Comp) (l : String) (t : Nat) : ℚ :=
  (c.flows.map fun f => flowOperation dt σ es c.label f l t).sum + onOffOperation dt σ es c.label c.onOff l t

/-- Effects of the investments in a component. -/
def Comp.investment (σ : Assignment) (es : List EffectData) (c : Comp) (l : String) : ℚ :=
  (c.flows.map fun f => flowInvestment σ es c.label f l).sum + (match c with | .storage s => capacityInvestment σ es s l | _ => 0)

/-- The penalty of a bus. -/
def BusData.penaltyCost (sys : Sys) (σ : Assignment) (b : BusData) : ℚ :=
  match b.excessPenalty with
  | none => 0
  | some pen => ∑ t ∈ Finset.range sys.n, pen.at t * sys.dt.getD t 0 *
      (σ (b.label ++ "_" ++ "excess_input") t + σ (b.label ++ "_" ++ "excess_output") t)

/-! ## Shapes of the declared values -/

/-- Values for the operation: numbers or series over the horizon. -/
def EffDict.Series (n : Nat) (d : EffDict) : Prop := ∀ q ∈ d, q.2.isScalar = true ∨ q.2.len = n

def OnOffParams.EffFits (n : Nat) (q : OnOffParams) : Prop := q.effectsPerSwitchOn.Series n ∧ q.effectsPerRunningHour.Series n

def InvestParams.EffFits (q : InvestParams) : Prop := q.fixEffects.Scalars ∧ q.divestEffects.Scalars ∧ q.specificEffects.Scalars

structure FlowData.EffFits (n : Nat) (f : FlowData) : Prop where
  op : f.effectsPerFlowHour.Series n
  onOff : ∀ q, f.onOff = some q → q.EffFits n
  invest : ∀ q, f.size = .invest q → q.EffFits

structure Comp.EffFits (n : Nat) (c : Comp) : Prop where
  flows : ∀ f ∈ c.flows, f.EffFits n
  onOff : ∀ q, c.onOff = some q → q.EffFits n
  invest : ∀ s q, c = .storage s → s.capacity = .invest q → q.EffFits

end Flix
