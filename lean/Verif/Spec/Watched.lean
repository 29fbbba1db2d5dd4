import Verif.Spec.Contrib

/-!
# A flow system without one of its effects

The effect and all its prices are left out: in dictionaries of effects and in the shares of other effects.  Everything else stays.
-/

namespace Flix

/-- The dictionary without the values for the effect `l`. -/
def EffDict.without (l : String) (d : EffDict) : EffDict := d.filter fun q => q.1 ≠ some l

def OnOffParams.mapEff (g : EffDict → EffDict) (q : OnOffParams) : OnOffParams :=
  { q with effectsPerSwitchOn := g q.effectsPerSwitchOn, effectsPerRunningHour := g q.effectsPerRunningHour }

def InvestParams.mapEff (g : EffDict → EffDict) (q : InvestParams) : InvestParams :=
  { q with fixEffects := g q.fixEffects, divestEffects := g q.divestEffects, specificEffects := g q.specificEffects }

def SizeArg.mapEff (g : EffDict → EffDict) : SizeArg → SizeArg
  | .unset => .unset
  | .num x => .num x
  | .invest q => .invest (q.mapEff g)

def Size.mapEff (g : EffDict → EffDict) : Size → Size
  | .num x => .num x
  | .invest q => .invest (q.mapEff g)

def FlowData.mapEff (g : EffDict → EffDict) (f : FlowData) : FlowData :=
  { f with size := f.size.mapEff g, effectsPerFlowHour := g f.effectsPerFlowHour, onOff := f.onOff.map (OnOffParams.mapEff g) }

def CompData.mapEff (g : EffDict → EffDict) (c : CompData) : CompData :=
  { c with inputs := c.inputs.map (FlowData.mapEff g), outputs := c.outputs.map (FlowData.mapEff g), onOff := c.onOff.map (OnOffParams.mapEff g) }

def StorageData.mapEff (g : EffDict → EffDict) (s : StorageData) : StorageData :=
  { s with charging := s.charging.mapEff g, discharging := s.discharging.mapEff g, capacity := s.capacity.mapEff g }

def TransData.mapEff (g : EffDict → EffDict) (t : TransData) : TransData :=
  { t with in1 := t.in1.mapEff g, out1 := t.out1.mapEff g, in2 := t.in2.map (FlowData.mapEff g), out2 := t.out2.map (FlowData.mapEff g), onOff := t.onOff.map (OnOffParams.mapEff g) }

/-- The component with all its dictionaries of effects changed by `g`. -/
def Comp.mapEff (g : EffDict → EffDict) : Comp → Comp
  | .plain c => .plain (c.mapEff g)
  | .converter c => .converter { c with comp := c.comp.mapEff g }
  | .storage s => .storage (s.mapEff g)
  | .transmission t => .transmission (t.mapEff g)

/-- The effect without its shares in the effect `l`. -/
def EffectData.without (l : String) (e : EffectData) : EffectData :=
  { e with shareOperation := e.shareOperation.filter fun q => q.1 ≠ l, shareInvest := e.shareInvest.filter fun q => q.1 ≠ l }

/-- The flow system without the effect `l`. -/
def System.without (l : String) (s : System) : System where
  effects := (s.effects.filter fun e => e.label ≠ l).map (EffectData.without l)
  comps := s.comps.map (Comp.mapEff (EffDict.without l))
  buses := s.buses

/-- An effect that is only observed: neither the standard nor the objective, without limits, without shares in other effects. -/
structure EffectData.OnlyObserved (e : EffectData) : Prop where
  standard : e.isStandard = false
  objective : e.isObjective = false
  operation : e.shareOperation = []
  invest : e.shareInvest = []
  minOperation : e.minOperation = none
  maxOperation : e.maxOperation = none
  minInvest : e.minInvest = none
  maxInvest : e.maxInvest = none
  minPerHour : e.minOperationPerHour = none
  maxPerHour : e.maxOperationPerHour = none
  minTotal : e.minTotal = none
  maxTotal : e.maxTotal = none

end Flix
