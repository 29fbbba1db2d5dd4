import Verif.Spec.EnergyUnits
import Verif.Spec.Units

/-!
# A system `k` times as large

Every size, capacity, limit of flow hours or charge states, absolute loss and flow rate of the past is `k` times as large, and so is everything that is paid per start, per running hour, or
for building (or not building) at all.  Prices per flow hour, per size and per unit of excess stay; relative bounds, profiles, efficiencies, load factors, durations and the
shares between effects stay.  Limits of effects are `k` times as large.
-/

namespace Flix

/-- `k` times the values of a dictionary. -/
def EffDict.times (k : ℚ) (d : EffDict) : EffDict := d.map fun q => (q.1, q.2.map (k * ·))

def OnOffParams.times (k : ℚ) (q : OnOffParams) : OnOffParams :=
  { q with effectsPerSwitchOn := EffDict.times k q.effectsPerSwitchOn, effectsPerRunningHour := EffDict.times k q.effectsPerRunningHour }

def InvestParams.times (k : ℚ) (q : InvestParams) : InvestParams :=
  { q with
    fixedSize := q.fixedSize.map (k * ·), minimumSize := k * q.minimumSize, maximumSize := q.maximumSize.map (k * ·)
    fixEffects := EffDict.times k q.fixEffects, divestEffects := EffDict.times k q.divestEffects
    effectsInSegments := q.effectsInSegments.map fun x => (x.1.map fun p => (k * p.1, k * p.2), x.2.map fun r => (r.1, r.2.map fun p => (k * p.1, k * p.2))) }

def SizeArg.times (k : ℚ) : SizeArg → SizeArg
  | .unset => .unset
  | .num x => .num (k * x)
  | .invest q => .invest (q.times k)

def Size.times (k : ℚ) : Size → Size
  | .num x => .num (k * x)
  | .invest q => .invest (q.times k)

def FlowData.times (k : ℚ) (f : FlowData) : FlowData :=
  { f with
    size := f.size.times k, flowHoursTotalMax := f.flowHoursTotalMax.map (k * ·), flowHoursTotalMin := f.flowHoursTotalMin.map (k * ·)
    previousFlowRate := f.previousFlowRate.map (Num.map (k * ·)), onOff := f.onOff.map (OnOffParams.times k) }

def CompData.times (k : ℚ) (c : CompData) : CompData :=
  { c with inputs := c.inputs.map (FlowData.times k), outputs := c.outputs.map (FlowData.times k), onOff := c.onOff.map (OnOffParams.times k) }

/-- Conversion factors are quotients of powers and stay. -/
def ConvData.times (k : ℚ) (c : ConvData) : ConvData where
  comp := c.comp.times k
  factors := c.factors
  segments := c.segments.map fun q => (q.1, q.2.map fun p => (p.1.map (k * ·), p.2.map (k * ·)))

def StorageData.times (k : ℚ) (s : StorageData) : StorageData :=
  { s with
    charging := s.charging.times k, discharging := s.discharging.times k, capacity := s.capacity.times k
    initial := s.initial.inUnit k, minFinal := s.minFinal.map (k * ·), maxFinal := s.maxFinal.map (k * ·) }

def TransData.times (k : ℚ) (t : TransData) : TransData :=
  { t with
    in1 := t.in1.times k, out1 := t.out1.times k, in2 := t.in2.map (FlowData.times k), out2 := t.out2.map (FlowData.times k)
    absLosses := t.absLosses.map (Num.map (k * ·)), onOff := t.onOff.map (OnOffParams.times k) }

def Comp.times (k : ℚ) : Comp → Comp
  | .plain c => .plain (c.times k)
  | .converter c => .converter (c.times k)
  | .storage s => .storage (s.times k)
  | .transmission t => .transmission (t.times k)

/-- Shares between effects are quotients and stay. -/
def EffectData.times (k : ℚ) (e : EffectData) : EffectData :=
  { e with
    minOperation := e.minOperation.map (k * ·), maxOperation := e.maxOperation.map (k * ·), minInvest := e.minInvest.map (k * ·), maxInvest := e.maxInvest.map (k * ·)
    minTotal := e.minTotal.map (k * ·), maxTotal := e.maxTotal.map (k * ·)
    minOperationPerHour := e.minOperationPerHour.map (Num.map (k * ·)), maxOperationPerHour := e.maxOperationPerHour.map (Num.map (k * ·)) }

def System.times (k : ℚ) (s : System) : System where
  effects := s.effects.map (EffectData.times k)
  comps := s.comps.map (Comp.times k)
  buses := s.buses

/-- No effect depends piecewise on a size. -/
def Comp.NoPieces (c : Comp) : Prop :=
  (∀ f ∈ c.flows, ∀ q, f.size = .invest q → q.effectsInSegments = none) ∧ ∀ st q, c = .storage st → st.capacity = .invest q → q.effectsInSegments = none

end Flix
