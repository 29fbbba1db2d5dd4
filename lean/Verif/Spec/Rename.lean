import Verif.Spec.Contrib

/-!
# The same system under other names

Components, flows, buses and effects get other labels, and everything that refers to them follows.
-/

namespace Flix

/-- New labels: for components, for the flows of each component (by its old label), for buses and for effects. -/
structure Renaming where
  comp : String → String
  flow : String → String → String
  bus : String → String
  effect : String → String

/-- Different things keep different names. -/
structure Renaming.Injective (ρ : Renaming) : Prop where
  comp : Function.Injective ρ.comp
  flow : ∀ c, Function.Injective (ρ.flow c)
  bus : Function.Injective ρ.bus
  effect : Function.Injective ρ.effect

/-- The keys of a dictionary of effects; `None` still names the standard effect. -/
def EffDict.rename (ε : String → String) (d : EffDict) : EffDict := d.map fun q => (q.1.map ε, q.2)

def OnOffParams.rename (ε : String → String) (q : OnOffParams) : OnOffParams :=
  { q with effectsPerSwitchOn := EffDict.rename ε q.effectsPerSwitchOn, effectsPerRunningHour := EffDict.rename ε q.effectsPerRunningHour }

def InvestParams.rename (ε : String → String) (q : InvestParams) : InvestParams :=
  { q with
    fixEffects := EffDict.rename ε q.fixEffects, specificEffects := EffDict.rename ε q.specificEffects, divestEffects := EffDict.rename ε q.divestEffects
    effectsInSegments := q.effectsInSegments.map fun x => (x.1, x.2.map fun r => (ε r.1, r.2)) }

def SizeArg.rename (ε : String → String) : SizeArg → SizeArg
  | .unset => .unset
  | .num x => .num x
  | .invest q => .invest (q.rename ε)

def Size.rename (ε : String → String) : Size → Size
  | .num x => .num x
  | .invest q => .invest (q.rename ε)

/-- A flow of the component with the old label `c`. -/
def FlowData.rename (ρ : Renaming) (c : String) (f : FlowData) : FlowData :=
  { f with
    label := ρ.flow c f.label, bus := ρ.bus f.bus, size := f.size.rename ρ.effect
    effectsPerFlowHour := EffDict.rename ρ.effect f.effectsPerFlowHour, onOff := f.onOff.map (OnOffParams.rename ρ.effect) }

def CompData.rename (ρ : Renaming) (c : CompData) : CompData where
  label := ρ.comp c.label
  inputs := c.inputs.map (FlowData.rename ρ c.label)
  outputs := c.outputs.map (FlowData.rename ρ c.label)
  onOff := c.onOff.map (OnOffParams.rename ρ.effect)
  prevent := c.prevent.map (ρ.flow c.label)

def ConvData.rename (ρ : Renaming) (c : ConvData) : ConvData where
  comp := c.comp.rename ρ
  factors := c.factors.map fun fs => fs.map fun q => (ρ.flow c.comp.label q.1, q.2)
  segments := c.segments.map fun q => (ρ.flow c.comp.label q.1, q.2)

def StorageData.rename (ρ : Renaming) (s : StorageData) : StorageData :=
  { s with
    label := ρ.comp s.label, charging := s.charging.rename ρ s.label, discharging := s.discharging.rename ρ s.label
    capacity := s.capacity.rename ρ.effect }

def TransData.rename (ρ : Renaming) (t : TransData) : TransData :=
  { t with
    label := ρ.comp t.label, in1 := t.in1.rename ρ t.label, out1 := t.out1.rename ρ t.label
    in2 := t.in2.map (FlowData.rename ρ t.label), out2 := t.out2.map (FlowData.rename ρ t.label)
    onOff := t.onOff.map (OnOffParams.rename ρ.effect) }

def Comp.rename (ρ : Renaming) : Comp → Comp
  | .plain c => .plain (c.rename ρ)
  | .converter c => .converter (c.rename ρ)
  | .storage s => .storage (s.rename ρ)
  | .transmission t => .transmission (t.rename ρ)

def EffectData.rename (ε : String → String) (e : EffectData) : EffectData :=
  { e with
    label := ε e.label
    shareOperation := e.shareOperation.map fun q => (ε q.1, q.2), shareInvest := e.shareInvest.map fun q => (ε q.1, q.2) }

def BusData.rename (β : String → String) (b : BusData) : BusData := { b with label := β b.label }

def System.rename (ρ : Renaming) (s : System) : System where
  effects := s.effects.map (EffectData.rename ρ.effect)
  comps := s.comps.map (Comp.rename ρ)
  buses := s.buses.map (BusData.rename ρ.bus)

/-- The new full label of a component, a flow or a bus. -/
inductive System.Becomes (s : System) (ρ : Renaming) : String → String → Prop
  | comp (c : Comp) : c ∈ s.comps → s.Becomes ρ c.label (ρ.comp c.label)
  | flow (c : Comp) (f : FlowData) : c ∈ s.comps → f ∈ c.inputs ++ c.outputs → s.Becomes ρ (c.label ++ "__" ++ f.label) (ρ.comp c.label ++ "__" ++ ρ.flow c.label f.label)
  | bus (b : BusData) : b ∈ s.buses → s.Becomes ρ b.label (ρ.bus b.label)

/-- What is appended to the full label of an element to name one of its variables. -/
def variableEndings : List String :=
  ["_flow_rate", "_sumFlowHours", "__OnOff_on", "__OnOff_off", "__OnOff_consecutiveOnHours", "__OnOff_consecutiveOffHours", "__OnOff_totalOnHours", "__OnOff_switchOn", "__OnOff_switchOff", "__OnOff_nrSwitchOn",
    "__Investment_size", "__Investment_isInvested", "_charge_state", "_netto_discharge", "_excess_input", "_excess_output"]

/-- Effects declared for segments are effects of the system. -/
def System.SegmentsKnown (s : System) : Prop :=
  ∀ c ∈ s.comps,
    (∀ f ∈ c.inputs ++ c.outputs, ∀ q, f.size = .invest q → ∀ xs rs, q.effectsInSegments = some (xs, rs) → ∀ r ∈ rs, r.1 ∈ s.effects.map (·.label)) ∧
    ∀ t q, c = .storage t → t.capacity = .invest q → ∀ xs rs, q.effectsInSegments = some (xs, rs) → ∀ r ∈ rs, r.1 ∈ s.effects.map (·.label)

end Flix
