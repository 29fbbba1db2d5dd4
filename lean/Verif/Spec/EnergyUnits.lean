import Verif.Spec.Contrib

/-!
# Other units for energy

The same system with powers and energies counted in another unit: one unit becomes `k` new ones (megawatts and kilowatts: `k = 1000`).  Sizes, capacities, flow rates of the past,
limits of flow hours and charge states, absolute losses and the points of segments are multiplied by `k`; prices per flow hour or per size and penalties per unit of excess
are divided by it.  Relative bounds, profiles, efficiencies, load factors, durations and effects stay.
-/

namespace Flix

/-- Values per unit of energy or power. -/
def EffDict.perUnit (k : ℚ) (d : EffDict) : EffDict := d.map fun q => (q.1, q.2.map (· / k))

def InvestParams.inUnit (k : ℚ) (q : InvestParams) : InvestParams :=
  { q with
    fixedSize := q.fixedSize.map (k * ·), minimumSize := k * q.minimumSize, maximumSize := q.maximumSize.map (k * ·)
    specificEffects := EffDict.perUnit k q.specificEffects
    effectsInSegments := q.effectsInSegments.map fun x => (x.1.map fun p => (k * p.1, k * p.2), x.2) }

def SizeArg.inUnit (k : ℚ) : SizeArg → SizeArg
  | .unset => .unset
  | .num x => .num (k * x)
  | .invest q => .invest (q.inUnit k)

def Size.inUnit (k : ℚ) : Size → Size
  | .num x => .num (k * x)
  | .invest q => .invest (q.inUnit k)

def FlowData.inUnit (k : ℚ) (f : FlowData) : FlowData :=
  { f with
    size := f.size.inUnit k, effectsPerFlowHour := EffDict.perUnit k f.effectsPerFlowHour
    flowHoursTotalMax := f.flowHoursTotalMax.map (k * ·), flowHoursTotalMin := f.flowHoursTotalMin.map (k * ·)
    previousFlowRate := f.previousFlowRate.map (Num.map (k * ·)) }

def CompData.inUnit (k : ℚ) (c : CompData) : CompData :=
  { c with inputs := c.inputs.map (FlowData.inUnit k), outputs := c.outputs.map (FlowData.inUnit k) }

/-- Conversion factors are quotients of powers and stay. -/
def ConvData.inUnit (k : ℚ) (c : ConvData) : ConvData where
  comp := c.comp.inUnit k
  factors := c.factors
  segments := c.segments.map fun q => (q.1, q.2.map fun p => (p.1.map (k * ·), p.2.map (k * ·)))

def InitCharge.inUnit (k : ℚ) : InitCharge → InitCharge
  | .num x => .num (k * x)
  | i => i

def StorageData.inUnit (k : ℚ) (s : StorageData) : StorageData :=
  { s with
    charging := s.charging.inUnit k, discharging := s.discharging.inUnit k, capacity := s.capacity.inUnit k
    initial := s.initial.inUnit k, minFinal := s.minFinal.map (k * ·), maxFinal := s.maxFinal.map (k * ·) }

def TransData.inUnit (k : ℚ) (t : TransData) : TransData :=
  { t with
    in1 := t.in1.inUnit k, out1 := t.out1.inUnit k, in2 := t.in2.map (FlowData.inUnit k), out2 := t.out2.map (FlowData.inUnit k)
    absLosses := t.absLosses.map (Num.map (k * ·)) }

def Comp.inUnit (k : ℚ) : Comp → Comp
  | .plain c => .plain (c.inUnit k)
  | .converter c => .converter (c.inUnit k)
  | .storage s => .storage (s.inUnit k)
  | .transmission t => .transmission (t.inUnit k)

def BusData.inUnit (k : ℚ) (b : BusData) : BusData := { b with excessPenalty := b.excessPenalty.map (Num.map (· / k)) }

def System.inUnit (k : ℚ) (s : System) : System where
  effects := s.effects
  comps := s.comps.map (Comp.inUnit k)
  buses := s.buses.map (BusData.inUnit k)

/-- The configured constants are powers, too: below the one a flow counts as off, the other is the size of a flow without one. -/
def Cfg.inUnit (k : ℚ) (c : Cfg) : Cfg := ⟨k * c.eps, k * c.big⟩

def Sys.inUnit (k : ℚ) (sys : Sys) : Sys := { sys with cfg := sys.cfg.inUnit k }

/-- What is appended to the full label of an element to name a variable measured in units of power or energy. -/
def energyEndings : List String :=
  ["_flow_rate", "_sumFlowHours", "__Investment_size", "_charge_state", "_netto_discharge", "_excess_input", "_excess_output"]

/-- The full labels of components, flows and buses. -/
inductive System.HasElement (s : System) : String → Prop
  | comp (c : Comp) : c ∈ s.comps → s.HasElement c.label
  | flow (c : Comp) (f : FlowData) : c ∈ s.comps → f ∈ c.inputs ++ c.outputs → s.HasElement (c.label ++ "__" ++ f.label)
  | bus (b : BusData) : b ∈ s.buses → s.HasElement b.label

end Flix
