import Verif.Model.System

/-!
# What the model of a segment sees (core.py:125-134, flow_system.py:228-269, calculation.py:375-391)

A segment is modelled for neighbouring time steps: `len` steps from number `a` on.  Every time series gives its values of these steps, scalars
stay as they are; the start values of flows and storages are those handed over by the segment before.
-/

namespace Flix

/-- `TimeSeries.active_data` (core.py:125-134) for the steps of a segment. -/
def Num.window (a len : Nat) : Num → Num
  | .s x => .s x
  | .v xs => .v ((xs.drop a).take len)

/-- The time data of the selected steps (flow_system.py:228-269, structure.py:44-51).  `previous_dt_in_hours` is that of the flow system, also for
later segments. -/
def Sys.window (a len : Nat) (sys : Sys) : Sys where
  n := len
  dt := (sys.dt.drop a).take len
  total := ((sys.dt.drop a).take len).sum
  prevDt := sys.prevDt
  cfg := sys.cfg

/-- `effect_values_to_time_series` (effects.py:194-207): every value is a time series. -/
def EffDict.window (a len : Nat) (d : EffDict) : EffDict := d.map fun q => (q.1, q.2.window a len)

/-- `OnOffParameters.transform_data` (interface.py:153-172). -/
def OnOffParams.window (a len : Nat) (q : OnOffParams) : OnOffParams :=
  { q with
    effectsPerSwitchOn := q.effectsPerSwitchOn.window a len
    effectsPerRunningHour := q.effectsPerRunningHour.window a len
    consecOnMin := q.consecOnMin.map (·.window a len)
    consecOnMax := q.consecOnMax.map (·.window a len)
    consecOffMin := q.consecOffMin.map (·.window a len)
    consecOffMax := q.consecOffMax.map (·.window a len) }

/-- The start values when a segment is modelled (calculation.py:481-498): `previous_flow_rate` by the labels of component and flow,
`initial_charge_state` by the label of the storage. -/
structure SegStart where
  rate : String → String → Option Num
  charge : String → InitCharge

/-- `Flow.transform_data` (elements.py:244-253) and the previous flow rate handed over. -/
def FlowData.window (a len : Nat) (prev : Option Num) (f : FlowData) : FlowData :=
  { f with
    relMin := f.relMin.window a len
    relMax := f.relMax.window a len
    fixedProfile := f.fixedProfile.map (·.window a len)
    effectsPerFlowHour := f.effectsPerFlowHour.window a len
    onOff := f.onOff.map (·.window a len)
    previousFlowRate := prev }

/-- `Component.transform_data` (elements.py:71-73). -/
def CompData.window (a len : Nat) (st : SegStart) (c : CompData) : CompData :=
  { c with
    inputs := c.inputs.map fun f => f.window a len (st.rate c.label f.label)
    outputs := c.outputs.map fun f => f.window a len (st.rate c.label f.label)
    onOff := c.onOff.map (·.window a len) }

/-- `LinearConverter.transform_data` (components.py:94-118). -/
def ConvData.window (a len : Nat) (st : SegStart) (c : ConvData) : ConvData where
  comp := c.comp.window a len st
  factors := c.factors.map fun (fs : Factors) => fs.map fun q => (q.1, q.2.window a len)
  segments := c.segments.map fun r => (r.1, r.2.map fun q => (q.1.window a len, q.2.window a len))

/-- `Storage.transform_data` (components.py:217-229) and the charge state handed over.  The relative limits of the charge state are cut to the steps
like all other series, although the charge state has one value more (C64). -/
def StorageData.window (a len : Nat) (st : SegStart) (s : StorageData) : StorageData :=
  { s with
    charging := s.charging.window a len (st.rate s.label s.charging.label)
    discharging := s.discharging.window a len (st.rate s.label s.discharging.label)
    relMinCharge := s.relMinCharge.window a len
    relMaxCharge := s.relMaxCharge.window a len
    etaCharge := s.etaCharge.window a len
    etaDischarge := s.etaDischarge.window a len
    relLoss := s.relLoss.window a len
    initial := st.charge s.label }

/-- `Transmission.transform_data` (components.py:316-319).  Simplification: every segment starts from the flows as the user declared them; in the
code the on/off parameters and sizes filled in by earlier segments stay (components.py:331-341), which makes no difference by `C89_selection_partial`. -/
def TransData.window (a len : Nat) (st : SegStart) (t : TransData) : TransData :=
  { t with
    in1 := t.in1.window a len (st.rate t.label t.in1.label)
    out1 := t.out1.window a len (st.rate t.label t.out1.label)
    in2 := t.in2.map fun f => f.window a len (st.rate t.label f.label)
    out2 := t.out2.map fun f => f.window a len (st.rate t.label f.label)
    relLosses := t.relLosses.map (·.window a len)
    absLosses := t.absLosses.map (·.window a len)
    onOff := t.onOff.map (·.window a len) }

/-- A component as a segment sees it (calculation.py:371-391). -/
def Comp.window (a len : Nat) (st : SegStart) : Comp → Comp
  | .plain c => .plain (c.window a len st)
  | .converter c => .converter (c.window a len st)
  | .storage s => .storage (s.window a len st)
  | .transmission t => .transmission (t.window a len st)

/-- `Effect.transform_data` (effects.py:134-145); shares between investments are no time series. -/
def EffectData.window (a len : Nat) (e : EffectData) : EffectData :=
  { e with
    shareOperation := e.shareOperation.map fun q => (q.1, q.2.window a len)
    minOperationPerHour := e.minOperationPerHour.map (·.window a len)
    maxOperationPerHour := e.maxOperationPerHour.map (·.window a len) }

/-- `Bus.transform_data` (elements.py:122-125). -/
def BusData.window (a len : Nat) (b : BusData) : BusData := { b with excessPenalty := b.excessPenalty.map (·.window a len) }

/-- The flow system as a segment sees it (calculation.py:371-391). -/
def System.window (a len : Nat) (st : SegStart) (s : System) : System where
  effects := s.effects.map (·.window a len)
  comps := s.comps.map (·.window a len st)
  buses := s.buses.map (·.window a len)

end Flix
