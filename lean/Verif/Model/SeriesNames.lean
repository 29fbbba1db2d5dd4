import Verif.Model.Aggregation
import Verif.Model.Series

/-!
# The labels of the time series of a flow system

`transform_data` turns the data of every element into `TimeSeries` objects labelled `f'{element.label_full}__{label}'`
(structure.py:502-515).  Group and weight of a series are not part of the model of an element.  An `OnOffParameters` object is taken
to belong to one element only.
-/

namespace Flix

/-- Short label and data of one `TimeSeries` of an element (structure.py:513). -/
abbrev ElSeries := List (String × Num)

/-- `_create_time_series` (structure.py:502-515): nothing for `None`. -/
def givenSeries (label : String) (o : Option Num) : ElSeries := (o.map fun x => (label, x)).toList

/-- `effect_values_to_time_series` (effects.py:194-228): `f'{effect.label}_{suffix}'`, for the key `None` `f'Standard_Effect_{suffix}'`. -/
def effSeries (suffix : String) (d : EffDict) : ElSeries := d.map fun q => (q.1.getD "Standard_Effect" ++ "_" ++ suffix, q.2)

/-- `OnOffParameters.transform_data` (interface.py:153-173). -/
def OnOffParams.series (p : OnOffParams) : ElSeries :=
  effSeries "per_switch_on" p.effectsPerSwitchOn ++ effSeries "per_running_hour" p.effectsPerRunningHour ++
    givenSeries "consecutive_on_hours_min" p.consecOnMin ++ givenSeries "consecutive_on_hours_max" p.consecOnMax ++
    givenSeries "consecutive_off_hours_min" p.consecOffMin ++ givenSeries "consecutive_off_hours_max" p.consecOffMax

/-- The same if there are on/off parameters (elements.py:71-73, 249-250). -/
def onOffSeries (o : Option OnOffParams) : ElSeries := (o.map OnOffParams.series).getD []

/-- `Flow.transform_data` (elements.py:244-252). -/
def FlowData.series (f : FlowData) : ElSeries :=
  [("relative_minimum", f.relMin), ("relative_maximum", f.relMax)] ++ givenSeries "fixed_relative_profile" f.fixedProfile ++
    effSeries "per_flow_hour" f.effectsPerFlowHour ++ onOffSeries f.onOff

/-- `LinearConverter._transform_conversion_factors` (components.py:109-118): `f'{flow.label}_factor'`, whichever equation. -/
def factorSeries (fs : List Factors) : ElSeries := fs.flatten.map fun q => (q.1 ++ "_factor", q.2)

/-- The support points (components.py:97-107): all have the same label. -/
def pointSeries (segs : List (String × List (Num × Num))) : ElSeries :=
  ((segs.map (·.2)).flatten.map fun q => [("Stuetzstelle", q.1), ("Stuetzstelle", q.2)]).flatten

/-- `LinearConverter.transform_data` (components.py:94-107). -/
def ConvData.series (c : ConvData) : ElSeries :=
  onOffSeries c.comp.onOff ++ if c.factors.isEmpty then pointSeries c.segments else factorSeries c.factors

/-- `Storage.transform_data` (components.py:217-229). -/
def StorageData.series (s : StorageData) : ElSeries :=
  [("relative_minimum_charge_state", s.relMinCharge), ("relative_maximum_charge_state", s.relMaxCharge), ("eta_charge", s.etaCharge),
    ("eta_discharge", s.etaDischarge), ("relative_loss_per_hour", s.relLoss)]

/-- `Transmission.transform_data` (components.py:316-319). -/
def TransData.series (t : TransData) : ElSeries :=
  onOffSeries t.onOff ++ givenSeries "relative_losses" t.relLosses ++ givenSeries "absolute_losses" t.absLosses

/-- `transform_data` of a component (elements.py:71-73 and the overrides above). -/
def Comp.series : Comp → ElSeries
  | .plain c => onOffSeries c.onOff
  | .converter c => c.series
  | .storage s => s.series
  | .transmission t => t.series

/-- `component.inputs + component.outputs` as given by the user (elements.py:60-65; components.py:190-197, 277-285). -/
def Comp.userFlows : Comp → List FlowData
  | .plain c => c.inputs ++ c.outputs
  | .converter c => c.comp.inputs ++ c.comp.outputs
  | .storage s => [s.charging, s.discharging]
  | .transmission t => t.in1 :: t.in2.toList ++ t.out1 :: t.out2.toList

/-- `Bus.transform_data` (elements.py:122-125). -/
def BusData.series (b : BusData) : ElSeries := givenSeries "excess_penalty_per_flow_hour" b.excessPenalty

/-- `Effect.transform_data` (effects.py:134-144). -/
def EffectData.series (e : EffectData) : ElSeries :=
  givenSeries "minimum_operation_per_hour" e.minOperationPerHour ++ givenSeries "maximum_operation_per_hour" e.maxOperationPerHour ++
    effSeries "specific_share_to_other_effects_operation" (e.shareOperation.map fun q => (some q.1, q.2))

/-- `all_elements` (flow_system.py:286-288), each with its full label and its time series.  The flows are a set there; here in the order
of the components. -/
def System.allSeries (s : System) : List (String × ElSeries) :=
  s.comps.map (fun c => (c.name, c.series)) ++ s.effects.map (fun e => (e.label, e.series)) ++
    (s.comps.map fun c => c.userFlows.map fun f => (flowFull c.name f.label, f.series)).flatten ++
    s.buses.map fun b => (b.label, b.series)

/-- `is_array` of the `TimeSeries` made of the data (core.py:98-106, 145-147): constant vectors have become scalars.  An empty vector, an
`IndexError` in `transform_data`, counts as no array. -/
def isArray (a : Num) : Bool := match makeScalar a with | .ok b => !b.isScalar | .error _ => false

/-- `f'{element.label_full}__{label}'` of the series with `is_array` (structure.py:513, calculation.py:246-248). -/
def arrayLabels (q : String × ElSeries) : List String := (q.2.filter fun r => isArray r.2).map fun r => q.1 ++ "__" ++ r.1

/-- The labels of `[ts for ts in self.flow_system.all_time_series if ts.is_array]` (calculation.py:246-248, flow_system.py:290-292). -/
def System.arrayLabels (s : System) : List String := (s.allSeries.map Flix.arrayLabels).flatten

end Flix
