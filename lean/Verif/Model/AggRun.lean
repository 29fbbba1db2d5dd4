import Verif.Model.Registry
import Verif.Model.SeriesNames
import Verif.Model.Translate

/-!
# `AggregatedCalculation.do_modeling` as a whole (calculation.py:217-292)

The clustering by `tsam` (aggregation.py:87-102) is any function of what it is asked for.  A system stands for the data of the steps of the
calculation (C42, C97); plotting, logging and durations are left out.
-/

namespace Flix

/-! ## Other data for the time series of a system -/

/-- Other values for the time series of effects (effects.py:194-228). -/
def EffDict.withSeries (suffix : String) (g : String → Num → Num) (d : EffDict) : EffDict :=
  d.map fun q => (q.1, g (q.1.getD "Standard_Effect" ++ "_" ++ suffix) q.2)

/-- The time series of `OnOffParameters` (interface.py:153-173) with other data. -/
def OnOffParams.withSeries (g : String → Num → Num) (p : OnOffParams) : OnOffParams :=
  { p with
    effectsPerSwitchOn := p.effectsPerSwitchOn.withSeries "per_switch_on" g
    effectsPerRunningHour := p.effectsPerRunningHour.withSeries "per_running_hour" g
    consecOnMin := p.consecOnMin.map (g "consecutive_on_hours_min")
    consecOnMax := p.consecOnMax.map (g "consecutive_on_hours_max")
    consecOffMin := p.consecOffMin.map (g "consecutive_off_hours_min")
    consecOffMax := p.consecOffMax.map (g "consecutive_off_hours_max") }

/-- The time series of a flow (elements.py:244-252) with other data. -/
def FlowData.withSeries (g : String → Num → Num) (f : FlowData) : FlowData :=
  { f with
    relMin := g "relative_minimum" f.relMin
    relMax := g "relative_maximum" f.relMax
    fixedProfile := f.fixedProfile.map (g "fixed_relative_profile")
    effectsPerFlowHour := f.effectsPerFlowHour.withSeries "per_flow_hour" g
    onOff := f.onOff.map (·.withSeries g) }

/-- The flows of a component, each under its full label (elements.py:273-277). -/
def flowsWith (g : String → String → Num → Num) (comp : String) (fs : List FlowData) : List FlowData :=
  fs.map fun f => f.withSeries (g (flowFull comp f.label))

/-- The time series of a component (elements.py:71-73) and of its flows. -/
def CompData.withSeries (g : String → String → Num → Num) (c : CompData) : CompData :=
  { c with
    inputs := flowsWith g c.label c.inputs
    outputs := flowsWith g c.label c.outputs
    onOff := c.onOff.map (·.withSeries (g c.label)) }

/-- The time series of a converter (components.py:94-118): factors, or support points if there are no factors. -/
def ConvData.withSeries (g : String → String → Num → Num) (c : ConvData) : ConvData where
  comp := c.comp.withSeries g
  factors := c.factors.map fun (fs : Factors) => fs.map fun q => (q.1, g c.comp.label (q.1 ++ "_factor") q.2)
  segments := if c.factors.isEmpty then
      c.segments.map fun r => (r.1, r.2.map fun q => (g c.comp.label "Stuetzstelle" q.1, g c.comp.label "Stuetzstelle" q.2))
    else c.segments

/-- The time series of a storage (components.py:217-229) and of its flows. -/
def StorageData.withSeries (g : String → String → Num → Num) (s : StorageData) : StorageData :=
  { s with
    charging := s.charging.withSeries (g (flowFull s.label s.charging.label))
    discharging := s.discharging.withSeries (g (flowFull s.label s.discharging.label))
    relMinCharge := g s.label "relative_minimum_charge_state" s.relMinCharge
    relMaxCharge := g s.label "relative_maximum_charge_state" s.relMaxCharge
    etaCharge := g s.label "eta_charge" s.etaCharge
    etaDischarge := g s.label "eta_discharge" s.etaDischarge
    relLoss := g s.label "relative_loss_per_hour" s.relLoss }

/-- The time series of a transmission (components.py:316-319) and of its flows. -/
def TransData.withSeries (g : String → String → Num → Num) (t : TransData) : TransData :=
  { t with
    in1 := t.in1.withSeries (g (flowFull t.label t.in1.label))
    out1 := t.out1.withSeries (g (flowFull t.label t.out1.label))
    in2 := t.in2.map fun f => f.withSeries (g (flowFull t.label f.label))
    out2 := t.out2.map fun f => f.withSeries (g (flowFull t.label f.label))
    relLosses := t.relLosses.map (g t.label "relative_losses")
    absLosses := t.absLosses.map (g t.label "absolute_losses")
    onOff := t.onOff.map (·.withSeries (g t.label)) }

/-- The time series of a component with other data (flow_system.py:286-292). -/
def Comp.withSeries (g : String → String → Num → Num) : Comp → Comp
  | .plain c => .plain (c.withSeries g)
  | .converter c => .converter (c.withSeries g)
  | .storage s => .storage (s.withSeries g)
  | .transmission t => .transmission (t.withSeries g)

/-- The time series of an effect (effects.py:134-144) with other data. -/
def EffectData.withSeries (g : String → Num → Num) (e : EffectData) : EffectData :=
  { e with
    minOperationPerHour := e.minOperationPerHour.map (g "minimum_operation_per_hour")
    maxOperationPerHour := e.maxOperationPerHour.map (g "maximum_operation_per_hour")
    shareOperation := e.shareOperation.map fun q => (q.1, g (q.1 ++ "_specific_share_to_other_effects_operation") q.2) }

/-- The time series of a bus (elements.py:122-125) with other data. -/
def BusData.withSeries (g : String → Num → Num) (b : BusData) : BusData :=
  { b with excessPenalty := b.excessPenalty.map (g "excess_penalty_per_flow_hour") }

/-- All time series of a flow system with other data: `g` gives the new data for the label of the element, the label of the series and the
old data (flow_system.py:286-292). -/
def System.withSeries (g : String → String → Num → Num) (s : System) : System where
  effects := s.effects.map fun e => e.withSeries (g e.label)
  comps := s.comps.map (·.withSeries g)
  buses := s.buses.map fun b => b.withSeries (g b.label)

/-- `insert_data` (aggregation.py:256-260) followed by `active_data` (core.py:125-134): series with `is_array` whose label is a key show the new
data. -/
def inserted (d : List (String × List ℚ)) (el l : String) (a : Num) : Num :=
  match isArray a, pyLookup d (el ++ "__" ++ l) with
  | true, some ys => .v ys
  | _, _ => a

/-! ## The calculation -/

/-- `list(active_data)` of a series with `is_array` (core.py:125-134); a scalar is no array. -/
def Num.values : Num → List ℚ
  | .s x => [x]
  | .v xs => xs

/-- Labels and data of `[ts for ts in self.flow_system.all_time_series if ts.is_array]` (calculation.py:246-248, aggregation.py:229-231). -/
def System.arrays (s : System) : List (String × List ℚ) :=
  (s.allSeries.map fun q => (q.2.filter fun r => isArray r.2).map fun r => (q.1 ++ "__" ++ r.1, r.2.values)).flatten

/-- All labels in the order in which `transform_data` makes the series (flow_system.py:105-107, structure.py:513). -/
def System.seriesLabels (s : System) : List String := (s.allSeries.map fun q => q.2.map fun r => q.1 ++ "__" ++ r.1).flatten

/-- What the user declared with `TimeSeriesData` (core.py:22-54): for the label of a series the number of the object it was given as, and
group and weight of an object. -/
structure Declared where
  object : String → Option Nat := fun _ => none
  group : Nat → Option String := fun _ => none
  weight : Nat → Option ℚ := fun _ => none

/-- Group and weight of a `TimeSeries` (core.py:98-106). -/
def Declared.series (u : Declared) (l : String) : Except Err AggSeries :=
  match u.object l with
  | none => .ok ⟨l, none, none⟩
  | some i => mkAggSeries l (u.group i) (u.weight i)

/-- `data.label = self.label` (core.py:103): the last series made of an object gives it its label, `None` if there is none. -/
def Declared.labelOf (u : Declared) (s : System) (i : Nat) : Option String := (s.seriesLabels.filter fun l => u.object l = some i).getLast?

/-- `AggregationParameters` (aggregation.py:312-319); `model` are the ones `AggregationModel` reads, the lists name objects of the user. -/
structure AggRequest where
  hours : ℚ
  periods : Nat
  high : List Nat := []
  low : List Nat := []
  model : AggParams

/-- What `tsam` is asked for (aggregation.py:87-99, calculation.py:256-264).  `labels_for_high_peaks` and `labels_for_low_peaks`
(aggregation.py:326-332) are the labels of the objects. -/
structure ClusterAsk where
  data : List (String × List ℚ)
  periods : Nat
  hours : ℚ
  resolution : ℚ
  extreme : Bool
  weights : List (String × Option ℚ)
  high : List (Option String)
  low : List (Option String)

/-- `tsam`: the clusters and the predicted data, or an exception (aggregation.py:87-102). -/
abbrev Clusterer := ClusterAsk → Except Err (ClusterData × List (String × List ℚ))

/-- `pd.DataFrame(data, index=chosen_time_series)` (calculation.py:253): `ValueError` unless every column has one value per step. -/
def checkFrame (n : Nat) (d : List (String × List ℚ)) : Except Err (List (String × List ℚ)) :=
  if d.all (fun q => q.2.length == n) then .ok d else .error .value

/-- `use_extreme_periods` decides on the method (aggregation.py:93-95, 138-140). -/
def AggRequest.ask (q : AggRequest) (u : Declared) (s : System) (data : List (String × List ℚ)) (ss : List AggSeries) (width : ℚ) : ClusterAsk where
  data := data
  periods := q.periods
  hours := q.hours
  resolution := width
  extreme := !(q.high.isEmpty && q.low.isEmpty)
  weights := ss.map fun r => (r.label, r.weight)
  high := q.high.map (u.labelOf s)
  low := q.low.map (u.labelOf s)

/-- The data the system is modelled with (calculation.py:268-275). -/
def AggRequest.modelled (q : AggRequest) (s : System) (d : List (String × List ℚ)) : System :=
  if q.model.fixNonBinary then s.withSeries (inserted d) else s

/-- `AggregatedCalculation.do_modeling` (calculation.py:217-292): checks, collection of the time series, clustering, insertion of the
aggregated data, modelling, translation. -/
def aggregatedRun (sys : Sys) (s : System) (u : Declared) (q : AggRequest) (ext : Clusterer) (sel : List String) : Except Err (AggOut × PyomoModel) := do
  let _ ← checkPeriods sys.dt q.hours
  let ss ← (s.arrays.map (·.1)).mapM u.series
  let ss' ← seriesCollection ss
  let data ← checkFrame sys.n s.arrays
  let r ← ext (q.ask u s data ss' (sys.dt.headD 0))
  let o ← aggregatedModel sys (q.modelled s r.2) q.model r.1 sel
  let m ← translateModel o.solver
  return (o, m)

end Flix
