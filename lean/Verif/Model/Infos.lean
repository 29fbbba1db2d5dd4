import Verif.Model.Again
import Verif.Model.Aggregation

/-!
# The description of a flow system (`infos`)

`Interface.infos` (structure.py:268-303), `copy_and_convert_datatypes` for declarations (structure.py:606-652), `Flow.infos`
and `Component.infos` (elements.py:85-89, 254-257) and `FlowSystem.infos` (flow_system.py:131-146), which is saved next to the results
(calculation.py:101-103) and, shortened by `get_compact_representation` (structure.py:655-710), in other files.  The declarations are those after
`transform_data`.  Left out: `meta_data` (always `{}` here), and the classes that only wrap others:
sources, sinks and named converters are described as `Component` and `LinearConverter`.
-/

namespace Flix

/-- `param.default` of a constructor argument (structure.py:298). -/
inductive Default
  | required
  | none
  | num (x : ℚ)
  | bool (b : Bool)
  deriving DecidableEq

/-- A value of a constructor argument.  Lists and tuples are not distinguished; keys of dictionaries are already labels
(`use_element_label=True` for keys, structure.py:618-621).  An object has a class, a label if it is an `Element`, its arguments in the order
of structure.py:289-292 and the truth values added at the end (elements.py:256). -/
inductive Val
  | none
  | bool (b : Bool)
  | num (x : ℚ)
  | str (s : String)
  | arr (xs : List ℚ)
  | series (x : Num)
  | list (vs : List Val)
  | dict (es : List (Option String × Val))
  | obj (cls : String) (label : Option String) (args : List (String × Default × Val)) (extra : List (String × Bool))

/-- What is written down: JSON values and, with `use_numpy`, arrays (structure.py:555-652). -/
inductive Doc
  | null
  | bool (b : Bool)
  | num (x : ℚ)
  | str (s : String)
  | arr (xs : List ℚ)
  | list (ds : List Doc)
  | dict (es : List (Option String × Doc))

/-- The number a truth value equals in Python (compared in structure.py:300). -/
def boolNum (b : Bool) : ℚ := if b then 1 else 0

/-- `np.all(value == default)` (structure.py:300).  Objects and time series have no `__eq__`; `==` of an array works by element. -/
def Val.equalsDefault : Default → Val → Bool
  | _, .arr [] => true
  | .none, .none => true
  | .num y, .num x => decide (x = y)
  | .num y, .bool b => decide (boolNum b = y)
  | .num y, .arr xs => xs.all fun x => decide (x = y)
  | .bool c, .bool b => b == c
  | .bool c, .num x => decide (x = boolNum c)
  | .bool c, .arr xs => xs.all fun x => decide (x = boolNum c)
  | _, _ => false

/-- `isinstance(value, (dict, list)) and not value` (structure.py:300). -/
def Val.isEmpty : Val → Bool
  | .list [] => true
  | .dict [] => true
  | _ => false

/-- The arguments left out (structure.py:300-301). -/
def Val.omitted (d : Default) (v : Val) : Bool := v.equalsDefault d || v.isEmpty

/-- The number in a value, for `isinstance(value, (int, float))` (structure.py:626).  Lists of truth values do not occur. -/
def Val.number? : Val → Option ℚ
  | .num x => some x
  | _ => Option.none

/-- An array with or without `use_numpy` (structure.py:631-640). -/
def arrDoc (np : Bool) (xs : List ℚ) : Doc := if np then .arr xs else .list (xs.map .num)

/-- The active data of a time series (structure.py:642-643). -/
def Num.doc (np : Bool) : Num → Doc
  | .s x => .num x
  | .v xs => arrDoc np xs

mutual
  /-- `copy_and_convert_datatypes` (structure.py:606-652). -/
  def Val.conv (np lab : Bool) : Val → Doc
    | .none => .null
    | .bool b => .bool b
    | .num x => .num x
    | .str s => .str s
    | .arr xs => arrDoc np xs
    | .series x => x.doc np
    | .list vs => if np && (vs.all fun v => v.number?.isSome) then .arr (vs.filterMap Val.number?) else .list (convList np lab vs)
    | .dict es => .dict (convEntries np lab es)
    | .obj cls label args extra =>
      if lab && label.isSome then .str (label.getD "")
      else .dict ((some "class", .str cls) :: (convArgs np lab args ++ extra.map fun q => (some q.1, .bool q.2)))
  def convList (np lab : Bool) : List Val → List Doc
    | [] => []
    | v :: vs => v.conv np lab :: convList np lab vs
  def convEntries (np lab : Bool) : List (Option String × Val) → List (Option String × Doc)
    | [] => []
    | (k, v) :: es => (k, v.conv np lab) :: convEntries np lab es
  /-- The loop of `infos` (structure.py:295-302). -/
  def convArgs (np lab : Bool) : List (String × Default × Val) → List (Option String × Doc)
    | [] => []
    | (n, d, v) :: as => if v.omitted d then convArgs np lab as else (some n, v.conv np lab) :: convArgs np lab as
end

/-- `infos` (structure.py:268-303; elements.py:254-257). -/
def Val.infos (np lab : Bool) : Val → Doc
  | .obj cls _ args extra => .dict ((some "class", .str cls) :: (convArgs np lab args ++ extra.map fun q => (some q.1, .bool q.2)))
  | v => v.conv np lab

/-! ## The arguments of the classes -/

/-- A number that may be missing (interface.py:24-43). -/
def optNum : Option ℚ → Val
  | some x => .num x
  | none => .none

/-- A time series that may be missing (`_create_time_series`, structure.py:502-515). -/
def optSeries : Option Num → Val
  | some x => .series x
  | none => .none

/-- Numbers and arrays that are no time series (interface.py:24-43). -/
def Num.val : Num → Val
  | .s x => .num x
  | .v xs => .arr xs

/-- Effects with time series (effects.py:194-228). -/
def EffDict.series (d : EffDict) : Val := .dict (d.map fun q => (q.1, .series q.2))

/-- Effects with numbers (effects.py:230-256). -/
def EffDict.plain (d : EffDict) : Val := .dict (d.map fun q => (q.1, q.2.val))

/-- Pairs of numbers (structure.py:631-640). -/
def pairsVal (ps : List (ℚ × ℚ)) : Val := .list (ps.map fun p => .list [.num p.1, .num p.2])

/-- `OnOffParameters` (interface.py:97-172). -/
def OnOffParams.val (p : OnOffParams) : Val := .obj "OnOffParameters:Interface:object" none [
  ("consecutive_off_hours_max", .none, optSeries p.consecOffMax),
  ("consecutive_off_hours_min", .none, optSeries p.consecOffMin),
  ("consecutive_on_hours_max", .none, optSeries p.consecOnMax),
  ("consecutive_on_hours_min", .none, optSeries p.consecOnMin),
  ("effects_per_running_hour", .none, p.effectsPerRunningHour.series),
  ("effects_per_switch_on", .none, p.effectsPerSwitchOn.series),
  ("force_switch_on", .bool false, .bool p.forceSwitchOn),
  ("on_hours_total_max", .none, optNum p.onHoursTotalMax),
  ("on_hours_total_min", .none, optNum p.onHoursTotalMin),
  ("switch_on_total_max", .none, optNum p.switchOnTotalMax)] []

/-- On/off parameters that may be missing (elements.py:158-176). -/
def optOnOff : Option OnOffParams → Val
  | some p => p.val
  | none => .none

/-- The segments of an investment: a pair of a list and a dictionary (interface.py:32-34). -/
def investSegVal : Option (List (ℚ × ℚ) × List (String × List (ℚ × ℚ))) → Val
  | none => .none
  | some (xs, es) => .list [pairsVal xs, .dict (es.map fun q => (some q.1, pairsVal q.2))]

/-- `InvestParameters` (interface.py:24-95); `minimum_size` and `maximum_size` are the properties. -/
def InvestParams.val (cfg : Cfg) (q : InvestParams) : Val := .obj "InvestParameters:Interface:object" none [
  ("divest_effects", .none, q.divestEffects.plain),
  ("effects_in_segments", .none, investSegVal q.effectsInSegments),
  ("fix_effects", .none, q.fixEffects.plain),
  ("fixed_size", .none, optNum q.fixedSize),
  ("maximum_size", .none, .num (q.maxSize cfg)),
  ("minimum_size", .num 0, .num q.minSize),
  ("optional", .bool true, .bool q.optional),
  ("specific_effects", .none, q.specificEffects.plain)] []

/-- A size or capacity (elements.py:161, components.py:136). -/
def Size.val (cfg : Cfg) : Size → Val
  | .num x => .num x
  | .invest q => q.val cfg

/-- `Bus` (elements.py:92-125). -/
def BusData.val (b : BusData) : Val := .obj "Bus:Element:Interface:object" (some b.label) [
  ("label", .required, .str b.label),
  ("excess_penalty_per_flow_hour", .num 100000, optSeries b.excessPenalty),
  ("meta_data", .none, .dict [])] []

/-- `previous_flow_rate` (elements.py:172). -/
def optPrev : Option Num → Val
  | some x => x.val
  | none => .none

/-- `Flow` (elements.py:158-258); `bus` finds the bus object the flow refers to, `isIn` is `is_input_in_comp`. -/
def FlowData.val (cfg : Cfg) (bus : String → BusData) (isIn : Bool) (f : FlowData) : Val := .obj "Flow:Element:Interface:object" (some f.label) [
  ("label", .required, .str f.label),
  ("bus", .required, BusData.val { bus f.bus with label := f.bus }),
  ("effects_per_flow_hour", .none, f.effectsPerFlowHour.series),
  ("fixed_relative_profile", .none, optSeries f.fixedProfile),
  ("flow_hours_total_max", .none, optNum f.flowHoursTotalMax),
  ("flow_hours_total_min", .none, optNum f.flowHoursTotalMin),
  ("load_factor_max", .none, optNum f.loadFactorMax),
  ("load_factor_min", .none, optNum f.loadFactorMin),
  ("meta_data", .none, .dict []),
  ("on_off_parameters", .none, optOnOff f.onOff),
  ("previous_flow_rate", .none, optPrev f.previousFlowRate),
  ("relative_maximum", .num 1, .series f.relMax),
  ("relative_minimum", .num 0, .series f.relMin),
  ("size", .none, (f.effSize cfg).val cfg)] [("is_input_in_component", isIn)]

/-- A flow that may be missing (components.py:239-250). -/
def optFlow (cfg : Cfg) (bus : String → BusData) (isIn : Bool) : Option FlowData → Val
  | some f => f.val cfg bus isIn
  | none => .none

/-- The flow of a component with a given label; `prevent_simultaneous_flows` holds the objects, here found by their labels
(elements.py:34-42). -/
def CompData.flowVal (cfg : Cfg) (bus : String → BusData) (c : CompData) (l : String) : Val :=
  match c.inputs.find? (·.label == l) with
  | some f => f.val cfg bus true
  | none => (((c.outputs.find? (·.label == l)).getD { label := l }).val cfg bus false)

/-- `Component` (elements.py:34-66). -/
def CompData.val (cfg : Cfg) (bus : String → BusData) (c : CompData) : Val := .obj "Component:Element:Interface:object" (some c.label) [
  ("label", .required, .str c.label),
  ("inputs", .none, .list (c.inputs.map (FlowData.val cfg bus true))),
  ("meta_data", .none, .dict []),
  ("on_off_parameters", .none, optOnOff c.onOff),
  ("outputs", .none, .list (c.outputs.map (FlowData.val cfg bus false))),
  ("prevent_simultaneous_flows", .none, .list (c.prevent.map (c.flowVal cfg bus)))] []

/-- `LinearConverter` (components.py:26-122).  It has no argument `prevent_simultaneous_flows`. -/
def ConvData.val (cfg : Cfg) (bus : String → BusData) (c : ConvData) : Val := .obj "LinearConverter:Component:Element:Interface:object" (some c.comp.label) [
  ("label", .required, .str c.comp.label),
  ("conversion_factors", .none, .list (c.factors.map fun fs => .dict (fs.map fun q => (some q.1, .series q.2)))),
  ("inputs", .required, .list (c.comp.inputs.map (FlowData.val cfg bus true))),
  ("meta_data", .none, .dict []),
  ("on_off_parameters", .none, optOnOff c.comp.onOff),
  ("outputs", .required, .list (c.comp.outputs.map (FlowData.val cfg bus false))),
  ("segmented_conversion_factors", .none,
    .dict (c.segments.map fun r => (some r.1, .list (r.2.map fun p => .list [.series p.1, .series p.2]))))] []

/-- `initial_charge_state` (components.py:144); every other text stands for itself. -/
def InitCharge.val : InitCharge → Val
  | .none => .none
  | .num x => .num x
  | .lastValueOfSim => .str "lastValueOfSim"
  | .other => .str ""

/-- `Storage` (components.py:136-229).  No attribute `prevent_simultaneous_charge_and_discharge` is ever set, so `getattr` gives `None`
(structure.py:298). -/
def StorageData.val (cfg : Cfg) (bus : String → BusData) (s : StorageData) : Val := .obj "Storage:Component:Element:Interface:object" (some s.label) [
  ("label", .required, .str s.label),
  ("capacity_in_flow_hours", .required, s.capacity.val cfg),
  ("charging", .required, s.charging.val cfg bus true),
  ("discharging", .required, s.discharging.val cfg bus false),
  ("eta_charge", .num 1, .series s.etaCharge),
  ("eta_discharge", .num 1, .series s.etaDischarge),
  ("initial_charge_state", .num 0, s.initial.val),
  ("maximal_final_charge_state", .none, optNum s.maxFinal),
  ("meta_data", .none, .dict []),
  ("minimal_final_charge_state", .none, optNum s.minFinal),
  ("prevent_simultaneous_charge_and_discharge", .bool true, .none),
  ("relative_loss_per_hour", .num 0, .series s.relLoss),
  ("relative_maximum_charge_state", .num 1, .series s.relMaxCharge),
  ("relative_minimum_charge_state", .num 0, .series s.relMinCharge)] []

/-- `Transmission` (components.py:239-319).  No attribute `prevent_simultaneous_flows_in_both_directions` is ever set. -/
def TransData.val (cfg : Cfg) (bus : String → BusData) (t : TransData) : Val := .obj "Transmission:Component:Element:Interface:object" (some t.label) [
  ("label", .required, .str t.label),
  ("absolute_losses", .none, optSeries t.absLosses),
  ("in1", .required, t.in1.val cfg bus true),
  ("in2", .none, optFlow cfg bus true t.in2),
  ("on_off_parameters", .none, optOnOff t.onOff),
  ("out1", .required, t.out1.val cfg bus false),
  ("out2", .none, optFlow cfg bus false t.out2),
  ("prevent_simultaneous_flows_in_both_directions", .bool true, .none),
  ("relative_losses", .none, optSeries t.relLosses)] []

/-- Any component (flow_system.py:131-146). -/
def Comp.val (cfg : Cfg) (bus : String → BusData) : Comp → Val
  | .plain c => c.val cfg bus
  | .converter c => c.val cfg bus
  | .storage s => s.val cfg bus
  | .transmission t => t.val cfg bus

/-- `Effect` (effects.py:27-149); `text` are unit and description. -/
def EffectData.val (text : String → String × String) (e : EffectData) : Val := .obj "Effect:Element:Interface:object" (some e.label) [
  ("label", .required, .str e.label),
  ("description", .required, .str (text e.label).2),
  ("is_objective", .bool false, .bool e.isObjective),
  ("is_standard", .bool false, .bool e.isStandard),
  ("maximum_invest", .none, optNum e.maxInvest),
  ("maximum_operation", .none, optNum e.maxOperation),
  ("maximum_operation_per_hour", .none, optSeries e.maxOperationPerHour),
  ("maximum_total", .none, optNum e.maxTotal),
  ("meta_data", .none, .dict []),
  ("minimum_invest", .none, optNum e.minInvest),
  ("minimum_operation", .none, optNum e.minOperation),
  ("minimum_operation_per_hour", .none, optSeries e.minOperationPerHour),
  ("minimum_total", .none, optNum e.minTotal),
  ("specific_share_to_other_effects_invest", .none, .dict (e.shareInvest.map fun q => (some q.1, q.2.val))),
  ("specific_share_to_other_effects_operation", .none, .dict (e.shareOperation.map fun q => (some q.1, .series q.2))),
  ("unit", .required, .str (text e.label).1)] []

/-- The flows of a component as inputs and outputs (elements.py:60-61; components.py:193-194, 279-280). -/
def Comp.inputFlows : Comp → List FlowData
  | .plain c => c.inputs
  | .converter c => c.comp.inputs
  | .storage s => [s.charging]
  | .transmission t => t.in1 :: t.in2.toList

/-- The outputs of a component (elements.py:85-89). -/
def Comp.outputFlows : Comp → List FlowData
  | .plain c => c.outputs
  | .converter c => c.comp.outputs
  | .storage s => [s.discharging]
  | .transmission t => t.out1 :: t.out2.toList

/-- `infos[key] = value`: a known key keeps its place (structure.py:302). -/
def setDoc (k : String) (x : Doc) : List (Option String × Doc) → List (Option String × Doc)
  | [] => [(some k, x)]
  | e :: es => if e.1 = some k then (some k, x) :: es else e :: setDoc k x es

/-- The description of a flow as such, even if elements are replaced by their labels (elements.py:87-88). -/
def flowDocs (cfg : Cfg) (np lab : Bool) (bus : String → BusData) (isIn : Bool) (fs : List FlowData) : Doc :=
  .list (fs.map fun f => (f.val cfg bus isIn).infos np lab)

/-- `Component.infos` (elements.py:85-89). -/
def Comp.infos (cfg : Cfg) (np lab : Bool) (bus : String → BusData) (c : Comp) : Doc :=
  match (c.val cfg bus).infos np lab with
  | .dict es => .dict (setDoc "outputs" (flowDocs cfg np lab bus false c.outputFlows) (setDoc "inputs" (flowDocs cfg np lab bus true c.inputFlows) es))
  | d => d

/-- `sorted(..., key=lambda x: x.label.upper())` (flow_system.py:135-143).  `toUpper` changes ASCII letters only. -/
def byLabel {α} (label : α → String) (xs : List α) : List α := xs.mergeSort fun a b => decide ((label a).toUpper ≤ (label b).toUpper)

/-- The bus object with a label (flow_system.py:282-284). -/
def System.busOf (s : System) (l : String) : BusData := (s.buses.find? (·.label == l)).getD { label := l }

/-- `FlowSystem.infos` (flow_system.py:131-146). -/
def System.infos (cfg : Cfg) (np lab : Bool) (text : String → String × String) (s : System) : Doc := .dict [
  (some "Components", .dict ((byLabel Comp.name s.comps).map fun c => (some c.name, c.infos cfg np lab s.busOf))),
  (some "Buses", .dict ((byLabel BusData.label s.buses).map fun b => (some b.label, b.val.infos np lab))),
  (some "Effects", .dict ((byLabel EffectData.label s.effects).map fun e => (some e.label, (e.val text).infos np lab)))]

/-! ## Files -/

mutual
  /-- `copy_and_convert_datatypes(..., use_numpy=False)` of a description (calculation.py:102; structure.py:625-629). -/
  def Doc.lists : Doc → Doc
    | .arr xs => .list (xs.map .num)
    | .list ds => .list (listsOf ds)
    | .dict es => .dict (listsIn es)
    | d => d
  def listsOf : List Doc → List Doc
    | [] => []
    | d :: ds => d.lists :: listsOf ds
  def listsIn : List (Option String × Doc) → List (Option String × Doc)
    | [] => []
    | (k, d) :: es => (k, d.lists) :: listsIn es
end

/-- The number in a description (structure.py:685-705). -/
def Doc.number? : Doc → Option ℚ
  | .num x => some x
  | _ => Option.none

/-- `np.around(x, decimals=2)`: half to even (structure.py:685-705). -/
def around (x : ℚ) : ℚ := pyRound (x * 100) / 100

/-- `describe_numpy_arrays` (structure.py:685-705); `stats` is the text about an array of more than 50 elements. -/
def shortArr (stats : List ℚ → String) (xs : List ℚ) : Doc := if 50 < xs.length then .str (stats xs) else .list (xs.map fun x => .num (around x))

mutual
  /-- `get_compact_representation` with its defaults (structure.py:655-710): lists of numbers become arrays first (structure.py:625-627). -/
  def Doc.compact (stats : List ℚ → String) : Doc → Doc
    | .arr xs => shortArr stats xs
    | .list ds => if ds.all fun d => d.number?.isSome then shortArr stats (ds.filterMap Doc.number?) else .list (compactOf stats ds)
    | .dict es => .dict (compactIn stats es)
    | d => d
  def compactOf (stats : List ℚ → String) : List Doc → List Doc
    | [] => []
    | d :: ds => d.compact stats :: compactOf stats ds
  def compactIn (stats : List ℚ → String) : List (Option String × Doc) → List (Option String × Doc)
    | [] => []
    | (k, d) :: es => (k, d.compact stats) :: compactIn stats es
end

/-- The file with the data saved with the results (calculation.py:101-103). -/
def System.dataFile (cfg : Cfg) (text : String → String × String) (s : System) : Doc := (s.infos cfg true false text).lists

/-- `FlowSystem.to_json` (flow_system.py:148-160) and the entry in the file of informations about a calculation (calculation.py:112). -/
def System.jsonFile (cfg : Cfg) (stats : List ℚ → String) (text : String → String × String) (s : System) : Doc := (s.infos cfg true true text).compact stats

end Flix
