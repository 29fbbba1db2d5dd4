import Verif.Model.EffectHistory

/-!
# The registry of a `FlowSystem` (flow_system.py:66-107, 213-226, 277-288) as a history of calls

Python objects are numbered per class in the order of their creation.
-/

namespace Flix

/-- `dict[key] = value`: a known key keeps its place (e.g. flow_system.py:85). -/
def pySet {α} : List (String × α) → String → α → List (String × α)
  | [], k, x => [(k, x)]
  | q :: qs, k, x => if q.1 = k then (k, x) :: qs else q :: pySet qs k x

/-- `dict[key]` (e.g. flow_system.py:85). -/
def pyLookup {α} (d : List (String × α)) (k : String) : Option α := (d.find? fun q => q.1 = k).map (·.2)

/-- Dictionary comprehension or `{**a, **b}`: assignments from left to right (flow_system.py:277-288). -/
def pyUpdate {α} (d : List (String × α)) (xs : List (String × α)) : List (String × α) := xs.foldl (fun d q => pySet d q.1 q.2) d

/-- `label_is_valid` (utils.py:86-90): `startswith('_')`, `endswith('_')`, `'__' in label`. -/
def labelIsValid (l : String) : Bool :=
  !(l.toList.head? == some '_' || l.toList.getLast? == some '_' || decide (['_', '_'] <:+: l.toList))

/-- A `Flow` object (elements.py:153-268): label, bus object, component object. -/
structure RFlow where
  label : String
  bus : Nat
  comp : Option Nat := none
  deriving DecidableEq, Repr

/-- A `Component` object (elements.py:34-66). -/
structure RComp where
  label : String
  inputs : List Nat
  outputs : List Nat
  deriving DecidableEq, Repr

/-- A `Bus` object (elements.py:92-141): `inputs` and `outputs` are the registered flows. -/
structure RBus where
  label : String
  inputs : List Nat := []
  outputs : List Nat := []
  deriving DecidableEq, Repr

/-- All objects and the flow system: `added` is `self.components`, `eff` the effect objects with `self.effect_collection`
(flow_system.py:67-70). -/
structure RState where
  flows : List RFlow := []
  comps : List RComp := []
  buses : List RBus := []
  added : List (String × Nat) := []
  eff : EffState := {}

/-- `comp.inputs + comp.outputs` (flow_system.py:279). -/
def RComp.flowIds (c : RComp) : List Nat := c.inputs ++ c.outputs

/-- Label of a component object (elements.py:59). -/
def RState.compLabel (s : RState) (i : Nat) : String := match s.comps[i]? with | some c => c.label | none => ""
/-- Flows of a component object (flow_system.py:279). -/
def RState.compFlows (s : RState) (i : Nat) : List Nat := match s.comps[i]? with | some c => c.flowIds | none => []
/-- Inputs of a component object (elements.py:60). -/
def RState.compInputs (s : RState) (i : Nat) : List Nat := match s.comps[i]? with | some c => c.inputs | none => []
/-- Outputs of a component object (elements.py:61). -/
def RState.compOutputs (s : RState) (i : Nat) : List Nat := match s.comps[i]? with | some c => c.outputs | none => []
/-- The bus object of a flow object (elements.py:158-238). -/
def RState.flowBus (s : RState) (i : Nat) : Nat := match s.flows[i]? with | some f => f.bus | none => 0
/-- Label of a bus object (elements.py:97-110). -/
def RState.busLabel (s : RState) (i : Nat) : String := match s.buses[i]? with | some b => b.label | none => ""

/-- `Flow.label_full` (elements.py:274-277). -/
def RState.flowLabel (s : RState) (i : Nat) : String :=
  match s.flows[i]? with
  | some f => (match f.comp with | none => "unknownComp" | some c => s.compLabel c) ++ "__" ++ f.label
  | none => ""

/-- The flow objects of all components, with repetitions (flow_system.py:279). -/
def RState.flowIds (s : RState) : List Nat := (s.added.map fun q => s.compFlows q.2).flatten

/-- `FlowSystem.flows` (flow_system.py:277-280): a dictionary over a *set* of flow objects; `ord` is the order in which Python
runs through a set. -/
def RState.flowDict (ord : List Nat → List Nat) (s : RState) : List (String × Nat) :=
  pyUpdate [] ((ord s.flowIds).map fun i => (s.flowLabel i, i))

/-- `FlowSystem.buses` (flow_system.py:282-284). -/
def RState.busDict (ord : List Nat → List Nat) (s : RState) : List (String × Nat) :=
  pyUpdate [] ((s.flowDict ord).map fun q => (s.busLabel (s.flowBus q.2), s.flowBus q.2))

/-- An element object (structure.py:332-363). -/
inductive Elem
  | comp (i : Nat)
  | effect (i : Nat)
  | flow (i : Nat)
  | bus (i : Nat)
  deriving DecidableEq, Repr

/-- `FlowSystem.all_elements` (flow_system.py:286-288). -/
def RState.allElements (ord : List Nat → List Nat) (s : RState) : List (String × Elem) :=
  pyUpdate [] ((s.added.map fun q => (q.1, Elem.comp q.2)) ++ (s.eff.coll.map fun q => (q.1, Elem.effect q.2)) ++
    ((s.flowDict ord).map fun q => (q.1, Elem.flow q.2)) ++ ((s.busDict ord).map fun q => (q.1, Elem.bus q.2)))

/-- `register_component_in_flows` (elements.py:75-77). -/
def registerComp (flows : List RFlow) (i : Nat) (ids : List Nat) : List RFlow :=
  ids.foldl (fun fs k => fs.modify k fun f => { f with comp := some i }) flows

/-- `bus.add_output(flow)` / `bus.add_input(flow)` (elements.py:127-133). -/
def addOutputs (s : RState) (buses : List RBus) (ids : List Nat) : List RBus :=
  ids.foldl (fun bs k => bs.modify (s.flowBus k) fun b => { b with outputs := b.outputs ++ [k] }) buses
/-- `bus.add_input(flow)` (elements.py:127-133). -/
def addInputs (s : RState) (buses : List RBus) (ids : List Nat) : List RBus :=
  ids.foldl (fun bs k => bs.modify (s.flowBus k) fun b => { b with inputs := b.inputs ++ [k] }) buses

/-- `add_components` for one component object (flow_system.py:77-85).  In `_check_if_element_is_unique` (213-226)
`element in self.all_elements` compares an element with text keys and is never true; what is left is the test of the label. -/
def RState.addComp (ord : List Nat → List Nat) (s : RState) (i : Nat) : RState × Option Err :=
  match s.comps[i]? with
  | none => (s, some .name)
  | some c =>
    if (s.allElements ord).any fun q => q.1 == c.label then (s, some .exception)
    else ({ s with
      flows := registerComp s.flows i c.flowIds
      buses := addInputs s (addOutputs s s.buses c.inputs) c.outputs
      added := pySet s.added c.label i }, none)

/-- A call of the user; exceptions are caught by the caller (flow_system.py:72-104). -/
inductive RCall
  | newBus (label : String)
  | newFlow (label : String) (bus : Nat)
  | newComp (label : String) (inputs outputs : List Nat)
  | addComp (i : Nat)
  | eff (c : EffCall)

/-- One call.  Names of objects that do not exist cannot be passed (`NameError`).  Invalid labels are only logged
(structure.py:344-348). -/
def RState.step (ord : List Nat → List Nat) (s : RState) : RCall → RState × Option Err
  | .newBus l => ({ s with buses := s.buses ++ [{ label := l }] }, none)
  | .newFlow l b => if b < s.buses.length then ({ s with flows := s.flows ++ [{ label := l, bus := b }] }, none) else (s, some .name)
  | .newComp l ins outs =>
    if (ins ++ outs).all fun k => decide (k < s.flows.length) then
      ({ s with comps := s.comps ++ [{ label := l, inputs := ins, outputs := outs }] }, none)
    else (s, some .name)
  | .addComp i => s.addComp ord i
  | .eff c => ({ s with eff := (s.eff.step c).1 }, (s.eff.step c).2)

/-- Any history of calls (flow_system.py:72-104). -/
def RState.run (ord : List Nat → List Nat) (s : RState) : List RCall → RState
  | [] => s
  | c :: cs => ((s.step ord c).1).run ord cs

end Flix
