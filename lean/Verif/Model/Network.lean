import Verif.Model.Registry

/-!
# The network a `FlowSystem` reports (`network_infos`, flow_system.py:109-129) and the overview (`infos`, 131-146)
-/

namespace Flix

/-- A node: `label` and `class` (flow_system.py:111-115).  The text `infos` is left out. -/
structure NodeInfo where
  label : String
  cls : String
  deriving DecidableEq, Repr

/-- An edge: `label`, `start`, `end` (flow_system.py:120-125).  The text `infos` is left out. -/
structure EdgeInfo where
  label : String
  start : String
  stop : String
  deriving DecidableEq, Repr

/-- `flow.comp.label_full`; in a flow system `flow.comp` is always set (flow_system.py:122-123). -/
def RState.flowComp (s : RState) (k : Nat) : String :=
  match s.flows[k]? with
  | some f => (match f.comp with | some c => s.compLabel c | none => "")
  | none => ""

/-- The label of a flow object (`flow.label`) (flow_system.py:121). -/
def RState.flowOwn (s : RState) (k : Nat) : String := match s.flows[k]? with | some f => f.label | none => ""

/-- `Flow.is_input_in_comp` (elements.py:279-281): asks the component the flow was registered for last. -/
def RState.isInput (s : RState) (k : Nat) : Bool :=
  match s.flows[k]? with
  | some f => (match f.comp with | some c => decide (k ∈ s.compInputs c) | none => false)
  | none => false

/-- `nodes` of `network_infos` (flow_system.py:110-117). -/
def RState.nodes (ord : List Nat → List Nat) (s : RState) : List (String × NodeInfo) :=
  pyUpdate [] ((s.added.map fun q => (s.compLabel q.2, (⟨s.compLabel q.2, "Component"⟩ : NodeInfo))) ++
    ((s.busDict ord).map fun q => (s.busLabel q.2, (⟨s.busLabel q.2, "Bus"⟩ : NodeInfo))))

/-- One entry of `edges` (flow_system.py:120-125). -/
def RState.edge (s : RState) (k : Nat) : EdgeInfo :=
  ⟨s.flowOwn k, if s.isInput k then s.busLabel (s.flowBus k) else s.flowComp k,
    if s.isInput k then s.flowComp k else s.busLabel (s.flowBus k)⟩

/-- `edges` of `network_infos` (flow_system.py:119-127). -/
def RState.edges (ord : List Nat → List Nat) (s : RState) : List (String × EdgeInfo) :=
  pyUpdate [] ((s.flowDict ord).map fun q => (s.flowLabel q.2, s.edge q.2))

end Flix
