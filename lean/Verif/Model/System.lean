import Verif.Model.Components
import Verif.Model.Effects

/-!
# `SystemModel` (structure.py:30-238)
-/

namespace Flix

/-- A component of the flow system (flow_system.py:67-70). -/
inductive Comp
  | plain (c : CompData)
  | converter (c : ConvData)
  | storage (s : StorageData)
  | transmission (t : TransData)

/-- A modelled component (structure.py:59-62). -/
def Comp.model (sys : Sys) : Comp → Except Err CompOut
  | .plain c => compModel sys c
  | .converter c => converterModel sys c
  | .storage s => (·.comp) <$> storageModel sys s
  | .transmission t => (·.comp) <$> transmissionModel sys t

/-- What a `FlowSystem` contains when modelling starts (flow_system.py:67-70). -/
structure System where
  effects : List EffectData
  comps : List Comp
  buses : List BusData

/-- `all_sub_models` (structure.py:479-486): breadth-first; `fuel` bounds the length of the worked-off list (the number
of nodes of the tree). -/
def bfs : Nat → List MTree → List MTree
  | 0, _ => []
  | _, [] => []
  | fuel + 1, .node vs cs ss :: rest => .node vs cs ss :: bfs fuel (rest ++ ss)

mutual
  /-- Number of models in a tree. -/
  def MTree.count : MTree → Nat
    | .node _ _ ss => 1 + MTree.countAll ss
  def MTree.countAll : List MTree → Nat
    | [] => 0
    | t :: ts => t.count + MTree.countAll ts
end

/-- `model.variables` (structure.py:366-391). -/
def MTree.ownVars : MTree → List Var
  | .node vs _ _ => vs

/-- `model.constraints` (structure.py:366-391). -/
def MTree.ownCons : MTree → List ConReq
  | .node _ cs _ => cs

/-- `model.sub_models` (structure.py:366-391). -/
def MTree.subModels : MTree → List MTree
  | .node _ _ ss => ss

/-- `ElementModel.all_sub_models` (structure.py:478-485). -/
def MTree.allSubModels (t : MTree) : List MTree := bfs t.count t.subModels

/-- `SystemModel.sub_models` (structure.py:234-238): direct models, then all their sub models. -/
def systemSubModels (direct : List MTree) : List MTree :=
  direct ++ (direct.map MTree.allSubModels).flatten

/-- One entry of a dictionary of variables or constraints: a repeated label raises (structure.py:211-213, 221-222; within
one model already structure.py:379-385, 388-392). -/
def collectOne {α} (label : α → String) (acc : List α) (x : α) : Except Err (List α) :=
  if label x ∈ acc.map label then .error .key else .ok (acc ++ [x])

/-- Collect labelled objects into a dictionary (`all_variables`, `all_constraints`, structure.py:205-225), in order of
insertion. -/
def collect {α} (label : α → String) (xs : List α) : Except Err (List α) := xs.foldlM (collectOne label) []

/-- What is handed to the solver (math_modeling.py:1027-1040). -/
structure SolverModel where
  vars : List Var
  cons : List ConReq
  objective : List Op

/-- `SystemModel.all_variables`, `all_constraints` (structure.py:205-224). -/
def collectModel (direct : List MTree) (objective : List Op) : Except Err SolverModel := do
  let ms := systemSubModels direct
  let vs ← collect Var.label (ms.map MTree.ownVars).flatten
  let cs ← collect ConReq.label (ms.map MTree.ownCons).flatten
  return ⟨vs, cs, objective⟩

/-- `σ` satisfies everything handed to the solver (math_modeling.py:1027-1040). -/
def SolverModel.Solves (σ : Assignment) (m : SolverModel) : Prop :=
  (∀ x ∈ m.vars, x.Ok σ) ∧ (∀ r ∈ m.cons, r.Ok σ)

/-- The flow rates registered at a bus (elements.py:79-84): inputs of the bus are outputs of components. -/
def busFlows (flows : List (FlowData × FlowOut)) (bus : String) : List Var :=
  flows.filterMap fun q => if q.1.bus = bus then some q.2.flowRate else none

/-- The modelled system (structure.py:52-64). -/
structure SysOut where
  coll : CollOut
  comps : List CompOut
  buses : List BusOut
  solver : SolverModel

/-- `SystemModel.do_modeling` (structure.py:57-65) and the collection of variables and constraints. -/
def systemModel (sys : Sys) (s : System) : Except Err SysOut := do
  let comps ← s.comps.mapM (Comp.model sys)
  let ins := (comps.map (·.outputs)).flatten    -- component outputs feed the bus
  let outs := (comps.map (·.inputs)).flatten
  let buses ← s.buses.mapM fun b => busModel sys b (busFlows ins b.label) (busFlows outs b.label)
  let coll ← collectionModel sys s.effects ((comps.map (·.shares)).flatten ++ (buses.map (·.shares)).flatten)
  let solver ← collectModel (coll.tree :: comps.map CompOut.tree ++ buses.map (·.tree)) coll.objective
  return { coll, comps, buses, solver }

end Flix
