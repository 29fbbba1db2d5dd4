import Verif.Model.Results

/-!
# `ElementModel`s with their labels: nested results and descriptions (structure.py:121-159, 393-499)
-/

namespace Flix

/-- How `results()` treats a model: the method of `ElementModel` (structure.py:487-491) or the one of `ShareAllocationModel`
(features.py:812-817). -/
inductive ModelKind
  | plain
  | allocation
  deriving DecidableEq, Repr

/-- An `ElementModel` with its `label` (structure.py:497-499) and `label_full` (structure.py:493-495), its variables, constraints and sub
models. -/
inductive NTree
  | node (key full : String) (kind : ModelKind) (vars : List Var) (cons : List ConReq) (subs : List NTree)

/-- `model.label` (structure.py:497-499). -/
def NTree.key : NTree → String
  | .node k _ _ _ _ _ => k

/-- `model.variables` (structure.py:366-391). -/
def NTree.vars : NTree → List Var
  | .node _ _ _ vs _ _ => vs

/-- `model.constraints` (structure.py:366-391). -/
def NTree.cons : NTree → List ConReq
  | .node _ _ _ _ cs _ => cs

/-- `model.sub_models` (structure.py:366-391). -/
def NTree.subs : NTree → List NTree
  | .node _ _ _ _ _ ss => ss

/-- The labels of a model and its sub models.  The numbered sub models of `MultipleSegmentsModel` (features.py:627-640, 692-698) and the named
ones of `ShareAllocationModel` (features.py:820-837) follow from the models themselves. -/
inductive NShape
  | model (key full : String) (subs : List NShape)
  | segments (el : String)
  | allocation (el key : String)

/-- `label_short` (structure.py:541-550): the text behind `label_full` and an underscore; the variable of a `SingleShareModel` is named like
its model (features.py:832-834). -/
def shortLabel (key full : String) (x : Var) : String :=
  if x.label = full then key else String.ofList (x.label.toList.drop (full.toList.length + 1))

/-- The name of a `SingleShareModel` of the element `el`: `label_full` is `el__name` and the label of its variable (features.py:820-834). -/
def shareName (el : String) (t : MTree) : String :=
  String.ofList ((((t.ownVars.head?).map (·.label)).getD "").toList.drop (el.toList.length + 2))

/-- A `SegmentModel` (features.py:627-659); it has no sub models. -/
def segmentNode (el : String) (i : Nat) (t : MTree) : NTree :=
  .node ("Segment_" ++ toString i) (el ++ "__" ++ "Segment_" ++ toString i) .plain t.ownVars t.ownCons []

/-- A `SingleShareModel` (features.py:820-846); it has no sub models. -/
def shareNode (el : String) (t : MTree) : NTree :=
  .node (shareName el t) (el ++ "__" ++ shareName el t) .plain t.ownVars t.ownCons []

mutual
  /-- The models of a tree with their labels (structure.py:493-499). -/
  def NShape.annotate : NShape → MTree → NTree
    | .model k f ss, .node vs cs ts => .node k f .plain vs cs (NShape.annotateAll ss ts)
    | .segments el, .node vs cs ts =>
      .node "MultipleSegments" (el ++ "__" ++ "MultipleSegments") .plain vs cs (ts.mapIdx (segmentNode el))
    | .allocation el k, .node vs cs ts => .node k (el ++ "__" ++ k) .allocation vs cs (ts.map (shareNode el))
  /-- The sub models in their order. -/
  def NShape.annotateAll : List NShape → List MTree → List NTree
    | s :: ss, t :: ts => s.annotate t :: NShape.annotateAll ss ts
    | _, _ => []
end

/-! ## The labels of the models of a system -/

/-- `OnOffModel` (features.py:173-200): label `OnOff`. -/
def onOffShape (el : String) : NShape := .model "OnOff" (el ++ "__" ++ "OnOff") []

/-- `InvestmentModel` (features.py:32-62, 109-117): label `Investment`, with a `SegmentedSharesModel` that has a `MultipleSegmentsModel`
(features.py:849-909). -/
def investShape (el : String) (q : InvestParams) : NShape :=
  .model "Investment" (el ++ "__" ++ "Investment")
    (match q.effectsInSegments with
     | some _ => [.model "SegmentedShares" (el ++ "__" ++ "SegmentedShares") [.segments el]]
     | none => [])

/-- `FlowModel` (elements.py:294-336): the label of the flow, its full label. -/
def flowShape (cfg : Cfg) (comp : String) (f : FlowData) : NShape :=
  .model f.label (flowFull comp f.label)
    ((match f.onOff with | some _ => [onOffShape (flowFull comp f.label)] | none => []) ++
     (match f.effSize cfg with | .invest q => [investShape (flowFull comp f.label) q] | .num _ => []))

/-- The sub models of a `ComponentModel` (elements.py:460-489). -/
def CompData.shapes (cfg : Cfg) (c : CompData) : List NShape :=
  (c.inputs ++ c.outputs).map (fun f => flowShape cfg c.label (fillOnOff c f)) ++
  (match c.onOff with | some _ => [onOffShape c.label] | none => []) ++
  (if c.prevent.isEmpty then [] else [.model "PreventSimultaneousUsage" (c.label ++ "__" ++ "PreventSimultaneousUsage") []])

/-- The labels of the models of a component (structure.py:493-499; components.py:322-537). -/
def Comp.shape (cfg : Cfg) : Comp → NShape
  | .plain c => .model c.label c.label (c.shapes cfg)
  | .converter c => .model c.comp.label c.comp.label
      (c.comp.shapes cfg ++ (if c.factors.isEmpty then [.segments c.comp.label] else []))
  | .storage s => .model s.label s.label
      (s.comp.shapes cfg ++ (match s.capacity with | .invest q => [investShape s.label q] | .num _ => []))
  | .transmission t => .model t.label t.label ((t.comp cfg).shapes cfg)

/-- `BusModel` (elements.py:417-422). -/
def BusData.shape (b : BusData) : NShape := .model b.label b.label []

/-- `EffectModel` with its three share allocations (effects.py:151-175). -/
def EffectData.shape (e : EffectData) : NShape :=
  .model e.label e.label [.allocation e.label "invest", .allocation e.label "operation", .allocation e.label "all"]

/-- `EffectCollectionModel` (effects.py:305-318): the effects, then the penalty; the collection is labelled `Effects` (effects.py:263-275). -/
def collShape (es : List EffectData) : NShape :=
  .model "Effects" "Effects" (es.map EffectData.shape ++ [.allocation "Effects" "penalty"])

/-! ## `results()` -/

/-- `variable.result` under its short label (structure.py:489, features.py:814). -/
def varEntry (σ : Assignment) (key full : String) (x : Var) : String × RTree :=
  (shortLabel key full x, seriesResult σ x.length x.label)

/-- The variables of a model under their short labels (structure.py:489). -/
def NTree.ownEntries (σ : Assignment) : NTree → List (String × RTree)
  | .node k f _ vs _ _ => vs.map (varEntry σ k f)

mutual
  /-- `ElementModel.results` (structure.py:487-491) and `ShareAllocationModel.results` (features.py:812-817): later entries of one dictionary
  replace earlier ones of the same key. -/
  def NTree.results (σ : Assignment) : NTree → RTree
    | .node k f .plain vs _ ss => .dict (pyUpdate [] (vs.map (varEntry σ k f) ++ NTree.subResults σ ss))
    | .node k f .allocation vs _ ss =>
      .dict (pyUpdate [] (vs.map (varEntry σ k f) ++ [("Shares", .dict (pyUpdate [] (ss.flatMap (NTree.ownEntries σ))))]))
  /-- `{model.label: model.results() for model in self.sub_models}` (structure.py:490). -/
  def NTree.subResults (σ : Assignment) : List NTree → List (String × RTree)
    | [] => []
    | t :: ts => (t.key, t.results σ) :: NTree.subResults σ ts
end

/-- The models of the components (structure.py:59-60). -/
def SysOut.compModels (cfg : Cfg) (s : System) (o : SysOut) : List NTree :=
  List.zipWith (fun c t => (Comp.shape cfg c).annotate (CompOut.tree t)) s.comps o.comps

/-- The models of the buses (structure.py:61-62). -/
def SysOut.busModels (s : System) (o : SysOut) : List NTree :=
  List.zipWith (fun (b : BusData) (t : BusOut) => b.shape.annotate t.tree) s.buses o.buses

/-- The model of the effects (structure.py:57-58). -/
def SysOut.collModel (s : System) (o : SysOut) : NTree := (collShape s.effects).annotate o.coll.tree

/-- `SystemModel.results` (structure.py:150-159).  Simplifications: `Others` is empty as without aggregation; the points in time
(`Time`) are not represented. -/
def SysOut.results (sys : Sys) (s : System) (o : SysOut) (σ : Assignment) (objective : ℚ) : RTree :=
  .dict [("Components", .dict (pyUpdate [] (NTree.subResults σ (o.compModels sys.cfg s)))),
    ("Effects", (o.collModel s).results σ),
    ("Buses", .dict (pyUpdate [] (NTree.subResults σ (o.busModels s)))),
    ("Others", .dict []),
    ("Objective", .scal objective),
    ("Time", .nul),
    ("Time intervals in hours", .arr sys.dt)]

/-! ## Descriptions -/

/-- A nested description: lists of texts, here the described objects, and dictionaries (structure.py:393-417). -/
inductive DTree (α : Type)
  | list (xs : List α)
  | dict (kvs : List (String × DTree α))

mutual
  /-- `description_of_variables(structured=True)`, `description_of_constraints(structured=True)` (structure.py:393-417), where `own` are the
  model's own variables or constraints. -/
  def NTree.describe {α : Type} (own : NTree → List α) : NTree → DTree α
    | .node k f kd vs cs ss => .dict (pyUpdate [] (("_self", .list (own (.node k f kd vs cs ss))) :: NTree.describeAll own ss))
  /-- `for sub_model in self.sub_models: descriptions[sub_model.label] = …` (structure.py:399-400, 412-413). -/
  def NTree.describeAll {α : Type} (own : NTree → List α) : List NTree → List (String × DTree α)
    | [] => []
    | t :: ts => (t.key, t.describe own) :: NTree.describeAll own ts
end

/-- `SystemModel.description_of_variables(structured=True)` (structure.py:121-132). -/
def SysOut.describeVars (cfg : Cfg) (s : System) (o : SysOut) : DTree Var :=
  .dict [("Components", .dict (pyUpdate [] (NTree.describeAll NTree.vars (o.compModels cfg s)))),
    ("Buses", .dict (pyUpdate [] (NTree.describeAll NTree.vars (o.busModels s)))),
    ("Effects", (o.collModel s).describe NTree.vars),
    ("Others", .dict [])]

/-- `SystemModel.description_of_constraints(structured=True)` (structure.py:134-148). -/
def SysOut.describeCons (cfg : Cfg) (s : System) (o : SysOut) : DTree ConReq :=
  .dict [("Components", .dict (pyUpdate [] (NTree.describeAll NTree.cons (o.compModels cfg s)))),
    ("Buses", .dict (pyUpdate [] (NTree.describeAll NTree.cons (o.busModels s)))),
    ("Objective", .list [{ label := "OBJECTIVE", kind := .eq, ops := o.solver.objective }]),
    ("Effects", (o.collModel s).describe NTree.cons),
    ("Others", .dict [])]

/-- `ElementModel.equations` (structure.py:435-437). -/
def MTree.equations : MTree → List ConReq
  | .node _ cs _ => cs.filter fun c => c.kind = .eq

/-- `ElementModel.inequations` (structure.py:431-433). -/
def MTree.inequations : MTree → List ConReq
  | .node _ cs _ => cs.filter fun c => c.kind = .ineq

/-- A dictionary merged into another, a repeated label raises `KeyError` (structure.py:442-446, 452-456, 462-466). -/
def mergeNew {α} (label : α → String) (acc xs : List α) : Except Err (List α) := xs.foldlM (collectOne label) acc

mutual
  /-- `all_variables`, `all_constraints`, `all_equations` (structure.py:439-467) with the model's own ones given by `own`. -/
  def MTree.allOwn {α : Type} (label : α → String) (own : MTree → List α) : MTree → Except Err (List α)
    | .node vs cs ts => MTree.allOwnSubs label own (own (.node vs cs ts)) ts
  /-- The loop over the sub models. -/
  def MTree.allOwnSubs {α : Type} (label : α → String) (own : MTree → List α) (acc : List α) : List MTree → Except Err (List α)
    | [] => .ok acc
    | t :: ts => do
      let xs ← t.allOwn label own
      let acc ← mergeNew label acc xs
      MTree.allOwnSubs label own acc ts
end

mutual
  /-- `all_inequations` (structure.py:469-476): the inequations of sub models are compared with the own ones but never added. -/
  def MTree.allInequations : MTree → Except Err (List ConReq)
    | .node vs cs ts => do
      let own := (MTree.node vs cs ts).inequations
      let _ ← MTree.compareInequations own ts
      return own
  /-- The loop over the sub models (structure.py:472-475). -/
  def MTree.compareInequations (own : List ConReq) : List MTree → Except Err Unit
    | [] => .ok ()
    | t :: ts => do
      let xs ← t.allInequations
      let _ ← xs.mapM fun c => if c.label ∈ own.map (·.label) then .error Err.key else .ok ()
      MTree.compareInequations own ts
end

/-- `description_of_variables(structured=False)` (structure.py:404-405). -/
def MTree.listVars (t : MTree) : Except Err (List Var) := t.allOwn Var.label MTree.ownVars

/-- `description_of_constraints(structured=False)` (structure.py:416-417): only the equations. -/
def MTree.listCons (t : MTree) : Except Err (List ConReq) := t.allOwn ConReq.label MTree.equations

end Flix
