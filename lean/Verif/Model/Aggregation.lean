import Verif.Model.System

/-!
# `aggregation.py`: index ties between periods of the same cluster, corrections, clustering weights
-/

namespace Flix

/-- What the model reads from `tsam` after clustering (aggregation.py:161-176): the keys of `clusterPeriodNoOccur`, the cluster
of every period (`clusterOrder`), the number of steps of a period (`len(stepIdx)`) and the number of time steps
(`len(timeSeries)`).  The clustering itself (package `tsam`) is not modelled: all values are arbitrary. -/
structure ClusterData where
  keys : List Nat
  order : List Nat
  len : Nat
  total : Nat
  deriving DecidableEq, Repr

/-- `np.arange(start_idx, end_idx)` with `end_idx = min(start_idx + period_length, total_steps)` (aggregation.py:178-180). -/
def ClusterData.periodIndices (c : ClusterData) (period : Nat) : List Nat :=
  List.range' (period * c.len) (min (period * c.len + c.len) c.total - period * c.len)

/-- `index_vectors[cluster_id].append(...)` (aggregation.py:180) on a dictionary in order of insertion. -/
def appendTo (d : List (Nat × List (List Nat))) (k : Nat) (v : List Nat) : Except Err (List (Nat × List (List Nat))) :=
  if k ∈ d.map Prod.fst then .ok (d.map fun q => if q.1 = k then (q.1, q.2 ++ [v]) else q) else .error .key

/-- `Aggregation.get_cluster_indices` (aggregation.py:161-182). -/
def ClusterData.clusterIndices (c : ClusterData) : Except Err (List (Nat × List (List Nat))) :=
  (List.zip (List.range c.order.length) c.order).foldlM (fun d q => appendTo d q.2 (c.periodIndices q.1)) (c.keys.map fun k => (k, []))

/-- `v[1:] if skip_first_index_of_period else v` (aggregation.py:204, 208-209). -/
def skipFirst (skip : Bool) (v : List Nat) : List Nat := if skip then v.drop 1 else v

/-- The pairs of lists with which `idx_var1`, `idx_var2` are extended for one cluster (aggregation.py:200-214). -/
def clusterTies (skip : Bool) : List (List Nat) → List (List Nat × List Nat)
  | [] => []
  | first :: others => others.map fun other =>
      let f := skipFirst skip first
      let o := skipFirst skip other
      let m := min f.length o.length
      (f.take m, o.take m)

/-- `Aggregation.get_equation_indices` (aggregation.py:184-217). -/
def ClusterData.equationIndices (c : ClusterData) (skip : Bool) : Except Err (List Nat × List Nat) := do
  let d ← c.clusterIndices
  let ties := (d.map fun q => clusterTies skip q.2).flatten
  return ((ties.map Prod.fst).flatten, (ties.map Prod.snd).flatten)

/-- `AggregationParameters` (aggregation.py:274-320) as far as `AggregationModel` reads them. -/
structure AggParams where
  fixStorageFlows : Bool
  fixNonBinary : Bool
  percentage : ℚ := 0
  penalty : ℚ := 0
  deriving DecidableEq, Repr

/-- Python's `round` to an integer: half to even.  (In Python the argument has been computed in binary floating point.)
(used in aggregation.py:427). -/
def pyRound (q : ℚ) : Int :=
  if q - q.floor < 1 / 2 then q.floor
  else if 1 / 2 < q - q.floor then q.floor + 1
  else if q.floor % 2 = 0 then q.floor
  else q.floor + 1

/-- `self.label_full` of the `AggregationModel` (aggregation.py:354, structure.py:495): `Element('Aggregation')`, 'Model'. -/
def aggEl : String := "Aggregation__Model"

/-- Variables and constraints created by one call of `equate_indices` (aggregation.py:389-430). -/
structure EquateOut where
  vars : List Var
  cons : List ConReq

/-- The two summands of the tie (aggregation.py:397-399). -/
def tieOps (idx : List Nat × List Nat) (x : Var) : List Op := [sIdx x (.s 1) idx.1, sIdx x (.s (-1)) idx.2]

/-- `equate_indices` with corrections (aggregation.py:402-429). -/
def equateCorrected (p : AggParams) (idx : List Nat × List Nat) (x : Var) : Except Err EquateOut := do
  let k1 ← mkVar aggEl ("Korr1_" ++ x.label) idx.1.length true
  let k0 ← mkVar aggEl ("Korr0_" ++ x.label) idx.1.length true
  return {
    vars := [k1, k0]
    cons := [
      mkEq aggEl ("Equate_indices_of_" ++ x.label) (tieOps idx x ++ [sAll k1 (.s 1), sAll k0 (.s (-1))]),
      mkIneq aggEl ("lock_K0andK1_" ++ x.label) [sAll k0 (.s 1), sAll k1 (.s 1), .const (.s (11 / 10))],
      mkIneq aggEl ("Nr_of_Corrections_" ++ x.label)
        [sSum k1 (.s 1), sSum k0 (.s 1), .const (.s (pyRound (p.percentage / 100 * k1.length)))]] }

/-- `equate_indices` (aggregation.py:389-430). -/
def equateIndices (p : AggParams) (idx : List Nat × List Nat) (x : Var) : Except Err EquateOut :=
  if idx.1.length ≠ idx.2.length then .error .assertion
  else if x.isBinary && decide (0 < p.percentage) then equateCorrected p idx x
  else .ok { vars := [], cons := [mkEq aggEl ("Equate_indices_of_" ++ x.label) (tieOps idx x)] }

mutual
  /-- The entries of `ElementModel.all_variables` (structure.py:440-447) in order: own variables, then those of the sub models. -/
  def MTree.allVars : MTree → List Var
    | .node vs _ ss => vs ++ MTree.allVarsAll ss
  def MTree.allVarsAll : List MTree → List Var
    | [] => []
    | t :: ts => t.allVars ++ MTree.allVarsAll ts
end

/-- `isinstance(v, VariableTS)`, and `v.is_binary` if only binaries are fixed (aggregation.py:372-378).  `create_variable` makes a
`VariableTS` exactly for lengths above 1 (structure.py:543-550). -/
def AggParams.relevant (p : AggParams) (x : Var) : Bool := decide (1 < x.length) && (p.fixNonBinary || x.isBinary)

/-- A component as seen by the aggregation: its label, whether it is a `Storage`, its model
(aggregation.py:368-372). -/
structure AggComp where
  label : String
  isStorage : Bool
  tree : MTree

/-- The body of the loop over components (aggregation.py:368-380). -/
def aggComponent (p : AggParams) (idx : List Nat × List Nat) (c : AggComp) : Except Err (List EquateOut) :=
  if c.isStorage && !p.fixStorageFlows then .ok []
  else do
    let vs ← collect Var.label c.tree.allVars
    (vs.filter p.relevant).mapM (equateIndices p idx)

/-- The components to treat (aggregation.py:361-364): all if the given list is empty (or None).  A component without model (not part of
the flow system) has no `all_variables`. -/
def chooseComponents (sel : List String) (comps : List AggComp) : Except Err (List AggComp) :=
  if sel = [] then .ok comps
  else sel.mapM fun l => (comps.find? fun c => c.label = l).elim (.error .attribute) .ok

/-- Penalties of the corrections (aggregation.py:382-387). -/
def aggPenalties (p : AggParams) (vars : List Var) : List ShareCall :=
  if 0 < p.percentage ∧ p.penalty ≠ 0 then
    vars.map fun x => { target := .penalty, effect := none, name := "Aggregation_penalty__" ++ x.label, var := some x, factor := .s p.penalty, asSum := true }
  else []

/-- `AggregationModel.do_modeling` (aggregation.py:360-387). -/
def aggregationModel (p : AggParams) (cl : ClusterData) (sel : List String) (comps : List AggComp) : Except Err Out := do
  let cs ← chooseComponents sel comps
  let idx ← cl.equationIndices true
  let outs ← cs.mapM (aggComponent p idx)
  let vars := (outs.flatten.map (·.vars)).flatten
  return { tree := .node vars (outs.flatten.map (·.cons)).flatten [], shares := aggPenalties p vars }

/-- `isinstance(component, Storage)` (aggregation.py:369). -/
def Comp.isStorage : Comp → Bool
  | .storage _ => true
  | _ => false

/-- Full label of the component (structure.py:361-363). -/
def Comp.name : Comp → String
  | .plain c => c.label
  | .converter c => c.comp.label
  | .storage s => s.label
  | .transmission t => t.label

/-- The modelled system of an aggregated calculation (calculation.py:280-289). -/
structure AggOut where
  coll : CollOut
  comps : List CompOut
  buses : List BusOut
  agg : Out
  solver : SolverModel

/-- `AggregatedCalculation.do_modeling` from line 280 on (calculation.py:280-289): `SystemModel.do_modeling`, then the aggregation
model as one of `other_models`; collected last (structure.py:234-238). -/
def aggregatedModel (sys : Sys) (s : System) (p : AggParams) (cl : ClusterData) (sel : List String) : Except Err AggOut := do
  let comps ← s.comps.mapM (Comp.model sys)
  let ins := (comps.map (·.outputs)).flatten
  let outs := (comps.map (·.inputs)).flatten
  let buses ← s.buses.mapM fun b => busModel sys b (busFlows ins b.label) (busFlows outs b.label)
  let agg ← aggregationModel p cl sel (List.zipWith (fun c o => ⟨c.name, c.isStorage, o.tree⟩) s.comps comps)
  let coll ← collectionModel sys s.effects ((comps.map (·.shares)).flatten ++ (buses.map (·.shares)).flatten ++ agg.shares)
  let solver ← collectModel (coll.tree :: comps.map CompOut.tree ++ buses.map (·.tree) ++ [agg.tree]) coll.objective
  return { coll, comps, buses, agg, solver }

/-! ## Checks before the clustering and weights of the time series -/

/-- `steps_per_period.is_integer()` (calculation.py:237-238). -/
def isInteger (q : ℚ) : Bool := q.den == 1

/-- The checks at the start of `AggregatedCalculation.do_modeling` (calculation.py:230-242): the number of steps per period, or
the exception.  `np.min` of nothing raises a `ValueError`; a step width of 0 gives `inf` or `nan`, neither is an integer. -/
def checkPeriods (dt : List ℚ) (hoursPerPeriod : ℚ) : Except Err ℚ :=
  match dt with
  | [] => .error .value
  | d :: ds =>
    if ds.any (· != d) then .error .value
    else if d = 0 then .error .exception
    else if isInteger (hoursPerPeriod / d) then .ok (hoursPerPeriod / d)
    else .error .exception

/-- What `TimeSeriesCollection` reads and writes of a `TimeSeries` (core.py:98-109). -/
structure AggSeries where
  label : String
  group : Option String
  weight : Option ℚ
  deriving DecidableEq, Repr

/-- `TimeSeriesData.__init__` (core.py:49-54) and `TimeSeries.__init__` (core.py:98-109): group and weight exclude each other. -/
def mkAggSeries (label : String) (group : Option String) (weight : Option ℚ) : Except Err AggSeries :=
  if group.isSome && weight.isSome then .error .exception else .ok ⟨label, group, weight⟩

/-- `dict(Counter(groups))`: number of series of a group (aggregation.py:238-243). -/
def groupSize (ss : List AggSeries) (g : String) : Nat := (ss.filterMap (·.group)).count g

/-- `weight or 1`: `None` and `0` are both replaced (aggregation.py:247). -/
def orOne : Option ℚ → ℚ
  | none => 1
  | some w => if w = 0 then 1 else w

/-- `self.group_weights.get(group, weight or 1)` (aggregation.py:244-248); `group_weights` has a key exactly for the groups that
occur. -/
def groupWeight (ss : List AggSeries) (s : AggSeries) : ℚ :=
  match s.group with
  | none => orOne s.weight
  | some g => if groupSize ss g = 0 then orOne s.weight else 1 / groupSize ss g

/-- `TimeSeriesCollection.__init__` (aggregation.py:221-234): unique labels are asserted, then the weight of every time series object is
overwritten. -/
def seriesCollection (ss : List AggSeries) : Except Err (List AggSeries) :=
  if (ss.map (·.label)).Nodup then .ok (ss.map fun s => { s with weight := some (groupWeight ss s) }) else .error .assertion

end Flix
