import Verif.Model.Registry
import Verif.Model.Segmented
import Verif.Model.System

/-!
# Results: flattening, saving and loading, tables, caching, heat maps
-/

namespace Flix

/-! ## `flatten_dict` (results.py:504-530) -/

/-- `f'{parent_key}{sep}{k}' if parent_key else k` (results.py:518) with the default separator. -/
def newKey (parent k : String) : String := if parent = "" then k else parent ++ "__" ++ k

mutual
  /-- `flatten_dict` on the items of a dictionary (results.py:516-530).  `new_key not in items` (line 522) compares a string with pairs and
  is always true: the branch with the numbered keys (lines 524-529) is never reached. -/
  def flattenDict : String → List (String × RTree) → List (String × RTree)
    | parent, kvs => pyUpdate [] (flattenItems parent kvs)
  /-- The list `items` after the loop. -/
  def flattenItems : String → List (String × RTree) → List (String × RTree)
    | _, [] => []
    | parent, (k, v) :: kvs => flattenValue (newKey parent k) v ++ flattenItems parent kvs
  /-- What one entry adds to `items`. -/
  def flattenValue : String → RTree → List (String × RTree)
    | key, .dict kvs => flattenDict key kvs
    | key, .arr xs => [(key, .arr xs)]
    | key, .scal x => [(key, .scal x)]
    | key, .nul => [(key, .nul)]
end

/-! ## Saving and loading -/

/-- Python values that occur in results: plain values, numpy scalars, numpy arrays (one-dimensional: numeric, or of objects such as
dates), collections with string keys, time series (by their active data), anything else
(structure.py:555-652). -/
inductive PyVal
  | none
  | bool (b : Bool)
  | int (z : Int)
  | float (q : ℚ)
  | str (s : String)
  | npInt (z : Int)
  | npFloat (q : ℚ)
  | datetime (iso : String)
  | list (xs : List PyVal)
  | tuple (xs : List PyVal)
  | set (xs : List PyVal)
  | dict (kvs : List (String × PyVal))
  | arr (xs : List ℚ)
  | objArr (xs : List PyVal)
  | series (v : PyVal)
  | other

mutual
  /-- `copy_and_convert_datatypes(data, use_numpy=False)` (structure.py:606-652) without elements (whose infos are not modelled).
  `data.tolist()` of a numeric array gives Python numbers
  (simplification: floats also for integer arrays); `json.dump` and `json.load` reproduce strings, numbers, booleans, `None`, lists and
  dictionaries with string keys. -/
  def PyVal.convert : PyVal → Except Err PyVal
    | .npInt z => .ok (.int z)
    | .npFloat q => .ok (.float q)
    | .none => .ok .none
    | .bool b => .ok (.bool b)
    | .int z => .ok (.int z)
    | .float q => .ok (.float q)
    | .str s => .ok (.str s)
    | .datetime iso => .ok (.str iso)
    | .tuple xs => .list <$> PyVal.convertList xs
    | .set xs => .list <$> PyVal.convertList xs
    | .dict kvs => .dict <$> PyVal.convertEntries kvs
    | .list xs => .list <$> PyVal.convertList xs
    | .arr xs => .ok (.list (xs.map .float))
    | .objArr xs => .list <$> PyVal.convertList xs
    | .series v => v.convert
    | .other => .error .type
  def PyVal.convertList : List PyVal → Except Err (List PyVal)
    | [] => .ok []
    | x :: xs => do
      let y ← x.convert
      let ys ← PyVal.convertList xs
      return y :: ys
  /-- The dictionary comprehension; string keys convert to themselves and are distinct. -/
  def PyVal.convertEntries : List (String × PyVal) → Except Err (List (String × PyVal))
    | [] => .ok []
    | (k, x) :: xs => do
      let y ← x.convert
      let ys ← PyVal.convertEntries xs
      return (k, y) :: ys
end

/-- `isinstance(item, (int, float))`: also booleans and numpy floats; the value as an entry of an array
(results.py:479-530). -/
def PyVal.number? : PyVal → Option ℚ
  | .bool b => some (if b then 1 else 0)
  | .int z => some z
  | .float q => some q
  | .npFloat q => some q
  | _ => Option.none

mutual
  /-- `convert_numeric_lists_to_arrays` (utils.py:93-134); also used for the entries of lists and dictionaries: values that are neither
  dictionary, list nor tuple are kept (lines 116-117, 126-127, 132-133). -/
  def PyVal.load : PyVal → PyVal
    | .dict kvs => .dict (PyVal.loadEntries kvs)
    | .list [] => .list []
    | .list xs => (allOf PyVal.number? xs).elim (.list (PyVal.loadList xs)) .arr
    | .tuple xs => .list (PyVal.loadList xs)
    | v => v
  def PyVal.loadList : List PyVal → List PyVal
    | [] => []
    | x :: xs => x.load :: PyVal.loadList xs
  def PyVal.loadEntries : List (String × PyVal) → List (String × PyVal)
    | [] => []
    | (k, x) :: xs => (k, x.load) :: PyVal.loadEntries xs
end

/-- Saved by `_save_solve_infos` (calculation.py:94-97) and read by `CalculationResults.__init__` (results.py:57-59). -/
def saveAndLoad (v : PyVal) : Except Err PyVal := PyVal.load <$> v.convert

/-! ## Tables -/

/-- A component as its results show it: flows, short labels and lengths of own variables, labels of the sub models behind those of the flows
(structure.py:487-491). -/
structure ResComp where
  label : String
  inputs : List FlowData
  outputs : List FlowData
  own : List (String × Nat)
  others : List String

/-- Labels of the sub models of a `ComponentModel` (elements.py:473-489). -/
def CompData.others (c : CompData) : List String :=
  (if c.onOff.isSome then ["OnOff"] else []) ++ (if c.prevent = [] then [] else ["PreventSimultaneousUsage"])

/-- Variables of the storage are `charge_state` and `netto_discharge` (components.py:436-447); segments (components.py:417-420), investment
(components.py:475-480). -/
def Comp.res (cfg : Cfg) (n : Nat) : Comp → ResComp
  | .plain c => ⟨c.label, c.inputs, c.outputs, [], c.others⟩
  | .converter c => ⟨c.comp.label, c.comp.inputs, c.comp.outputs, [], c.comp.others ++ (if c.factors = [] then ["MultipleSegments"] else [])⟩
  | .storage s => ⟨s.label, [s.charging], [s.discharging], [("charge_state", n + 1), ("netto_discharge", n)], s.comp.others ++
      (match s.capacity with | .invest _ => ["Investment"] | .num _ => [])⟩
  | .transmission t => ⟨t.label, t.in1 :: t.in2.toList, t.out1 :: t.out2.toList, [], (t.comp cfg).others⟩

/-- `variable.result` of a variable over time (math_modeling.py:1006-1025). -/
def seriesResult (σ : Assignment) (n : Nat) (l : String) : RTree := varResult ((List.range n).map (σ l))

/-- `FlowModel.results()` (structure.py:487-491) reduced to the flow rate; the other entries have other keys. -/
def flowResult (σ : Assignment) (n : Nat) (comp flow : String) : RTree := .dict [("flow_rate", seriesResult σ n (comp ++ "__" ++ flow ++ "_flow_rate"))]

/-- `ComponentModel.results()` (structure.py:487-491): variables by short label, then sub models by label, in one dictionary.  The contents
of sub models that are not flows are left out. -/
def ResComp.results (σ : Assignment) (n : Nat) (c : ResComp) : List (String × RTree) :=
  pyUpdate [] (c.own.map (fun q => (q.1, seriesResult σ q.2 (c.label ++ "_" ++ q.1))) ++ (c.inputs ++ c.outputs).map (fun f => (f.label, flowResult σ n c.label f.label)) ++ c.others.map (fun l => (l, .dict [])))

/-- `FlowResults` (results.py:402-412) -/
structure FlowRes where
  labelFull : String
  bus : String
  isInput : Bool
  data : RTree

/-- `ComponentResults._create_flow_results` (results.py:423-432): infos of the flows by label. -/
def ResComp.flowResults (σ : Assignment) (n : Nat) (c : ResComp) : Except Err (List FlowRes) :=
  (pyUpdate [] (c.inputs.map (fun f => (f.label, (f, true))) ++ c.outputs.map (fun f => (f.label, (f, false))))).mapM fun q => do
    let d ← dictGet (c.results σ n) q.1
    return { labelFull := c.label ++ "__" ++ q.1, bus := q.2.1.bus, isInput := q.2.2, data := d }

/-- Inputs first (results.py:430-432, 128-131). -/
def inputsFirst (fs : List FlowRes) : List FlowRes := fs.filter (·.isInput) ++ fs.filter (fun f => !f.isInput)

/-- `CalculationResults.flow_results` (results.py:128-131) with the components keyed by label (results.py:83-92). -/
def allFlowResults (σ : Assignment) (n : Nat) (cs : List ResComp) : Except Err (List (String × FlowRes)) := do
  let fss ← cs.mapM fun c => do
    let fs ← c.flowResults σ n
    return (c.label, fs)
  return pyUpdate [] ((pyUpdate [] fss).map fun q => (inputsFirst q.2).map fun f => (f.labelFull, f)).flatten

/-- `flow.variables[variable_name] * factor`: of a dictionary entry that is a number or an array
(results.py:402-472). -/
def scaled (k : ℚ) : RTree → Except Err RTree
  | .arr xs => .ok (.arr (xs.map (· * k)))
  | .scal x => .ok (.scal (x * k))
  | _ => .error .type

/-- `flow.variables['flow_rate'] * factor` (results.py:402-472). -/
def FlowRes.column (k : ℚ) (f : FlowRes) : Except Err (String × RTree) := do
  let d ← f.data.dict?.elim (.error .type) .ok
  let v ← dictGet d "flow_rate"
  let w ← scaled k v
  return (f.labelFull, w)

/-- `pd.DataFrame(data=...)` of a dictionary: arrays of one length; scalars only are refused for want of an index; a scalar beside arrays is
repeated (results.py:412, 446, 472). -/
def dataFrame (kvs : List (String × RTree)) : Except Err (List (String × List ℚ)) :=
  match kvs.findSome? (fun q => q.2.arr?) with
  | none => if kvs = [] then .ok [] else .error .value
  | some ys => kvs.mapM fun q => match q.2 with
    | .arr xs => if xs.length = ys.length then .ok (q.1, xs) else .error .value
    | .scal x => .ok (q.1, List.replicate ys.length x)
    | _ => .error .type

/-- The excess columns of a bus (results.py:465-466, 469-470). -/
def excessColumn (σ : Assignment) (n : Nat) (b : BusData) (var key : String) (k : ℚ) : Except Err (List (String × RTree)) :=
  match b.excessPenalty with
  | none => .ok []
  | some _ => do
    let w ← scaled k (seriesResult σ n (b.label ++ "_" ++ var))
    return [(key, w)]

/-- `BusResults.to_dataframe` (results.py:456-472, 106-126) with the given factors for the results of a solution. -/
def busTable (cfg : Cfg) (σ : Assignment) (n : Nat) (s : System) (b : BusData) (inF outF : Option ℚ) : Except Err (List (String × List ℚ)) := do
  let fs ← allFlowResults σ n (s.comps.map (Comp.res cfg n))
  let here := (fs.map (·.2)).filter fun f => f.bus = b.label
  let ins ← inF.elim (.ok []) fun k => do
    let cs ← (here.filter fun f => !f.isInput).mapM (FlowRes.column k)
    let e ← excessColumn σ n b "excess_input" "Excess Input" k
    return pyUpdate [] (cs ++ e)
  let outs ← outF.elim (.ok []) fun k => do
    let cs ← (here.filter (·.isInput)).mapM (FlowRes.column k)
    let e ← excessColumn σ n b "excess_output" "Excess Output" k
    return pyUpdate [] (cs ++ e)
  dataFrame (pyUpdate ins outs)

/-- `df.loc[:, ((df > threshold) | (df < -1 * threshold)).any()]` (results.py:184-185; the index set afterwards is not modelled). -/
def aboveThreshold (thr : ℚ) (df : List (String × List ℚ)) : List (String × List ℚ) :=
  df.filter fun q => q.2.any fun x => decide (thr < x) || decide (x < -thr)

/-! ## Caching of results -/

/-- A calculation as far as results are concerned.  `model`: none before `do_modeling`, `some none` modelled but not solved, `some (some v)`
with the values `v` of its last solve.  `cache` is `_results` (the values in the dictionary; `none` inside stands for values `None`), `saved`
the results file (calculation.py:130-172). -/
structure CalcState where
  model : Option (Option Nat) := none
  cache : Option (Option Nat) := none
  saved : Option (Option Nat) := none
  deriving DecidableEq, Repr

/-- A call of the user (calculation.py:130-172). -/
inductive CalcCall
  /-- `do_modeling()`: a new system model without results -/
  | model
  /-- `solve(solver, save_results)` with the values it finds -/
  | solve (values : Nat) (save : Bool)
  /-- `results()` -/
  | results
  deriving DecidableEq, Repr

/-- `Calculation.results` (calculation.py:130-133): the state afterwards and the values returned.  Without a system model `None.results()`. -/
def CalcState.results (s : CalcState) : Except Err (CalcState × Option Nat) :=
  match s.cache, s.model with
  | some r, _ => .ok (s, r)
  | none, some v => .ok ({ s with cache := some v }, v)
  | none, none => .error .attribute

/-- `_save_solve_infos` (calculation.py:94-98): saves what `results()` returns. -/
def CalcState.save (s : CalcState) : Except Err CalcState := do
  let r ← s.results
  return { r.1 with saved := some r.2 }

/-- One call (calculation.py:150-172, 130-133).  A call that raises leaves the state as it was. -/
def CalcState.step (s : CalcState) : CalcCall → Except Err CalcState
  | .model => .ok { s with model := some none }
  | .solve v save =>
    match s.model, save with
    | none, _ => .error .attribute
    | some _, false => .ok { s with model := some (some v) }
    | some _, true => { s with model := some (some v) : CalcState }.save
  | .results => (·.1) <$> s.results

/-- A history of calls; failing calls are caught by the user (calculation.py:130-172). -/
def CalcState.run (s : CalcState) : List CalcCall → CalcState
  | [] => s
  | c :: cs =>
    match s.step c with
    | .ok s' => s'.run cs
    | .error _ => s.run cs

/-! ## `reshape_to_2d` (plotting.py:474-521) -/

/-- Rows of the transposed array; `none` is NaN.  A column height of 0 raises `ZeroDivisionError`; a negative one `np.pad` or `reshape` (not
modelled: natural numbers) (plotting.py:474-521). -/
def reshape2d (xs : List ℚ) (steps : Nat) : Except Err (List (List (Option ℚ))) :=
  if steps = 0 then .error .zeroDivision
  else
    let cols := if xs.length % steps ≠ 0 then xs.length / steps + 1 else xs.length / steps
    let padded : List (Option ℚ) := xs.map some ++ List.replicate (cols * steps - xs.length) none
    let data : List (List (Option ℚ)) := (List.range cols).map fun c => (padded.drop (c * steps)).take steps
    .ok ((List.range steps).map fun r => data.map fun col => (col[r]?).join)

end Flix
