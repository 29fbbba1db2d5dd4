import Verif.Model.Time

/-!
# `TimeSeries` (core.py:74-182) and its life over several calculations

Attributes of elements and parameter objects are cells.  A cell holds the user's data until the first `transform_data`, then a
`TimeSeries` object.  Objects are numbered in the order of their creation.
-/

namespace Flix

/-- `make_scalar_if_possible` (core.py:161-182).  `nan` values are not modelled. -/
def makeScalar : Num → Except Err Num
  | .s x => .ok (.s x)
  | .v [] => .error .index
  | .v (x :: xs) => .ok (if (x :: xs).all (fun y => decide (y = x)) then .s x else .v (x :: xs))

/-- A `TimeSeries` object (core.py:98-109). -/
structure TSObj where
  data : Num
  active : Option (List Int) := none
  agg : Option Num := none
  deriving DecidableEq, Repr

/-- `clear_indices_and_aggregated_data` (core.py:121-123). -/
def TSObj.clear (o : TSObj) : TSObj := { o with active := none, agg := none }

/-- `data[indices]` of a numpy array (core.py:134). -/
def npTake (xs : List ℚ) (idx : List Int) : Except Err Num := do
  let ys ← idx.mapM (pyGetI xs)
  return .v ys

/-- `active_data` without aggregated data (core.py:130-134). -/
def TSObj.ownData (o : TSObj) : Except Err Num :=
  match o.data, o.active with
  | .s x, _ => .ok (.s x)
  | .v xs, none => .ok (.v xs)
  | .v xs, some idx => npTake xs idx

/-- `active_data` (core.py:125-134). -/
def TSObj.activeData (o : TSObj) : Except Err Num :=
  match o.agg with
  | some a => .ok a
  | none => o.ownData

/-- An attribute (structure.py:502-515). -/
inductive Cell
  | raw (d : Num)
  | obj (i : Nat)
  deriving DecidableEq, Repr

/-- All attributes, all objects, and the objects registered in `used_time_series`, each with the flow system its element belongs to
(structure.py:344-355, 502-515). -/
structure SState where
  cells : List Cell := []
  objs : List TSObj := []
  used : List (Nat × Nat) := []
  deriving DecidableEq, Repr

/-- A new `TimeSeries` (structure.py:513-515), stored in the cell. -/
def SState.addObj (f : Nat) (s : SState) (c : Nat) (d : Num) : SState where
  cells := s.cells.set c (.obj s.objs.length)
  objs := s.objs ++ [{ data := d }]
  used := s.used ++ [(f, s.objs.length)]

/-- `_create_time_series` (structure.py:502-515) on a cell, for an element of flow system `f`.  A `None` attribute stays `None` and is no
cell here. -/
def SState.visit (f : Nat) (s : SState) (c : Nat) : SState × Option Err :=
  match s.cells[c]? with
  | none => (s, some .attribute)
  | some (.obj i) => ({ s with objs := s.objs.modify i TSObj.clear }, none)
  | some (.raw d) =>
    match makeScalar d with
    | .error e => (s, some e)
    | .ok d' => (s.addObj f c d', none)

/-- `FlowSystem.transform_data` (flow_system.py:105-107): the cells of the system in some order, until the first exception. -/
def SState.transform (f : Nat) (s : SState) : List Nat → SState × Option Err
  | [] => (s, none)
  | c :: cs =>
    match s.visit f c with
    | (s', none) => s'.transform f cs
    | (s', some e) => (s', some e)

/-- `activate_indices(self.time_indices)` for all time series of a flow system (calculation.py:154-155, 219-220; flow_system.py
`all_time_series`). -/
def SState.activate (f : Nat) (s : SState) (idx : Option (List Int)) : SState :=
  { s with
    objs := s.used.foldl (fun os q => if q.1 = f then os.modify q.2 fun o => { o with active := idx } else os) s.objs }

/-- `insert_data` (aggregation.py:256-260): the aggregated data of some series. -/
def SState.insert (s : SState) (ins : List (Nat × Num)) : SState :=
  { s with objs := ins.foldl (fun os q => os.modify q.1 fun o => { o with agg := some q.2 }) s.objs }

/-- Calls of the user.  `transform` is a calculation that raises before the activation (or `transform_data` called by the user); a
segmented calculation is a sequence of `full` ones; `copy` assigns the attribute `c` to the attribute `c'`
(calculation.py:150-159). -/
inductive SCall
  | newCell (d : Num)
  | assign (c : Nat) (d : Num)
  | copy (c c' : Nat)
  | transform (f : Nat) (visits : List Nat)
  | full (f : Nat) (visits : List Nat) (idx : Option (List Int))
  | aggregated (f : Nat) (visits : List Nat) (idx : Option (List Int)) (ins : List (Nat × Num))

/-- The beginning of `do_modeling` (calculation.py:153-155, 218-220). -/
def SState.prepare (f : Nat) (s : SState) (visits : List Nat) (idx : Option (List Int)) : SState × Option Err :=
  match s.transform f visits with
  | (s', none) => (s'.activate f idx, none)
  | (s', some e) => (s', some e)

/-- Assigning an attribute to another one
(e.g. components.py:341: an attribute read from one object and given to another). -/
def SState.copy (s : SState) (c c' : Nat) : SState :=
  match s.cells[c]? with
  | none => s
  | some x => { s with cells := s.cells.set c' x }

/-- One call; exceptions are caught by the caller (calculation.py:150-159). -/
def SState.step (s : SState) : SCall → SState × Option Err
  | .newCell d => ({ s with cells := s.cells ++ [.raw d] }, none)
  | .assign c d => ({ s with cells := s.cells.set c (.raw d) }, none)
  | .copy c c' => (s.copy c c', none)
  | .transform f vs => s.transform f vs
  | .full f vs idx => s.prepare f vs idx
  | .aggregated f vs idx ins =>
    match s.prepare f vs idx with
    | (s', none) => (s'.insert ins, none)
    | (s', some e) => (s', some e)

/-- Any history of calls (calculation.py:150-159). -/
def SState.run (s : SState) : List SCall → SState
  | [] => s
  | c :: cs => (s.step c).1.run cs

end Flix
