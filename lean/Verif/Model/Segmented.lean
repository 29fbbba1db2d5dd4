import Verif.Model.Time

/-!
# `SegmentedCalculation` (calculation.py:305-524) and the combination of results (calculation.py:527-629)
-/

namespace Flix

/-- Python's `range(a, b)` (calculation.py:510). -/
def pyRange (a b : Int) : List Int := (List.range (b - a).toNat).map fun (k : Nat) => a + k

/-- The parameters of a segmented calculation (calculation.py:344-347); `total` is `_total_length`. -/
structure SegCalc where
  L : Int
  o : Int
  total : Nat
  deriving DecidableEq, Repr

/-- `number_of_segments` (calculation.py:347).  The code divides floats; here the division is exact. -/
def SegCalc.nSeg (c : SegCalc) : Nat := (-((-(c.total : Int)) / c.L)).toNat

/-- `_total_length` (calculation.py:346). -/
def totalLength (nTime : Nat) : Option (List Int) → Nat
  | some js => js.length
  | none => nTime

/-- `SegmentedCalculation.__init__` (calculation.py:343-353): number of time indices or of all steps, and the two assertions. -/
def SegCalc.init (nTime : Nat) (timeIndices : Option (List Int)) (L o : Int) : Except Err SegCalc :=
  if L = 0 then .error .zeroDivision
  else if ¬ 2 < L then .error .assertion
  else if ¬ L + o ≤ totalLength nTime timeIndices then .error .assertion
  else .ok { L := L, o := o, total := totalLength nTime timeIndices }

/-- `_get_indices` (calculation.py:508-510). -/
def SegCalc.indices (c : SegCalc) (i : Nat) : List Int :=
  pyRange (i * c.L) (min (i * c.L + c.L + c.o) c.total)

/-- A start value: `previous_flow_rate` (elements.py:172) or `initial_charge_state` (components.py:144). -/
inductive StartVal
  | none
  | num (a : Num)
  | text (s : String)
  deriving DecidableEq, Repr

/-- The solved series of a segment: the flow rates of all flows and the charge states of all storages, as solver values before
`Variable.result` is written (calculation.py:488-496). -/
structure SegRes where
  flowRates : List (List ℚ)
  charges : List (List ℚ)
  deriving DecidableEq, Repr

/-- A sub calculation: its indices, the start values its model was built with and its results
(calculation.py:371-391). -/
structure SegSub where
  idx : List Int
  flows : List StartVal
  stores : List StartVal
  res : Option SegRes
  deriving DecidableEq, Repr

/-- Start values of all flows and of all storages, in the order of the flow system.  In the code dictionaries from the full labels
(calculation.py:355-364). -/
abbrev StartVals := List StartVal × List StartVal

/-- The name of segment `i` (calculation.py:372). -/
def segName (i : Nat) : String := "Segment_" ++ toString (i + 1)

/-- `d[k] = v` on a dictionary in order of insertion (calculation.py:498). -/
def setEntry {α} (d : List (String × α)) (k : String) (v : α) : List (String × α) :=
  if d.any (fun q => q.1 == k) then d.map fun q => if q.1 == k then (k, v) else q else d ++ [(k, v)]

/-- The state: current start values of the elements, the ones stored at construction (calculation.py:355-363), `sub_calculations`, the
results held by the current models of the elements (`None` before a solve) and `_transfered_start_values` (calculation.py:364). -/
structure SegState where
  flows : List StartVal
  stores : List StartVal
  origF : List StartVal
  origS : List StartVal
  subs : List SegSub := []
  model : Option SegRes := .none
  given : List (String × StartVals) := []
  deriving DecidableEq, Repr

/-- Building and solving one segment (`calculation.do_modeling()`, `calculation.solve()`): any function of the number of the segment, its
indices and the start values.  It may raise, and leaves the models of the elements with or without results
(calculation.py:377-391). -/
abbrev SegSolver := Nat → List Int → List StartVal → List StartVal → Option Err × Option SegRes

/-- `variable.result[position]`: the result of a variable of length one is a scalar (math_modeling.py:1022-1025), which has no positions. -/
def resultGet (xs : List ℚ) (pos : Int) : Except Err ℚ := if xs.length = 1 then .error .index else pyGetI xs pos

/-- One of the two loops of `_transfer_start_values` (calculation.py:488-496). -/
def transferList (pos : Int) : List (List ℚ) → List StartVal → List StartVal × Option Err
  | xs :: xss, v :: vs =>
    match resultGet xs pos with
    | .ok x => (.num (.s x) :: (transferList pos xss vs).1, (transferList pos xss vs).2)
    | .error e => (v :: vs, some e)
  | _, vs => (vs, none)

/-- The last line of `_transfer_start_values` (calculation.py:498), reached without an exception. -/
def SegState.record (s : SegState) (i : Nat) : SegState := { s with given := setEntry s.given (segName i) (s.flows, s.stores) }

/-- The two loops of `_transfer_start_values` (calculation.py:486-496). -/
def SegCalc.transferValues (c : SegCalc) (s : SegState) : SegState × Option Err :=
  match s.model with
  | .none => (s, some .type)
  | some r =>
    match transferList (-(1 + c.o)) r.flowRates s.flows with
    | (fs, some e) => ({ s with flows := fs }, some e)
    | (fs, none) =>
      ({ s with flows := fs, stores := (transferList (-(1 + c.o)) r.charges s.stores).1 },
        (transferList (-(1 + c.o)) r.charges s.stores).2)

/-- `_transfer_start_values` (calculation.py:481-498). -/
def SegCalc.transfer (c : SegCalc) (i : Nat) (s : SegState) : SegState × Option Err :=
  match c.transferValues s with
  | (s1, some e) => (s1, some e)
  | (s1, none) => (s1.record i, none)

/-- The transfer before segment `i` (calculation.py:373-374). -/
def SegCalc.enter (c : SegCalc) (i : Nat) (s : SegState) : SegState × Option Err :=
  if s.subs = [] then (s, none) else c.transfer i s

/-- Building and solving segment `i` (calculation.py:375-391). -/
def SegCalc.solveSeg (c : SegCalc) (solver : SegSolver) (i : Nat) (s : SegState) : SegState × Option Err :=
  let out := solver i (c.indices i) s.flows s.stores
  ({ s with subs := s.subs ++ [{ idx := c.indices i, flows := s.flows, stores := s.stores, res := out.2 }], model := out.2 }, out.1)

/-- The loop over the segments (calculation.py:371-391), `m` segments from number `i`. -/
def SegCalc.loop (c : SegCalc) (solver : SegSolver) : Nat → Nat → SegState → SegState × Option Err
  | 0, _, s => (s, none)
  | m + 1, i, s =>
    match c.enter i s with
    | (s1, some e) => (s1, some e)
    | (s1, none) =>
      match c.solveSeg solver i s1 with
      | (s2, some e) => (s2, some e)
      | (s2, none) => c.loop solver m (i + 1) s2

/-- One of the two loops of `_reset_start_values` (calculation.py:500-506): an element added after the construction has no stored value. -/
def resetList : List StartVal → List StartVal → List StartVal × Option Err
  | o :: os, _ :: vs => (o :: (resetList os vs).1, (resetList os vs).2)
  | _, [] => ([], none)
  | [], v :: vs => (v :: vs, some .key)

/-- `_reset_start_values` (calculation.py:500-506). -/
def SegState.reset (s : SegState) : SegState × Option Err :=
  match resetList s.origF s.flows with
  | (fs, some e) => ({ s with flows := fs }, some e)
  | (fs, none) => ({ s with flows := fs, stores := (resetList s.origS s.stores).1 }, (resetList s.origS s.stores).2)

/-- `do_modeling_and_solve` (calculation.py:366-400); saving to files is not modelled. -/
def SegCalc.solveAll (c : SegCalc) (solver : SegSolver) (s : SegState) : SegState × Option Err :=
  match c.loop solver c.nSeg 0 s with
  | (s1, some e) => (s1, some e)
  | (s1, none) => s1.reset

/-- The state after the construction (calculation.py:346, 355-364). -/
def SegState.start (flows stores : List StartVal) : SegState := { flows := flows, stores := stores, origF := flows, origS := stores }

/-! ## Results -/

/-- Nested results: arrays, scalars, `None` and dictionaries (calculation.py:527-629). -/
inductive RTree
  | arr (xs : List ℚ)
  | scal (x : ℚ)
  | nul
  | dict (kvs : List (String × RTree))

/-- `variable.result` (math_modeling.py:1019-1025). -/
def varResult : List ℚ → RTree
  | [x] => .scal x
  | xs => .arr xs

/-- The dictionary of a value that is one (calculation.py:579). -/
def RTree.dict? : RTree → Option (List (String × RTree))
  | .dict kvs => some kvs
  | _ => none

/-- The array of a value that is one (calculation.py:582). -/
def RTree.arr? : RTree → Option (List ℚ)
  | .arr xs => some xs
  | _ => none

/-- The scalar of a value that is one (calculation.py:622). -/
def RTree.scal? : RTree → Option ℚ
  | .scal x => some x
  | _ => none

/-- `val[key]` on a dictionary (calculation.py:580). -/
def dictGet (kvs : List (String × RTree)) (k : String) : Except Err RTree :=
  match kvs.lookup k with
  | some v => .ok v
  | none => .error .key

/-- All values converted, or nothing: `all(isinstance(val, ...) for val in values)`
(calculation.py:579, 582, 618, 622). -/
def allOf {α β} (f : α → Option β) : List α → Option (List β)
  | [] => some []
  | a :: as =>
    match f a, allOf f as with
    | some b, some bs => some (b :: bs)
    | _, _ => none

/-- The concatenation of the limited arrays (calculation.py:584-593), `length_per_array` given: all but the last are cut. -/
def concatLimited (n : Nat) : List (List ℚ) → List ℚ
  | [] => []
  | [xs] => xs
  | xs :: rest => xs.take n ++ concatLimited n rest

/-- Values that are not all dictionaries (calculation.py:582-596). -/
def combineLeaf (n : Nat) (vals : List RTree) : RTree :=
  match allOf RTree.arr? vals with
  | some xss => .arr (concatLimited n xss)
  | none => .nul

mutual
/-- `combine_arrays_recursively` (calculation.py:576-596) on a first value and the others.  `length_per_array` is positive. -/
def combineRec (n : Nat) : RTree → List RTree → Except Err RTree
  | .dict kvs, rest =>
    match allOf RTree.dict? rest with
    | some ds => (combineEntries n kvs ds).map .dict
    | none => .ok (combineLeaf n (.dict kvs :: rest))
  | t, rest => .ok (combineLeaf n (t :: rest))
/-- The dictionary comprehension (calculation.py:580). -/
def combineEntries (n : Nat) : List (String × RTree) → List (List (String × RTree)) → Except Err (List (String × RTree))
  | [], _ => .ok []
  | (k, t) :: kvs, ds => do
    let rest ← ds.mapM (fun d => dictGet d k)
    let v ← combineRec n t rest
    let vs ← combineEntries n kvs ds
    return (k, v) :: vs
end

/-- The value is `None` (calculation.py:529). -/
def RTree.isNul : RTree → Bool
  | .nul => true
  | _ => false

mutual
/-- `_remove_none_values` (calculation.py:527-529) on a value. -/
def removeNone : RTree → RTree
  | .dict kvs => .dict (removeNoneList kvs)
  | t => t
/-- `_remove_none_values` on the entries (calculation.py:527-529). -/
def removeNoneList : List (String × RTree) → List (String × RTree)
  | [] => []
  | (k, t) :: kvs => if t.isNul then removeNoneList kvs else (k, removeNone t) :: removeNoneList kvs
end

/-- The value is an empty dictionary (calculation.py:537). -/
def RTree.isEmptyDict : RTree → Bool
  | .dict [] => true
  | _ => false

mutual
/-- `_remove_empty_dicts` (calculation.py:532-538) on a value. -/
def removeEmpty : RTree → RTree
  | .dict kvs => .dict (removeEmptyList kvs)
  | t => t
/-- `_remove_empty_dicts` on the entries (calculation.py:532-538). -/
def removeEmptyList : List (String × RTree) → List (String × RTree)
  | [] => []
  | (k, t) :: kvs => if (removeEmpty t).isEmptyDict then removeEmptyList kvs else (k, removeEmpty t) :: removeEmptyList kvs
end

/-- `_combine_nested_arrays(*dicts, length_per_array=n)` (calculation.py:541-600). -/
def combineArrays (n : Nat) : List RTree → Except Err RTree
  | [] => .error .index
  | t :: rest => do
    let c ← combineRec n t rest
    return removeEmpty (removeNone c)

end Flix
