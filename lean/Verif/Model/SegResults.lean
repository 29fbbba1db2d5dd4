import Verif.Model.Segmented

/-!
# What `SegmentedCalculation` reports: combined scalars, the three options of `results`, the overview of start values

calculation.py:402-431, 516-524, 603-629
-/

namespace Flix

/-- Values that are not all dictionaries (calculation.py:622-625).  `.arr` stands for the Python list of the values. -/
def scalLeaf (vals : List RTree) : RTree :=
  match allOf RTree.scal? vals with
  | some xs => .arr xs
  | none => .nul

mutual
/-- `combine_scalars_recursively` (calculation.py:614-625) on a first value and the others. -/
def scalRec : RTree → List RTree → Except Err RTree
  | .dict kvs, rest =>
    match allOf RTree.dict? rest with
    | some ds => (scalEntries kvs ds).map .dict
    | none => .ok (scalLeaf (.dict kvs :: rest))
  | t, rest => .ok (scalLeaf (t :: rest))
/-- The dictionary comprehension (calculation.py:619). -/
def scalEntries : List (String × RTree) → List (List (String × RTree)) → Except Err (List (String × RTree))
  | [], _ => .ok []
  | (k, t) :: kvs, ds => do
    let rest ← ds.mapM (fun d => dictGet d k)
    let v ← scalRec t rest
    let vs ← scalEntries kvs ds
    return (k, v) :: vs
end

/-- `_combine_nested_scalars(*dicts)` (calculation.py:603-629). -/
def combineScalars : List RTree → Except Err RTree
  | [] => .error .index
  | t :: rest => do
    let c ← scalRec t rest
    return removeEmpty (removeNone c)

/-- `SegmentedCalculation.results` (calculation.py:402-431) on the results of the sub calculations. -/
def SegCalc.results (c : SegCalc) (arrays scalars individual : Bool) (trees : List RTree) : Except Err RTree :=
  if arrays.toNat + scalars.toNat + individual.toNat ≠ 1 then .error .assertion
  else if arrays then combineArrays c.L.toNat trees
  else if scalars then combineScalars trees
  else .ok (.dict (trees.mapIdx fun i t => (segName i, t)))

/-- `start_values_of_segments` (calculation.py:516-524); the first sub calculation is always named `Segment_1`. -/
def SegState.startValues (s : SegState) : Except Err (List (String × StartVals)) :=
  if s.subs = [] then .error .index
  else .ok (s.given.foldl (fun d q => setEntry d q.1 q.2) [(segName 0, (s.origF, s.origS))])

end Flix
