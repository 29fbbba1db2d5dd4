import Verif.Model.Aggregation

/-!
# `Aggregation.describe_clusters` (aggregation.py:107-136)
-/

namespace Flix

/-- What `describe_clusters` reads and changes (aggregation.py:71-79, 107-123): the clustering, the dictionary `tsam.extremePeriods` (its inner dictionaries with their values as
texts) and the names of the series whose peaks are kept.  Inner dictionaries are different objects. -/
structure ClusterState where
  data : ClusterData
  extremes : List (String × List (String × String))
  high : List String
  low : List String
  deriving DecidableEq, Repr

/-- `Aggregation.use_extreme_periods` (aggregation.py:138-140) as a truth value. -/
def ClusterState.useExtremes (s : ClusterState) : Bool := s.high ≠ [] || s.low ≠ []

/-- `str(indexVector[0]) + '...' + str(indexVector[-1])` (aggregation.py:111). -/
def rangeText (a b : Nat) : String := toString a ++ "..." ++ toString b

/-- One entry of the list (aggregation.py:110-113): an empty index vector has no first entry. -/
def vectorText (v : List Nat) : Except Err String :=
  match v.head?, v.getLast? with
  | some a, some b => .ok (rangeText a b)
  | _, _ => .error .index

/-- The dictionary `description` (aggregation.py:108-113). -/
def ClusterData.rangeTexts (c : ClusterData) : Except Err (List (Nat × List String)) := do
  let d ← c.clusterIndices
  d.mapM fun q => do
    let ts ← q.2.mapM vectorText
    return (q.1, ts)

/-- `for key in extreme_periods: del extreme_periods[key]['profile']` (aggregation.py:117-119).  `copy()` is shallow: the inner dictionaries are those of `tsam`, so the first part of the
result is what `tsam.extremePeriods` contains afterwards. -/
def delProfiles : List (String × List (String × String)) → List (String × List (String × String)) × Except Err Unit
  | [] => ([], .ok ())
  | (k, d) :: r =>
    if "profile" ∈ d.map Prod.fst then ((k, d.filter fun q => q.1 ≠ "profile") :: (delProfiles r).1, (delProfiles r).2)
    else ((k, d) :: r, .error .key)

/-- The parts of the text (aggregation.py:123-136); frames, headings and `clusterPeriodNoOccur` are left out. -/
structure ClusterText where
  order : List Nat
  ranges : List (Nat × List String)
  extremes : List (String × List (String × String))
  deriving DecidableEq, Repr

/-- `Aggregation.describe_clusters` (aggregation.py:107-136): the state afterwards and the text. -/
def ClusterState.describe (s : ClusterState) : ClusterState × Except Err ClusterText :=
  match s.data.rangeTexts with
  | .error e => (s, .error e)
  | .ok ranges =>
    if s.useExtremes then
      ({ s with extremes := (delProfiles s.extremes).1 }, (delProfiles s.extremes).2.map fun _ => ⟨s.data.order, ranges, (delProfiles s.extremes).1⟩)
    else (s, .ok ⟨s.data.order, ranges, []⟩)

end Flix
