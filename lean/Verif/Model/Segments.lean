import Verif.Model.Tree

/-!
# Piecewise-linear features (features.py:627-729, 849-909) and `PreventSimultaneousUsageModel` (912-942)
-/

namespace Flix

/-- The variables of one `SegmentModel` (features.py:627-658). -/
structure SegVars where
  inSegment : Var
  lambda0 : Var
  lambda1 : Var
  deriving DecidableEq, Repr

/-- `SegmentModel.do_modeling` (features.py:647-658) for segment number `i`, `length` is the number of time steps or 1. -/
def segmentModel (el : String) (length i : Nat) : Except Err (SegVars × MTree) := do
  let p := el ++ "__" ++ "Segment_" ++ toString i
  let inSeg ← mkVar p "inSegment" length (isBinary := true)
  let l0 ← mkVar p "lambda0" length (lb := some (.s 0)) (ub := some (.s 1))
  let l1 ← mkVar p "lambda1" length (lb := some (.s 0)) (ub := some (.s 1))
  let c := mkEq p "inSegment" [sAll inSeg (.s (-1)), sAll l0 (.s 1), sAll l1 (.s 1)]
  return (⟨inSeg, l0, l1⟩, .node [inSeg, l0, l1] [c] [])

/-- `can_be_outside_segments` (features.py:667, 672-674): `None`/`False`, `True`, or an existing variable. -/
inductive Outside
  | no
  | create
  | use (x : Var)
  deriving DecidableEq, Repr

/-- The summands `λ₀ * start + λ₁ * end` of one variable over all segments (features.py:706-708). -/
def lambdaOps (segs : List SegVars) (points : List (Num × Num)) : List Op :=
  (List.zipWith (fun s q => [sAll s.lambda0 q.1, sAll s.lambda1 q.2]) segs points).flatten

/-- `values[i]` for all `i` in `range(nr_of_segments)` (features.py:687-689): too few segments raise `IndexError`, surplus
segments of a variable are dropped. -/
def restructure (nr : Nat) (points : List (Num × Num)) : Except Err (List (Num × Num)) :=
  (List.range nr).mapM fun i => pyGet points i

/-- The end of `MultipleSegmentsModel.do_modeling` (features.py:710-725). -/
def outsidePart (p : String) (length : Nat) : Outside → Except Err (List Var × List Op)
  | .use x => .ok ([], [sAll x (.s (-1))])
  | .create => do
    let x ← mkVar p "outside_segments" length (isBinary := true)
    return ([x], [sAll x (.s (-1))])
  | .no => .ok ([], [.const (.s 1)])

/-- `_nr_of_segments` (features.py:727-729); `next(iter(...))` of an empty dictionary raises `StopIteration`. -/
def nrOfSegments : List (Var × List (Num × Num)) → Except Err Nat
  | [] => .error .exception
  | (_, segs) :: _ => .ok segs.length

/-- `MultipleSegmentsModel.do_modeling` (features.py:686-725).  `points` is the dictionary `sample_points` in its
order; the number of segments is that of the first variable (731-733). -/
def multipleSegments (el : String) (length : Nat) (points : List (Var × List (Num × Num))) (outside : Outside) :
    Except Err MTree := do
  let p := el ++ "__" ++ "MultipleSegments"
  let nr ← nrOfSegments points
  let pts ← points.mapM fun q => do
    let r ← restructure nr q.2
    return (q.1, r)
  let segs ← (List.range nr).mapM fun i => segmentModel el length i
  let segVars := segs.map (·.1)
  let lambdaEqs := pts.map fun q => mkEq p ("lambda_" ++ q.1.label) (sAll q.1 (.s (-1)) :: lambdaOps segVars q.2)
  let (vs, ops) ← outsidePart p length outside
  let single := mkEq p "in_single_Segment" (segVars.map (fun s => sAll s.inSegment (.s 1)) ++ ops)
  return .node vs (lambdaEqs ++ [single]) (segs.map (·.2))

/-- `SegmentedSharesModel` (features.py:849-909) for a scalar variable (the only use, features.py:113-117):
`variable_segments = (x, xs)`, `share_segments` by effect label. -/
def segmentedShares (el : String) (x : Var) (xs : List (ℚ × ℚ)) (shares : List (String × List (ℚ × ℚ)))
    (outside : Outside) : Except Err Out := do
  let p := el ++ "__" ++ "SegmentedShares"
  match shares with
  | [] => .error .index
  | (_, first) :: _ =>
    if xs.length ≠ first.length then .error .assertion
    else do
      let num := fun (l : List (ℚ × ℚ)) => l.map fun q => (Num.s q.1, Num.s q.2)
      let vars ← shares.mapM fun e => do
        let v ← mkVar p (e.1 ++ "_segmented") 1
        return (e.1, v, e.2)
      let segs ← multipleSegments el 1 (vars.map (fun e => (e.2.1, num e.2.2)) ++ [(x, num xs)]) outside
      let calls ← vars.mapM fun e =>
        sharesTo .invest el "segmented_effects" [(some e.1, .s 1)] (.s 1) (some e.2.1)
      return { tree := .node (vars.map (·.2.1)) [] [segs], shares := calls.flatten }

/-- `PreventSimultaneousUsageModel` (features.py:912-942). -/
def preventSimultaneous (el : String) (ons : List Var) : Except Err MTree :=
  if ons.length < 2 then .error .assertion
  else if ons.all (·.isBinary) then
    .ok (.node [] [mkIneq (el ++ "__" ++ "PreventSimultaneousUsage") "prevent_simultaneous_use"
      (ons.map (fun x => sAll x (.s 1)) ++ [.const (.s (11 / 10))])] [])
  else .error .assertion

end Flix
