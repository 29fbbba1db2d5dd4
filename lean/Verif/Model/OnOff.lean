import Verif.Model.Tree

/-!
# `OnOffModel` (features.py:173-624) and `OnOffParameters` (interface.py:97-203)
-/

namespace Flix

/-- `OnOffParameters` after `transform_data`, time series replaced by their active data
(interface.py:97-203). -/
structure OnOffParams where
  effectsPerSwitchOn : EffDict := []
  effectsPerRunningHour : EffDict := []
  onHoursTotalMin : Option ℚ := none
  onHoursTotalMax : Option ℚ := none
  consecOnMin : Option Num := none
  consecOnMax : Option Num := none
  consecOffMin : Option Num := none
  consecOffMax : Option Num := none
  switchOnTotalMax : Option ℚ := none
  forceSwitchOn : Bool := false
  deriving DecidableEq, Repr

namespace OnOffParams

/-- interface.py:180-183 -/
def useConsecOn (p : OnOffParams) : Bool := p.consecOnMin.isSome || p.consecOnMax.isSome

/-- interface.py:185-188 -/
def useConsecOff (p : OnOffParams) : Bool := p.consecOffMin.isSome || p.consecOffMax.isSome

/-- interface.py:175-178 -/
def useOff (p : OnOffParams) : Bool := p.useConsecOff

/-- interface.py:190-203: `effects_per_switch_on is not None` is always true because the constructor replaces `None` by
`{}` (interface.py:142-143). -/
def useSwitchOn (p : OnOffParams) : Bool :=
  true || p.switchOnTotalMax.isSome || p.onHoursTotalMin.isSome || p.onHoursTotalMax.isSome || p.forceSwitchOn

end OnOffParams

/-- `~np.isclose(x, 0, atol=eps)` as 0/1 (features.py:567-570). -/
def isOn (eps x : ℚ) : ℚ := if |x| ≤ eps then 0 else 1

/-- Elementwise `np.any(..., axis=0)` of the rows of a 2D array (features.py:568). -/
def anyRows : List (List ℚ) → List ℚ
  | [] => []
  | [r] => r
  | r :: rs => List.zipWith (fun a b => if a = 0 ∧ b = 0 then 0 else 1) r (anyRows rs)

/-- `np.array(list)` and the on/off conversion of `_previous_on_values` (features.py:561-570).  A list of scalars
becomes a one-dimensional array (a *time sequence* for the callers); arrays of equal length become a 2D array; anything
else is an inhomogeneous array (`ValueError`). -/
def prevOnOfList (eps : ℚ) (prevs : List Num) : Except Err (List ℚ) :=
  if prevs.isEmpty then .ok [0]
  else
    let scalars := prevs.filterMap fun a => match a with | .s x => some x | .v _ => none
    let arrays := prevs.filterMap fun a => match a with | .s _ => none | .v xs => some xs
    if arrays.isEmpty then .ok (scalars.map (isOn eps))
    else if !scalars.isEmpty then .error .value
    else match arrays with
      | [] => .error .value
      | a :: as =>
        if as.all (fun b => b.length == a.length) then .ok (anyRows ((a :: as).map (·.map (isOn eps))))
        else .error .value

/-- `OnOffModel._previous_on_values` (features.py:546-571). -/
def previousOnValues (eps : ℚ) (defining : List Var) : Except Err (List ℚ) := do
  let ps ← defining.mapM Var.previousValues
  prevOnOfList eps (ps.filterMap id)

/-- Number of trailing entries used by `get_consecutive_duration` (features.py:604-606):
`zero_indices[-1] + 1 if zero_indices.size > 0 else len(binary_values)`. -/
def lastDurationLength (eps : ℚ) (bs : List ℚ) : Nat :=
  match ((List.range bs.length).filter fun i => decide (|bs.getD i 0| ≤ eps)).getLast? with
  | some z => z + 1
  | none => bs.length

/-- Python slice `xs[-k:]` (for `k = 0` the whole list) (features.py:609, 618). -/
def lastK {α} (k : Nat) (xs : List α) : List α := if k = 0 then xs else xs.drop (xs.length - k)

/-- `OnOffModel.get_consecutive_duration` (features.py:573-624). -/
def getConsecutiveDuration (eps : ℚ) (binary dt : Num) : Except Err ℚ :=
  match binary, dt with
  | .s b, .s d => .ok (b * d)
  | .s b, .v ds => match ds.getLast? with
    | some d => .ok (b * d)
    | none => .error .index
  | .v bs, .s d =>
    let L := lastDurationLength eps bs
    .ok ((lastK L bs).map (· * d)).sum
  | .v bs, .v ds =>
    let L := lastDurationLength eps bs
    if L > ds.length then .error .type
    else .ok (List.zipWith (· * ·) (lastK L bs) (lastK L ds)).sum

/-- `dt_in_hours[first_index]`, `active_data[0]` etc. of a series (features.py:470, 488). -/
def Num.first (a : Num) : Except Err ℚ :=
  match a with
  | .s x => .ok x
  | .v xs => pyGet xs 0

/-- `x[0:-1]` of a series, a scalar is used as it is (features.py:456-459). -/
def Num.dropLast : Num → Num
  | .s x => .s x
  | .v xs => .v xs.dropLast

/-- The duration before the first step (features.py:391-396); `previous_values` being `None` fails inside numpy. -/
def prevDuration (sys : Sys) (binary : Var) : Except Err ℚ := do
  match ← binary.previousValues with
  | some b => getConsecutiveDuration sys.cfg.eps b sys.prevDt
  | none => .error .type

/-- The constraints of a minimum duration (features.py:450-479). -/
def minDurationCons (sys : Sys) (p lp : String) (dur binary : Var) (prev : ℚ) : Option Num → Except Err (List ConReq)
  | none => .ok []
  | some m => do
    let later := List.range' 1 (sys.n - 1)
    let earlier := List.range (sys.n - 1)
    let m' := m.dropLast
    let m0 ← m.first
    let c := mkIneq p (lp ++ "_minimum_duration")
      [sIdx dur (.s (-1)) earlier, sIdx binary (m'.map (-1 * ·)) later, sIdx binary m' earlier]
    let ci := if 0 < prev ∧ prev < m0 then
        [mkEq p (lp ++ "_minimum_duration_inital") [sIdx binary (.s 1) [0], .const (.s 1)]]
      else []
    return c :: ci

/-- `OnOffModel._get_duration_in_hours` (features.py:340-492): the duration variable and its constraints.
`p` is the full label of the on/off model.  The warning (lines 397-408) only reads data, but `dt_in_hours[0]` may raise. -/
def getDuration (sys : Sys) (p label : String) (binary : Var) (minD maxD : Option Num) :
    Except Err (Var × List ConReq) := do
  let prev ← prevDuration sys binary
  let mega := sys.total + prev
  let dur ← mkVar p label sys.n (lb := some (.s 0)) (ub := some (maxD.getD (.s mega))) (previous := some (.s prev))
  let lp := dur.label
  let dt0 ← pyGet sys.dt 0
  let later := List.range' 1 (sys.n - 1)
  let earlier := List.range (sys.n - 1)
  let c1 := mkIneq p (lp ++ "_constraint_1") [sAll dur (.s 1), sAll binary (.s (-1 * mega))]
  let c2a := mkIneq p (lp ++ "_constraint_2a")
    [sIdx dur (.s 1) later, sIdx dur (.s (-1)) earlier, .const (.v sys.dt.tail)]
  let c2b := mkIneq p (lp ++ "_constraint_2b")
    [sIdx dur (.s (-1)) later, sIdx dur (.s 1) earlier, sIdx binary (.s mega) later,
     .const (.v (sys.dt.tail.map fun d => -1 * d + mega))]
  let c3 ← minDurationCons sys p lp dur binary prev minD
  let c4 := mkEq p (lp ++ "_initial") [sIdx dur (.s 1) [0], sIdx binary (.s (-1 * (dt0 + prev))) [0]]
  return (dur, [c1, c2a, c2b] ++ c3 ++ [c4])

/-- `OnOffModel._add_on_constraints` (features.py:273-329); the lower bounds have already been raised to `eps`
(features.py:207).  The final test of `np.max(upper_bound)` only logs. -/
def onConstraints (sys : Sys) (p : String) (on : Var) (defining : List (Var × Num × Num)) :
    Except Err (List ConReq) :=
  let idx := List.range sys.n
  match defining with
  | [] => .error .assertion
  | [(x, lb, ub)] =>
    .ok [mkIneq p "On_Constraint_1" [sIdx x (.s (-1)) idx, sIdx on (lb.map (max sys.cfg.eps)) idx],
         mkIneq p "On_Constraint_2" [sIdx x (.s 1) idx, sIdx on (ub.map (-1 * ·)) idx]]
  | _ => do
    let k : ℚ := defining.length
    let absMax ← defining.foldlM (fun a d => Num.add a d.2.2) (.s 0)
    let ub := absMax.map (· / k)
    .ok [mkIneq p "On_Constraint_1"
           (defining.map (fun d => sIdx d.1 (.s (-1)) idx) ++ [sIdx on (.s sys.cfg.eps) idx]),
         mkIneq p "On_Constraint_2"
           (defining.map (fun d => sIdx d.1 (.s (1 / k)) idx) ++ [sIdx on (ub.map (-1 * ·)) idx])]

/-- `self.on.previous_values[-1]` (features.py:515). -/
def lastPrevious (on : Var) : Except Err ℚ := do
  match ← on.previousValues with
  | some (.v bs) => match bs.getLast? with
    | some b => .ok b
    | none => .error .index
  | _ => .error .type

/-- `OnOffModel._add_switch_constraints` (features.py:494-528). -/
def switchConstraints (sys : Sys) (p : String) (on switchOn switchOff nr : Var) : Except Err (List ConReq) := do
  let later := List.range' 1 (sys.n - 1)
  let earlier := List.range (sys.n - 1)
  let last ← lastPrevious on
  return [
    mkEq p "Switch" [sIdx switchOn (.s 1) later, sIdx switchOff (.s (-1)) later, sIdx on (.s (-1)) later,
      sIdx on (.s 1) earlier],
    mkEq p "Initial_Switch" [sIdx switchOn (.s 1) [0], sIdx switchOff (.s (-1)) [0], sIdx on (.s (-1)) [0],
      .const (.s (-1 * last))],
    mkIneq p "Switch_On_or_Off" [sAll switchOn (.s 1), sAll switchOff (.s 1), .const (.s (11 / 10))],
    mkEq p "NrSwitchOn" [sAll nr (.s 1), sSum switchOn (.s (-1))]]

/-- The variables of an `OnOffModel` that other code refers to, the model and its shares
(features.py:173-240). -/
structure OnOffOut where
  on : Var
  totalOnHours : Var
  off : Option Var
  consecOn : Option Var
  consecOff : Option Var
  switchOn : Option Var
  switchOff : Option Var
  nrSwitchOn : Option Var
  vars : List Var
  cons : List ConReq
  shares : List ShareCall

/-- The `off` variable and its constraints (features.py:233-242, 331-338). -/
def offPart (sys : Sys) (p : String) (on : Var) (prevOn : List ℚ) : Except Err (Var × List ConReq) := do
  let idx := List.range sys.n
  let off ← mkVar p "off" sys.n (isBinary := true) (previous := some (.v (prevOn.map (1 - ·))))
  return (off, [mkEq p "var_off" [sIdx off (.s 1) idx, sIdx on (.s 1) idx, .const (.s 1)]])

/-- The switch variables and constraints (features.py:264-269). -/
def switchPart (sys : Sys) (p : String) (params : OnOffParams) (on : Var) :
    Except Err (Var × Var × Var × List ConReq) := do
  let swOn ← mkVar p "switchOn" sys.n (isBinary := true)
  let swOff ← mkVar p "switchOff" sys.n (isBinary := true)
  let nr ← mkVar p "nrSwitchOn" 1 (ub := params.switchOnTotalMax.map .s)
  let cs ← switchConstraints sys p on swOn swOff nr
  return (swOn, swOff, nr, cs)

/-- features.py:233-242 -/
def offOpt (sys : Sys) (p : String) (params : OnOffParams) (on : Var) (prevOn : List ℚ) :
    Except Err (Option (Var × List ConReq)) :=
  if params.useOff then some <$> offPart sys p on prevOn else .ok none

/-- features.py:244-252 -/
def durationOnOpt (sys : Sys) (p : String) (params : OnOffParams) (on : Var) :
    Except Err (Option (Var × List ConReq)) :=
  if params.useConsecOn then
    some <$> getDuration sys p "consecutiveOnHours" on params.consecOnMin params.consecOnMax
  else .ok none

/-- features.py:254-262; the off variable exists because `use_off` is `use_consecutive_off_hours`. -/
def durationOffOpt (sys : Sys) (p : String) (params : OnOffParams) (off : Option Var) :
    Except Err (Option (Var × List ConReq)) :=
  if params.useConsecOff then
    match off with
    | some off => some <$> getDuration sys p "consecutiveOffHours" off params.consecOffMin params.consecOffMax
    | none => .error .attribute
  else .ok none

/-- features.py:264-269 -/
def switchOpt (sys : Sys) (p : String) (params : OnOffParams) (on : Var) :
    Except Err (Option (Var × Var × Var × List ConReq)) :=
  if params.useSwitchOn then some <$> switchPart sys p params on else .ok none

/-- `OnOffModel.do_modeling` (features.py:210-271) for the element with full label `el`; `defining` are the defining
variables with their bounds as given to the constructor. -/
def onOffModel (sys : Sys) (el : String) (params : OnOffParams) (defining : List (Var × Num × Num)) :
    Except Err OnOffOut := do
  let p := el ++ "__OnOff"
  let dt := Num.v sys.dt
  let defining := defining.map fun d => (d.1, d.2.1.map (max sys.cfg.eps), d.2.2)
  let prevOn ← previousOnValues sys.cfg.eps (defining.map (·.1))
  let on ← mkVar p "on" sys.n (isBinary := true) (previous := some (.v prevOn))
  let total ← mkVar p "totalOnHours" 1 (lb := params.onHoursTotalMin.map .s) (ub := params.onHoursTotalMax.map .s)
  let cTotal := mkEq p "totalOnHours" [sSum on dt, sAll total (.s (-1))]
  let cOn ← onConstraints sys p on defining
  let off ← offOpt sys p params on prevOn
  let dOn ← durationOnOpt sys p params on
  let dOff ← durationOffOpt sys p params (off.map (·.1))
  let sw ← switchOpt sys p params on
  let sh1 ← sharesTo .operation el "switch_on_effects" params.effectsPerSwitchOn (.s 1) (sw.map (·.1))
  let sh2 ← sharesTo .operation el "running_hour_effects" params.effectsPerRunningHour dt (some on)
  return {
    on, totalOnHours := total,
    off := off.map (·.1), consecOn := dOn.map (·.1), consecOff := dOff.map (·.1),
    switchOn := sw.map (·.1), switchOff := sw.map (·.2.1), nrSwitchOn := sw.map (·.2.2.1),
    vars := [on, total] ++ (off.map (·.1)).toList ++ (dOn.map (·.1)).toList ++ (dOff.map (·.1)).toList ++
      (match sw with | some (a, b, c, _) => [a, b, c] | none => []),
    cons := [cTotal] ++ cOn ++ (off.map (·.2)).getD [] ++ (dOn.map (·.2)).getD [] ++ (dOff.map (·.2)).getD [] ++
      (sw.map (·.2.2.2)).getD [],
    shares := sh1 ++ sh2 }

end Flix
