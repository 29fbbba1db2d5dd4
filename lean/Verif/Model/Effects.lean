import Verif.Model.Tree

/-!
# `ShareAllocationModel`, `SingleShareModel` (features.py:732-846) and `effects.py`
-/

namespace Flix

/-- One share as passed to `ShareAllocationModel.add_share` (features.py:785-792). -/
structure Share where
  name : String
  var : Option Var
  factor : Num
  asSum : Bool := false
  deriving DecidableEq, Repr

/-- `np.sum(factor)` (features.py:844). -/
def Num.total : Num → ℚ
  | .s x => x
  | .v xs => xs.sum

/-- The variable of a `SingleShareModel` (features.py:823-837). -/
def shareVar (el : String) (c : Share) : Except Err Var :=
  let label := el ++ "__" ++ c.name
  match c.var with
  | some x =>
    if x.length = 1 ∧ c.asSum = true then .error .assertion
    else if c.asSum = true ∨ x.length = 1 then ({ label, length := 1 } : Var).checked
    else ({ label, length := x.length } : Var).checkedTS
  | none =>
    if c.asSum = true ∨ c.factor.isScalar = true then ({ label, length := 1 } : Var).checked
    else .error .exception

/-- `SingleShareModel` (features.py:820-846): the share variable and its model. -/
def singleShare (el : String) (c : Share) : Except Err (Var × MTree) := do
  let label := el ++ "__" ++ c.name
  let s ← shareVar el c
  let op := match c.var with
    | none => Op.const (if c.asSum then .s (-1 * c.factor.total) else c.factor.map (-1 * ·))
    | some x => Op.summand x c.factor none c.asSum
  return (s, .node [s] [mkEq label label [sAll s (.s (-1)), op]] [])

/-- The variables of a `ShareAllocationModel` (features.py:748-754). -/
structure SamVars where
  sum : Var
  sumTS : Option Var
  deriving DecidableEq, Repr

/-- Parameters of a `ShareAllocationModel` (features.py:733-762). -/
structure SamData where
  el : String
  label : String
  isTS : Bool
  totalMin : Option ℚ := none
  totalMax : Option ℚ := none
  minPerHour : Option Num := none
  maxPerHour : Option Num := none
  deriving DecidableEq, Repr

/-- `None if bound is None else np.multiply(bound, dt_in_hours)` (features.py:772-773). -/
def perHour (dt : Num) : Option Num → Except Err (Option Num)
  | none => .ok none
  | some a => some <$> Num.mul a dt

/-- Creation of `sum_TS` (features.py:772-777). -/
def samTS (sys : Sys) (d : SamData) : Except Err (Option Var) :=
  if d.isTS then do
    let lb ← perHour (.v sys.dt) d.minPerHour
    let ub ← perHour (.v sys.dt) d.maxPerHour
    some <$> mkVar (d.el ++ "__" ++ d.label) (d.label ++ "_sum_TS") sys.n (lb := lb) (ub := ub)
  else .ok none

/-- The variables created by `ShareAllocationModel.do_modeling` (features.py:763-777). -/
def samVars (sys : Sys) (d : SamData) : Except Err SamVars := do
  let sum ← mkVar (d.el ++ "__" ++ d.label) (d.label ++ "_sum") 1 (lb := d.totalMin.map .s) (ub := d.totalMax.map .s)
  let ts ← samTS sys d
  return ⟨sum, ts⟩

/-- `share_as_sum or not self._shares_are_time_series` (features.py:799). -/
def toSum (isTS : Bool) (c : Share) : Bool := c.asSum || !isTS

/-- `ShareAllocationModel` after all `add_share` calls (features.py:763-810): equations `sum` and `time_series`, one sub
model per share, shares with the same name are refused. -/
def samTree (d : SamData) (vs : SamVars) (calls : List Share) : Except Err MTree := do
  let p := d.el ++ "__" ++ d.label
  let shares ← calls.mapM fun c => do
    let r ← singleShare d.el c
    return (c, r.1, r.2)
  if ¬ (calls.map (·.name)).Nodup then .error .assertion
  else
    let sumOps := shares.filterMap fun q => if toSum d.isTS q.1 then some (sAll q.2.1 (.s 1)) else none
    let tsOps := shares.filterMap fun q => if toSum d.isTS q.1 then none else some (sAll q.2.1 (.s 1))
    let subs := shares.map (·.2.2)
    match vs.sumTS with
    | none => .ok (.node [vs.sum] [mkEq p (d.label ++ "_sum") (sAll vs.sum (.s (-1)) :: sumOps)] subs)
    | some ts => .ok (.node [vs.sum, ts]
        [mkEq p (d.label ++ "_sum") (sAll vs.sum (.s (-1)) :: sSum ts (.s 1) :: sumOps),
         mkEq p (d.label ++ "_time_series") (sAll ts (.s (-1)) :: tsOps)] subs)

/-- `Effect` (effects.py:27-111). -/
structure EffectData where
  label : String
  isStandard : Bool := false
  isObjective : Bool := false
  shareOperation : List (String × Num) := []
  shareInvest : List (String × Num) := []
  minOperation : Option ℚ := none
  maxOperation : Option ℚ := none
  minInvest : Option ℚ := none
  maxInvest : Option ℚ := none
  minOperationPerHour : Option Num := none
  maxOperationPerHour : Option Num := none
  minTotal : Option ℚ := none
  maxTotal : Option ℚ := none
  deriving DecidableEq, Repr

namespace EffectData

/-- effects.py:155-157 -/
def invest (e : EffectData) : SamData :=
  { el := e.label, label := "invest", isTS := false, totalMin := e.minInvest, totalMax := e.maxInvest }

/-- effects.py:158-170 -/
def operation (e : EffectData) : SamData :=
  { el := e.label, label := "operation", isTS := true, totalMin := e.minOperation, totalMax := e.maxOperation,
    minPerHour := e.minOperationPerHour, maxPerHour := e.maxOperationPerHour }

/-- effects.py:171-173 -/
def all (e : EffectData) : SamData :=
  { el := e.label, label := "all", isTS := false, totalMin := e.minTotal, totalMax := e.maxTotal }

end EffectData

/-- The penalty allocation of the collection (effects.py:317), element label "Effects" (flow_system.py:69). -/
def penaltyData : SamData := { el := "Effects", label := "penalty", isTS := false }

/-- An effect with the variables of its three share allocations (effects.py:151-181). -/
structure EffectVars where
  data : EffectData
  invest : SamVars
  operation : SamVars
  all : SamVars
  deriving DecidableEq, Repr

/-- The variables of the three share allocations of an effect (effects.py:155-178). -/
def effectVars (sys : Sys) (e : EffectData) : Except Err EffectVars := do
  let i ← samVars sys e.invest
  let o ← samVars sys e.operation
  let a ← samVars sys e.all
  return ⟨e, i, o, a⟩

/-- `standard_effect` (effects.py:289-293) -/
def standardOf (es : List EffectData) : Option String := (es.find? (·.isStandard)).map (·.label)

/-- `objective_effect` (effects.py:295-299) -/
def objectiveOf (es : List EffectVars) : Option EffectVars := es.find? (·.data.isObjective)

/-- The effect a collected call goes to (effects.py:343-346): `None` is the standard effect; a missing standard effect
raises `AttributeError` (in the message of the assertion), an unknown effect `AssertionError`. -/
def resolveEffect (es : List EffectData) (e : Option String) : Except Err String :=
  match e with
  | none => match standardOf es with
    | some l => .ok l
    | none => .error .attribute
  | some l => if l ∈ es.map (·.label) then .ok l else .error .assertion

/-- A call addressed to one share allocation: target, effect label (empty for penalties), share
(effects.py:333-390). -/
structure Addressed where
  target : Target
  effect : String
  share : Share
  deriving DecidableEq, Repr

/-- Resolve one collected call (effects.py:333-390). -/
def address (es : List EffectData) (c : ShareCall) : Except Err Addressed :=
  match c.target with
  | .penalty => .ok ⟨.penalty, "", ⟨c.name, c.var, c.factor, c.asSum⟩⟩
  | t => do
    let l ← resolveEffect es c.effect
    return ⟨t, l, ⟨c.name, c.var, c.factor, c.asSum⟩⟩

/-- The shares of one origin effect to other effects (effects.py:392-413): `KeyError` for a target that is not in the
collection. -/
def betweenOf (es : List EffectVars) (o : EffectVars) : Except Err (List Addressed) := do
  let labels := es.map (·.data.label)
  let a ← o.data.shareOperation.mapM fun q =>
    if q.1 ∈ labels then
      .ok (⟨.operation, q.1, ⟨o.data.label ++ "_operation", o.operation.sumTS, q.2, false⟩⟩ : Addressed)
    else .error .key
  let b ← o.data.shareInvest.mapM fun q =>
    if q.1 ∈ labels then .ok (⟨.invest, q.1, ⟨o.data.label ++ "_invest", some o.invest.sum, q.2, false⟩⟩ : Addressed)
    else .error .key
  return a ++ b

/-- The shares addressed to one allocation, in order (features.py:785-818). -/
def sharesFor (t : Target) (l : String) (cs : List Addressed) : List Share :=
  cs.filterMap fun c => if c.target = t ∧ c.effect = l then some c.share else none

/-- `EffectModel` (effects.py:151-181). -/
def effectTree (cs : List Addressed) (e : EffectVars) : Except Err MTree := do
  let i ← samTree e.data.invest e.invest (sharesFor .invest e.data.label cs)
  let o ← samTree e.data.operation e.operation (sharesFor .operation e.data.label cs)
  let a ← samTree e.data.all e.all [⟨"operation", some e.operation.sum, .s 1, false⟩, ⟨"invest", some e.invest.sum, .s 1, false⟩]
  return .node [] [] [i, o, a]

/-- The modelled collection (effects.py:305-328). -/
structure CollOut where
  effects : List EffectVars
  penalty : SamVars
  objective : List Op
  tree : MTree

/-- The objective (effects.py:325-328): `KeyError` without an objective effect. -/
def objectiveOps (es : List EffectVars) (penalty : SamVars) : Except Err (List Op) :=
  match objectiveOf es with
  | some o => .ok [sAll o.operation.sum (.s 1), sAll o.invest.sum (.s 1), sAll penalty.sum (.s 1)]
  | none => .error .key

/-- `EffectCollectionModel.do_modeling` (effects.py:315-328) together with all later `add_share_*` calls. -/
def collectionModel (sys : Sys) (es : List EffectData) (calls : List ShareCall) : Except Err CollOut := do
  let evs ← es.mapM (effectVars sys)
  let pv ← samVars sys penaltyData
  let between ← evs.mapM (betweenOf evs)
  let obj ← objectiveOps evs pv
  let addressed ← calls.mapM (address es)
  let all := between.flatten ++ addressed
  let trees ← evs.mapM (effectTree all)
  let pt ← samTree penaltyData pv (sharesFor .penalty "" all)
  return { effects := evs, penalty := pv, objective := obj, tree := .node [] [] (trees ++ [pt]) }

/-- `translate_objective` (math_modeling.py:1109-1125): the equation must have length 1; the constant of the equation is
ignored; only the sum of the summands is minimised. -/
def objectiveTerms (ops : List Op) : Except Err (List (ℚ × String × Nat)) := do
  let c ← ({ label := "OBJECTIVE", kind := .eq, ops } : ConReq).build
  if c.length ≠ 1 then .error .exception
  else do
    let tss ← c.summands.mapM fun sm => sm.expr 0
    return tss.flatten

end Flix
