import Verif.Model.Segments

/-!
# `InvestParameters` (interface.py:19-94) and `InvestmentModel` (features.py:32-170)
-/

namespace Flix

/-- Python `a or b` for a number that may be `None`: 0 counts as unset (interface.py:79, 88-94). -/
def pyOr (a : Option ℚ) (b : ℚ) : ℚ :=
  match a with
  | some x => if x = 0 then b else x
  | none => b

/-- Truth value of a number that may be `None` (features.py:112, 120). -/
def pyTruthy : Option ℚ → Bool
  | some x => decide (x ≠ 0)
  | none => false

/-- The arguments of `InvestParameters` (interface.py:24-36), effect values already turned into dictionaries. -/
structure InvestParams where
  fixedSize : Option ℚ := none
  minimumSize : ℚ := 0
  maximumSize : Option ℚ := none
  optional : Bool := true
  fixEffects : EffDict := []
  specificEffects : EffDict := []
  divestEffects : EffDict := []
  effectsInSegments : Option (List (ℚ × ℚ) × List (String × List (ℚ × ℚ))) := none
  deriving DecidableEq, Repr

/-- Property `minimum_size` (interface.py:89-91). -/
def InvestParams.minSize (q : InvestParams) : ℚ := pyOr q.fixedSize q.minimumSize

/-- Property `maximum_size` (interface.py:93-95) with the default of line 80. -/
def InvestParams.maxSize (cfg : Cfg) (q : InvestParams) : ℚ := pyOr q.fixedSize (pyOr q.maximumSize cfg.big)

/-- The result of an `InvestmentModel` (features.py:32-62). -/
structure InvestOut where
  size : Var
  isInvested : Option Var
  vars : List Var
  cons : List ConReq
  subs : List MTree
  shares : List ShareCall

/-- The size variable (features.py:63-70). -/
def sizeVar (cfg : Cfg) (p : String) (q : InvestParams) : Except Err Var :=
  if pyTruthy q.fixedSize && !q.optional then mkVar p "size" 1 (fixedValue := q.fixedSize.map .s)
  else mkVar p "size" 1 (lb := some (.s (if q.optional then 0 else q.minSize))) (ub := some (.s (q.maxSize cfg)))

/-- `_create_bounds_for_optional_investment` (features.py:119-136). -/
def optionalCons (cfg : Cfg) (p : String) (q : InvestParams) (size inv : Var) : List ConReq :=
  if pyTruthy q.fixedSize then
    [mkEq p "is_invested" [sAll size (.s (-1)), sAll inv (.s (q.fixedSize.getD 0))]]
  else
    [mkIneq p "is_invested_ub" [sAll size (.s 1), sAll inv (.s (-1 * q.maxSize cfg))],
     mkIneq p "is_invested_lb" [sAll size (.s (-1)), sAll inv (.s (max cfg.eps q.minSize))]]

/-- `_create_bounds_for_defining_variable` (features.py:138-170). -/
def definingCons (cfg : Cfg) (p : String) (q : InvestParams) (size x : Var) (relMin relMax : Num)
    (profile : Option Num) (on : Option Var) : List ConReq :=
  match profile with
  | some f => [mkEq p ("fixed_" ++ x.label) [sAll x (.s 1), sAll size (f.map (-1 * ·))]]
  | none =>
    let upper := mkIneq p ("ub_" ++ x.label) [sAll x (.s 1), sAll size (relMax.map (-1 * ·))]
    match on with
    | none => [upper, mkIneq p ("lb_" ++ x.label) [sAll x (.s (-1)), sAll size relMin]]
    | some on =>
      let mega := relMax.map (· * q.maxSize cfg)
      [upper, mkIneq p ("lb_" ++ x.label) [sAll x (.s (-1)), sAll on mega, sAll size relMin, .const mega]]

/-- The divestment shares (features.py:96-107). -/
def divestShares (el : String) (q : InvestParams) (inv : Option Var) : Except Err (List ShareCall) :=
  if q.optional then do
    let a ← sharesTo .invest el "divest_effects" q.divestEffects (.s 1) none
    let b ← sharesTo .invest el "divest_cancellation_effects" q.divestEffects (.s (-1)) inv
    return a ++ b
  else .ok []

/-- The segmented effects (features.py:112-118). -/
def investSegments (el : String) (q : InvestParams) (size : Var) (inv : Option Var) :
    Except Err (List MTree × List ShareCall) :=
  match q.effectsInSegments with
  | none => .ok ([], [])
  | some (xs, es) => do
    let o ← segmentedShares el size xs es (match inv with | some x => .use x | none => .no)
    return ([o.tree], o.shares)

/-- `is_invested` (features.py:72-73). -/
def investedVar (p : String) (q : InvestParams) : Except Err (Option Var) :=
  if q.optional then some <$> mkVar p "isInvested" 1 (isBinary := true) else .ok none

/-- `InvestmentModel.do_modeling` (features.py:61-78) of the element `el` for the defining variable `x`. -/
def investModel (cfg : Cfg) (el : String) (q : InvestParams) (x : Var) (relMin relMax : Num)
    (profile : Option Num) (on : Option Var) : Except Err InvestOut := do
  let p := el ++ "__" ++ "Investment"
  let size ← sizeVar cfg p q
  let inv ← investedVar p q
  let opt := match inv with
    | some inv => optionalCons cfg p q size inv
    | none => []
  let s1 ← sharesTo .invest el "fix_effects" q.fixEffects (.s 1) inv
  let s2 ← divestShares el q inv
  let s3 ← sharesTo .invest el "specific_effects" q.specificEffects (.s 1) (some size)
  let (subs, s4) ← investSegments el q size inv
  return {
    size, isInvested := inv, vars := size :: inv.toList,
    cons := opt ++ definingCons cfg p q size x relMin relMax profile on,
    subs, shares := s1 ++ s2 ++ s3 ++ s4 }

/-- The model of an `InvestmentModel` (features.py:32-62). -/
def InvestOut.tree (o : InvestOut) : MTree := .node o.vars o.cons o.subs

end Flix
