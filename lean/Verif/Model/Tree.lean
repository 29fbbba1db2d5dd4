import Verif.Model.Math

/-!
# `structure.py`: element models, created variables and equations, collected shares
-/

namespace Flix

/-- The modelling constants of `CONFIG.modeling` (config.py / config.yaml: EPSILON, BIG) (config.py:74-78). -/
structure Cfg where
  eps : ℚ
  big : ℚ
  deriving DecidableEq, Repr

/-- What element models read from `SystemModel` (structure.py:35-55): the number of time steps (`indices` is
`range(n)`), the step widths in hours, their total and the width(s) before the first step. -/
structure Sys where
  n : Nat
  dt : List ℚ
  total : ℚ
  prevDt : Num
  cfg : Cfg
  deriving DecidableEq, Repr

/-- A tree of `ElementModel`s (structure.py:366-376): own variables, own constraints, sub models. -/
inductive MTree
  | node (vars : List Var) (cons : List ConReq) (subs : List MTree)

/-- The three places a share can go to (effects.py:333-390). -/
inductive Target
  | operation
  | invest
  | penalty
  deriving DecidableEq, Repr

/-- One call `ShareAllocationModel.add_share` (features.py:785-810) as collected while elements are modelled.
`effect = none` is the standard effect (effects.py:344-345); it is ignored for penalties. -/
structure ShareCall where
  target : Target
  effect : Option String
  name : String
  var : Option Var
  factor : Num
  asSum : Bool
  deriving DecidableEq, Repr

/-- The result of modelling one element (structure.py:366-391). -/
structure Out where
  tree : MTree
  shares : List ShareCall

/-- `create_variable` (structure.py:530-552): the label is prefixed with the full label of the element model; a
variable of length at most 1 is a plain `Variable` and loses `previous_values`. -/
def mkVar (p label : String) (length : Nat) (isBinary : Bool := false) (fixedValue lb ub previous : Option Num := none) :
    Except Err Var :=
  if length > 1 then
    ({ label := p ++ "_" ++ label, length, isBinary, fixedValue, lb, ub, previous } : Var).checkedTS
  else
    ({ label := p ++ "_" ++ label, length, isBinary, fixedValue, lb, ub, previous := none } : Var).checked

/-- Reading `variable.previous_values`: only `VariableTS` (length > 1) has this attribute
(math_modeling.py:89-115). -/
def Var.previousValues (x : Var) : Except Err (Option Num) :=
  if x.length > 1 then .ok x.previous else .error .attribute

/-- `create_equation(label, self)` with the calls made on it (structure.py:518-527). -/
def mkEq (p label : String) (ops : List Op) : ConReq := { label := p ++ "_" ++ label, kind := .eq, ops }

/-- `create_equation(label, self, 'ineq')` with the calls made on it (structure.py:518-527). -/
def mkIneq (p label : String) (ops : List Op) : ConReq := { label := p ++ "_" ++ label, kind := .ineq, ops }

/-- `add_summand(variable, factor)` over all indices (math_modeling.py:145-198). -/
def sAll (x : Var) (f : Num) : Op := .summand x f none false

/-- `add_summand(variable, factor, indices)` (math_modeling.py:145-198). -/
def sIdx (x : Var) (f : Num) (idx : List Nat) : Op := .summand x f (some idx) false

/-- `add_summand(variable, factor, as_sum=True)` (math_modeling.py:145-198). -/
def sSum (x : Var) (f : Num) : Op := .summand x f none true

mutual
  /-- All variables, bounds and constraints of the tree are satisfied. -/
  def MTree.Solves (σ : Assignment) : MTree → Prop
    | .node vs cs ss => (∀ x ∈ vs, x.Ok σ) ∧ (∀ r ∈ cs, r.Ok σ) ∧ MTree.SolvesAll σ ss
  def MTree.SolvesAll (σ : Assignment) : List MTree → Prop
    | [] => True
    | t :: ts => t.Solves σ ∧ MTree.SolvesAll σ ts
end

/-- `EffectDict` (effects.py:184): effect label (`none`: standard effect) to value. -/
abbrev EffDict := List (Option String × Num)

/-- `_add_share_to_effects` (effects.py:333-357) up to the call of `add_share`: `total_factor = value * factor`, name
`f'{element.label_full}__{name}'`. -/
def sharesTo (target : Target) (elementLabel name : String) (vals : EffDict) (factor : Num) (var : Option Var) :
    Except Err (List ShareCall) :=
  vals.mapM fun (e, value) => do
    let f ← Num.mul value factor
    return { target, effect := e, name := elementLabel ++ "__" ++ name, var, factor := f, asSum := false }

end Flix
