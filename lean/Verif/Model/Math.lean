import Verif.Model.Num

/-!
# `math_modeling.py`: variables, constraints and their translation to scalar rows
-/

namespace Flix

/-- `Variable` / `VariableTS` (math_modeling.py:24-115).  `previous` is `VariableTS.previous_values`.
The object identity of a variable is represented by its full label. -/
structure Var where
  label : String
  length : Nat
  isBinary : Bool := false
  fixedValue : Option Num := none
  lb : Option Num := none
  ub : Option Num := none
  previous : Option Num := none
  deriving DecidableEq, Repr

/-- `np.all(np.asarray(a) >= np.asarray(b))` (and `<=` with the relation flipped) including the
broadcasting error of numpy, math_modeling.py:58-60. -/
def npAll (r : ℚ → ℚ → Bool) (a b : Num) : Except Err Bool :=
  match Num.zip (fun x y => if r x y then 1 else 0) a b with
  | .error e => .error e
  | .ok (.s x) => .ok (x == 1)
  | .ok (.v xs) => .ok (xs.all (· == 1))

/-- `self.lower_bound is None or np.all(np.asarray(self.fixed_value) >= np.asarray(self.lower_bound))`
(math_modeling.py:59) and, with `r` flipped, line 58. -/
def boundOk (r : ℚ → ℚ → Bool) (fv : Num) : Option Num → Except Err Bool
  | none => .ok true
  | some b => npAll r fv b

/-- The check of `Variable.__init__`, math_modeling.py:58-65: a fixed value has to respect the bounds
elementwise.  Returns the variable itself if the constructor does not raise.  (`above and below` evaluates both,
they are computed before.) -/
def Var.checked (x : Var) : Except Err Var :=
  match x.fixedValue with
  | none => .ok x
  | some fv => do
    let above ← boundOk (fun f b => decide (b ≤ f)) fv x.lb
    let below ← boundOk (fun f b => decide (f ≤ b)) fv x.ub
    if above && below then .ok x else .error .exception

/-- `VariableTS.__init__` asserts `length > 1` before the checks of `Variable` (math_modeling.py:105). -/
def Var.checkedTS (x : Var) : Except Err Var :=
  if x.length > 1 then x.checked else .error .assertion

/-- `Summand` and `SumOfSummand` (math_modeling.py:321-409) after construction. -/
structure Summand where
  var : Var
  factorVec : List ℚ
  indices : List Nat
  length : Nat
  asSum : Bool
  deriving DecidableEq, Repr

/-- `Summand._check_length` (math_modeling.py:353-381). -/
def checkLength (factor : Num) (indices : List Nat) : Except Err Nat :=
  if indices.length = factor.len then .ok indices.length
  else if factor.len = 1 then .ok indices.length
  else if indices.length = 1 then .ok factor.len
  else .error .exception

/-- `Summand.__init__` (math_modeling.py:335-344) and `SumOfSummand.__init__` (398-402, which resets the
length to 1 after the factor has been expanded).  `indices = none` means all indices of the variable. -/
def mkSummand (x : Var) (factor : Num) (indices : Option (List Nat)) (asSum : Bool) :
    Except Err Summand := do
  let idx := indices.getD (List.range x.length)
  let len ← checkLength factor idx
  let fv ← asVector factor len
  return { var := x, factorVec := fv, indices := idx, length := if asSum then 1 else len, asSum }

/-- 'eq' or 'ineq' (math_modeling.py:250-318). -/
inductive Kind
  | eq
  | ineq
  deriving DecidableEq, Repr

/-- `_Constraint` (math_modeling.py:118-143). -/
structure Constraint where
  label : String
  kind : Kind
  summands : List Summand := []
  constant : Num := .s 0
  length : Nat := 1
  deriving DecidableEq, Repr

/-- `_Constraint._update_length` (math_modeling.py:231-243). -/
def updateLength (cur new : Nat) : Except Err Nat :=
  if cur = 1 then .ok new
  else if new = 1 ∨ new = cur then .ok cur
  else .error .value

/-- `_Constraint.add_summand` (math_modeling.py:145-198).  A scalar index `k` is passed as `some [k]`
(lines 183-184). -/
def Constraint.addSummand (c : Constraint) (x : Var) (factor : Num) (indices : Option (List Nat))
    (asSum : Bool) : Except Err Constraint := do
  let sm ← mkSummand x factor indices asSum
  let len ← updateLength c.length sm.length
  return { c with summands := c.summands ++ [sm], length := len }

/-- The same call with the state of the constraint *after* it and the exception, if any: both checks come before
`self.summands.append` (math_modeling.py:186-198). -/
def Constraint.addSummandFull (c : Constraint) (x : Var) (factor : Num) (indices : Option (List Nat))
    (asSum : Bool) : Constraint × Option Err :=
  match c.addSummand x factor indices asSum with
  | .ok c' => (c', none)
  | .error e => (c, some e)

/-- `_Constraint.add_constant` (math_modeling.py:200-226): returns the state of the constraint *after* the
call together with the exception, if any; the constant is replaced before the length check can fail. -/
def Constraint.addConstantFull (c : Constraint) (value : Num) : Constraint × Option Err :=
  match Num.add c.constant value with
  | .error e => (c, some e)
  | .ok k =>
    match updateLength c.length k.len with
    | .error e => ({ c with constant := k }, some e)
    | .ok len => ({ c with constant := k, length := len }, none)

/-- `add_constant` when no exception is caught by the caller (math_modeling.py:200-226). -/
def Constraint.addConstant (c : Constraint) (value : Num) : Except Err Constraint :=
  match c.addConstantFull value with
  | (c', none) => .ok c'
  | (_, some e) => .error e

/-- One call on a constraint object (math_modeling.py:145-226). -/
inductive Op
  | summand (x : Var) (factor : Num) (indices : Option (List Nat)) (asSum : Bool)
  | const (value : Num)
  deriving DecidableEq, Repr

/-- Execute one call (math_modeling.py:145-226). -/
def Op.run (c : Constraint) : Op → Except Err Constraint
  | .summand x f i a => c.addSummand x f i a
  | .const k => c.addConstant k

/-- One call whose exception, if any, is caught by the caller (math_modeling.py:145-226). -/
def Op.runFull (c : Constraint) : Op → Constraint × Option Err
  | .summand x f i a => c.addSummandFull x f i a
  | .const k => c.addConstantFull k

/-- Any history of calls on one constraint object, failing calls included: the calls that succeeded and the
final state (math_modeling.py:145-226). -/
def runHistory (c : Constraint) : List Op → List Op × Constraint
  | [] => ([], c)
  | op :: ops =>
    let r := op.runFull c
    let rest := runHistory r.1 ops
    (if r.2.isNone then op :: rest.1 else rest.1, rest.2)

/-- A `create_equation` call (structure.py:518-528) followed by its `add_summand`/`add_constant` calls. -/
structure ConReq where
  label : String
  kind : Kind
  ops : List Op
  deriving DecidableEq, Repr

/-- Execute calls from left to right; the first exception stops (it is never caught by the package)
(math_modeling.py:145-226). -/
def runOps (c : Constraint) : List Op → Except Err Constraint
  | [] => .ok c
  | op :: ops => do
    let c' ← op.run c
    runOps c' ops

/-- Execute the calls of a request on a fresh constraint (structure.py:518-527, math_modeling.py:145-226). -/
def ConReq.build (r : ConReq) : Except Err Constraint :=
  runOps { label := r.label, kind := r.kind } r.ops

/-! ## Translation to Pyomo -/

/-- A scalar linear row `∑ coeff * var[index]  (= | ≤)  rhs` (math_modeling.py:1068-1107). -/
structure Row where
  kind : Kind
  terms : List (ℚ × String × Nat)
  rhs : ℚ
  deriving DecidableEq, Repr

/-- Values of all variables: full label → index → value (math_modeling.py:1042-1066). -/
abbrev Assignment := String → Nat → ℚ

/-- Value of a linear expression (math_modeling.py:1129-1140). -/
def termsVal (σ : Assignment) (ts : List (ℚ × String × Nat)) : ℚ :=
  (ts.map fun t => t.1 * σ t.2.1 t.2.2).sum

/-- The relation of a constraint (math_modeling.py:1082, 1103). -/
def Kind.rel : Kind → ℚ → ℚ → Prop
  | .eq, a, b => a = b
  | .ineq, a, b => a ≤ b

/-- An assignment satisfies a row (math_modeling.py:1068-1107). -/
def Row.Holds (σ : Assignment) (r : Row) : Prop := r.kind.rel (termsVal σ r.terms) r.rhs

/-- Python list access `xs[i]` with a non-negative index (math_modeling.py:1129-1140). -/
def pyGet {α} (xs : List α) (i : Nat) : Except Err α :=
  match xs[i]? with
  | some a => .ok a
  | none => .error .index

/-- `pyomo_variable[i] * factor`: Pyomo raises `KeyError` for an index that is not in `variable.indices`
(math_modeling.py:1129-1140). -/
def pyTerm (x : Var) (i : Nat) (f : ℚ) : Except Err (ℚ × String × Nat) :=
  if i < x.length then .ok (f, x.label, i) else .error .key

/-- `PyomoModel._summand_math_expression` (math_modeling.py:1129-1140).
For a `SumOfSummand` the generator runs `for j in summand.indices` and uses `indices[j]` and
`factor_vec[j]`, i.e. `j` is an index *value*, not a position. -/
def Summand.expr (sm : Summand) (at_ : Nat) : Except Err (List (ℚ × String × Nat)) :=
  if sm.asSum then
    sm.indices.mapM fun j => do
      let i ← pyGet sm.indices j
      let f ← pyGet sm.factorVec j
      pyTerm sm.var i f
  else if sm.length = 1 then do
    let i ← pyGet sm.indices 0
    let f ← pyGet sm.factorVec 0
    let t ← pyTerm sm.var i f
    return [t]
  else if sm.indices.length = 1 then do
    let i ← pyGet sm.indices 0
    let f ← pyGet sm.factorVec at_
    let t ← pyTerm sm.var i f
    return [t]
  else do
    let i ← pyGet sm.indices at_
    let f ← pyGet sm.factorVec at_
    let t ← pyTerm sm.var i f
    return [t]

/-- `translate_equation` / `translate_inequation` (math_modeling.py:1068-1107): the constants are expanded to
the final length, then one row per index. -/
def Constraint.translate (c : Constraint) : Except Err (List Row) := do
  let cv ← asVector c.constant c.length
  (List.range c.length).mapM fun i => do
    let tss ← c.summands.mapM fun sm => sm.expr i
    let rhs ← pyGet cv i
    return { kind := c.kind, terms := tss.flatten, rhs }

/-- What the translated model says about one entry of a variable: fixed, or bounded
(math_modeling.py:1042-1066). -/
inductive Dom
  | fixed (x : ℚ)
  | bounds (lb ub : Option ℚ)
  deriving DecidableEq, Repr

/-- `PyomoModel.translate_variable` (math_modeling.py:1042-1066).  An entry of a fixed variable gets its value
and no bounds. -/
def Var.translate (x : Var) : Except Err (List Dom) := do
  let lbv ← asVectorOpt x.lb x.length
  let ubv ← asVectorOpt x.ub x.length
  let fvv ← asVectorOpt x.fixedValue x.length
  (List.range x.length).mapM fun i => do
    let fv ← pyGet fvv i
    match fv with
    | some f => return Dom.fixed f
    | none =>
      let lb ← pyGet lbv i
      let ub ← pyGet ubv i
      return Dom.bounds lb ub

/-- A value lies in the domain (math_modeling.py:1042-1066). -/
def Dom.Holds (y : ℚ) : Dom → Prop
  | .fixed x => y = x
  | .bounds lb ub => (∀ l, lb = some l → l ≤ y) ∧ (∀ u, ub = some u → y ≤ u)

/-- A solver-level solution assigns to each entry a value in the translated domain; entries of unfixed binary
variables (`domain=pyo.Binary`) are 0 or 1.  A fixed Pyomo variable is a constant for the solver, its domain is not
checked (math_modeling.py:1042-1066). -/
def Var.Ok (σ : Assignment) (x : Var) : Prop :=
  ∃ ds, x.translate = .ok ds ∧
    ∀ i d, ds[i]? = some d → d.Holds (σ x.label i) ∧
      (x.isBinary = true → (∀ f, d ≠ .fixed f) → σ x.label i = 0 ∨ σ x.label i = 1)

/-- The request can be executed and translated and all its rows hold (math_modeling.py:1068-1107). -/
def ConReq.Ok (σ : Assignment) (r : ConReq) : Prop :=
  ∃ c rows, r.build = .ok c ∧ c.translate = .ok rows ∧ ∀ row ∈ rows, row.Holds σ

/-- The part of a model created by one piece of modelling code (structure.py:518-552). -/
structure Part where
  vars : List Var := []
  cons : List ConReq := []
  deriving DecidableEq, Repr

/-- Pieces of modelling code one after the other (structure.py:205-224). -/
instance : Append Part := ⟨fun a b => ⟨a.vars ++ b.vars, a.cons ++ b.cons⟩⟩

/-- `σ` is a solution of everything in `p` (math_modeling.py:1027-1040). -/
def Part.Solves (σ : Assignment) (p : Part) : Prop :=
  (∀ x ∈ p.vars, x.Ok σ) ∧ (∀ r ∈ p.cons, r.Ok σ)

/-! ## Reading back results -/

/-- Conversion of a Python float to `np.int8` by `np.fromiter(..., dtype=np.int8)`: truncation towards zero
(values are in the `int8` range for binaries) (math_modeling.py:1006-1025). -/
def toInt8 (x : ℚ) : Int := if 0 ≤ x then x.floor else x.ceil

/-- The reported result of one entry, `PyomoModel.solve` math_modeling.py:1013-1025. -/
def reported (isBinary : Bool) (raw : ℚ) : ℚ :=
  if isBinary then (toInt8 raw : ℚ) else raw

end Flix
