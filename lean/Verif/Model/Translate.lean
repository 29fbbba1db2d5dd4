import Verif.Model.System

/-!
# Translation of the whole model to Pyomo (math_modeling.py:987-1145) and the size of a model (504-593)
-/

namespace Flix

/-- `_summand_math_expression` (math_modeling.py:1129-1140) with `self.mapping[summand.variable]`: `KeyError` for a variable that has
not been translated before. -/
def Summand.exprIn (known : List Var) (sm : Summand) (at_ : Nat) : Except Err (List (ℚ × String × Nat)) :=
  if sm.var ∈ known then sm.expr at_ else .error .key

/-- `translate_equation` / `translate_inequation` (math_modeling.py:1068-1107) with the look-up of the variables. -/
def Constraint.translateIn (known : List Var) (c : Constraint) : Except Err (List Row) := do
  let cv ← asVector c.constant c.length
  (List.range c.length).mapM fun i => do
    let tss ← c.summands.mapM fun sm => sm.exprIn known i
    let rhs ← pyGet cv i
    return { kind := c.kind, terms := tss.flatten, rhs }

/-- A translated constraint: `pyo.Constraint(range(length), ...)` (math_modeling.py:1068-1107). -/
structure PyomoCon where
  label : String
  rows : List Row
  deriving DecidableEq, Repr

/-- `pyo.Constraint(range(length), rule=...)` (math_modeling.py:1084, 1105): without any summand the rule compares two numbers, and Pyomo
refuses the truth value it returns (`ValueError`: trivial Boolean). -/
def checkRows (rows : List Row) : Except Err (List Row) := if rows.any (·.terms.isEmpty) then .error .value else .ok rows

/-- The constraint object of a request (built while the elements are modelled) and its translation
(math_modeling.py:1068-1107). -/
def ConReq.translateIn (known : List Var) (r : ConReq) : Except Err PyomoCon := do
  let c ← r.build
  let rows ← c.translateIn known
  let rows' ← checkRows rows
  return ⟨r.label, rows'⟩

/-- `translate_objective` (math_modeling.py:1109-1127) with the look-up of the variables. -/
def objectiveTermsIn (known : List Var) (ops : List Op) : Except Err (List (ℚ × String × Nat)) := do
  let c ← ({ label := "OBJECTIVE", kind := .eq, ops } : ConReq).build
  if c.length ≠ 1 then .error .exception
  else do
    let tss ← c.summands.mapM fun sm => sm.exprIn known 0
    return tss.flatten

/-- A translated variable: one entry per index (math_modeling.py:1042-1066). -/
structure PyomoVar where
  label : String
  isBinary : Bool
  entries : List Dom
  deriving DecidableEq, Repr

/-- `translate_variable` (math_modeling.py:1042-1066). -/
def Var.toPyomo (x : Var) : Except Err PyomoVar := do
  let ds ← x.translate
  return ⟨x.label, x.isBinary, ds⟩

/-- The contents of the Pyomo model (math_modeling.py:987-1004). -/
structure PyomoModel where
  vars : List PyomoVar
  eqs : List PyomoCon
  ineqs : List PyomoCon
  objective : List (ℚ × String × Nat)
  names : List String

/-- `f'{part.label}__{self._counter}'` (math_modeling.py:1142-1145), the counter starts at 1. -/
def compName (label : String) (counter : Nat) : String := label ++ "__" ++ toString counter

/-- The component names in order of registration; the objective is assigned to the attribute `objective`
(math_modeling.py:1027-1040). -/
def compNames (labels : List String) : List String := labels.mapIdx fun i l => compName l (i + 1)

/-- `add_component` of Pyomo refuses a name that exists (`RuntimeError`) (math_modeling.py:1042-1107). -/
def addComponents (names : List String) : Except Err (List String) :=
  if names.Nodup then .ok names else .error .exception

/-- Equations and inequations (structure.py:226-232). -/
def SolverModel.equations (m : SolverModel) : List ConReq := m.cons.filter fun r => r.kind = .eq
/-- The inequations handed to the solver (structure.py:250-253). -/
def SolverModel.inequations (m : SolverModel) : List ConReq := m.cons.filter fun r => r.kind = .ineq

/-- `PyomoModel.translate_model` (math_modeling.py:1027-1040). -/
def translateModel (m : SolverModel) : Except Err PyomoModel := do
  let vars ← m.vars.mapM Var.toPyomo
  let eqs ← m.equations.mapM (ConReq.translateIn m.vars)
  let ineqs ← m.inequations.mapM (ConReq.translateIn m.vars)
  let obj ← objectiveTermsIn m.vars m.objective
  let names ← addComponents (compNames (m.vars.map (·.label) ++ m.equations.map (·.label) ++ m.inequations.map (·.label)) ++ ["objective"])
  return ⟨vars, eqs, ineqs, obj, names⟩

/-- `infos['Model Size']` (math_modeling.py:532-545, 562-593); `eq.length` is that of the built constraint, `VariableTS` are
the variables longer than 1 (structure.py:541-552). -/
structure ModelSize where
  eqs : Nat
  singleEqs : Nat
  ineqs : Nat
  singleIneqs : Nat
  vars : Nat
  singleVars : Nat
  tsVars : Nat
  deriving DecidableEq, Repr

/-- `eq.length` of the constraint object (math_modeling.py:231-243). -/
def ConReq.finalLength (r : ConReq) : Except Err Nat := do
  let c ← r.build
  return c.length

/-- Numbers of variables and constraints (math_modeling.py:547-593). -/
def SolverModel.size (m : SolverModel) : Except Err ModelSize := do
  let le ← m.equations.mapM ConReq.finalLength
  let li ← m.inequations.mapM ConReq.finalLength
  return { eqs := m.equations.length, singleEqs := le.sum, ineqs := m.inequations.length, singleIneqs := li.sum,
           vars := m.vars.length, singleVars := (m.vars.map (·.length)).sum, tsVars := (m.vars.filter fun x => x.length > 1).length }

/-- `nr_of_constraints` (math_modeling.py:571-573): the length of `self._constraints`, which only `MathModel.add` fills; a
`SystemModel` collects its constraints elsewhere and never calls it. -/
def SolverModel.nrOfConstraints (_ : SolverModel) : Nat := 0

end Flix
