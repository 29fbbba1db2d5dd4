import Verif.Model.Report
import Verif.Model.Translate
import Verif.Model.MainResults

/-!
# Calling a solver and reading its answer (math_modeling.py:475-529, 693-1025; structure.py:66-119; calculation.py:35-172, 294-302)
-/

namespace Flix

/-! ## Solvers -/

/-- The classes of solvers (math_modeling.py:741-968). -/
inductive SolverClass
  | gurobi
  | cplex
  | highs
  | cbc
  | glpk
  deriving DecidableEq, Repr

/-- A solver object (math_modeling.py:707-723, 751-759, 816-824, 856-866, 909-917, 940-946).  `GlpkSolver` has no `timeLimit`, only
`HighsSolver` has `threads`; `log` (C104) and the raw answer of Pyomo are left out. -/
structure SolverObj where
  cls : SolverClass
  mipGap : ℚ := 1 / 100
  timeLimit : ℚ := 300
  console : Bool := true
  threads : Nat := 4
  logfile : Option String
  objective : Option ℚ := none
  bestBound : Option ℚ := none
  message : Option String := none

/-- Values of options of solvers (math_modeling.py:769, 872-881). -/
inductive OptVal
  | num (x : ℚ)
  | flag (b : Bool)
  | text (s : String)
  deriving DecidableEq, Repr

/-- What is handed to the solver besides the model: the name of the plugin, whether its output is shown, the log file and the options
(math_modeling.py:763-770, 869-886). -/
structure Ask where
  plugin : String
  tee : Bool
  logfile : Option String
  options : List (String × OptVal)
  deriving DecidableEq, Repr

/-- The calls in the `solve` methods (math_modeling.py:763-770, 828-835, 870-886, 921-928, 950-957).  For HiGHS the output is always
shown and `str(self.logfile_name)` is the text `None` if there is no file. -/
def SolverObj.ask (v : SolverObj) : Ask :=
  match v.cls with
  | .gurobi => ⟨"gurobi", v.console, v.logfile, [("mipgap", .num v.mipGap), ("TimeLimit", .num v.timeLimit)]⟩
  | .cplex => ⟨"cplex", v.console, v.logfile, [("mipgap", .num v.mipGap), ("timelimit", .num v.timeLimit)]⟩
  | .highs => ⟨"appsi_highs", true, none,
      [("mip_rel_gap", .num v.mipGap), ("time_limit", .num v.timeLimit), ("log_file", .text (v.logfile.getD "None")),
       ("threads", .num v.threads), ("parallel", .text "on"), ("presolve", .text "on"), ("output_flag", .flag true)]⟩
  | .cbc => ⟨"cbc", v.console, v.logfile, [("ratio", .num v.mipGap), ("sec", .num v.timeLimit)]⟩
  | .glpk => ⟨"glpk", v.console, v.logfile, [("mipgap", .num v.mipGap)]⟩

/-- `pyomo_variable[i].value`: a number or `None` (math_modeling.py:1042-1066). -/
abbrev Held := String → Nat → Option ℚ

/-- What the call of Pyomo's `solve` leaves behind: the values of the variables, whether it raised, the bound, the status, the termination
condition and the message (math_modeling.py:772-783, 837-840, 888-893, 930-933, 959-961). -/
structure Answer where
  held : Held
  err : Option Err := none
  bound : Option ℚ := none
  status : String := "ok"
  condition : String := "optimal"
  message : String := ""

/-- Pyomo and the solver program: any function of the model, of what is asked and of the values held before
(math_modeling.py:764-770, 884-886). -/
abbrev External := PyomoModel → Ask → Held → Answer

/-- `self.termination_message` (math_modeling.py:773, 838, 889, 931, 960); the status of GLPK is shown as it is. -/
def SolverClass.messageOf (c : SolverClass) (a : Answer) : String :=
  match c with
  | .gurobi => a.message
  | .cplex => "Not Implemented for CplexSolver yet"
  | .highs => a.condition
  | .cbc => "Not Implemented for CbcSolver yet"
  | .glpk => a.status

/-- Whether the class logs a warning that the answer is not a proven optimum (math_modeling.py:778-785, 890-891). -/
def SolverClass.warns (c : SolverClass) (a : Answer) : Bool :=
  match c with
  | .gurobi => !(decide (a.status = "ok") && decide (a.condition = "optimal"))
  | .highs => !decide (a.condition = "optimal")
  | _ => false

/-- `objective.expr()` (math_modeling.py:772, 1012): `ValueError` if a variable has no value. -/
def heldTerms (h : Held) : List (ℚ × String × Nat) → Except Err ℚ
  | [] => .ok 0
  | t :: ts =>
    match h t.2.1 t.2.2 with
    | none => .error .value
    | some x => (heldTerms h ts).map fun y => t.1 * x + y

/-- The values of one variable as an array (math_modeling.py:1013-1021): `TypeError` for `None`. -/
def heldSeries (h : Held) (x : Var) : Except Err (List ℚ) :=
  (List.range x.length).mapM fun i => match h x.label i with
    | none => .error .type
    | some y => .ok (reported x.isBinary y)

/-- `variable.result` (math_modeling.py:1022-1025). -/
def heldResult (h : Held) (x : Var) : Except Err RTree := (heldSeries h x).map varResult

/-- `variable.result` by label (math_modeling.py:60, 86-87). -/
abbrev VarResults := String → Option RTree

/-- One assignment `variable.result = …` (math_modeling.py:1022-1025, 86-87). -/
def VarResults.set (r : VarResults) (l : String) (v : Option RTree) : VarResults := fun k => if k = l then v else r k

/-- `for variable in self.variables: variable.reset_result()` (math_modeling.py:523-524). -/
def VarResults.reset (r : VarResults) (xs : List Var) : VarResults := xs.foldl (fun r x => r.set x.label none) r

/-- The loop that writes the results (math_modeling.py:1013-1025): an exception leaves the later variables as they are. -/
def writeResults (h : Held) : List Var → VarResults → VarResults × Option Err
  | [], r => (r, none)
  | x :: xs, r =>
    match heldResult h x with
    | .error e => (r, some e)
    | .ok v => writeResults h xs (r.set x.label (some v))

/-! ## The model between two calls -/

/-- `translate_variable` gives fixed entries their value, all others have none (math_modeling.py:1057-1066). -/
def PyomoModel.start (m : PyomoModel) : Held := fun l i =>
  match (m.vars.find? fun x => x.label = l).bind fun x => x.entries[i]? with
  | some (.fixed y) => some y
  | _ => none

/-- A `SystemModel` with its Pyomo model, if that has been made (structure.py:35-64, math_modeling.py:475-488, 511-518). -/
structure Made where
  sys : Sys
  system : System
  out : SysOut
  pyomo : Option PyomoModel

/-- A calculation between two calls: `system_model`, the values held by the Pyomo variables, `variable.result`, `result_of_objective`,
`_results`, `_paths['log']` and the saved files of results (calculation.py:58-72, math_modeling.py:475-488). -/
structure RunState where
  made : Option Made := none
  held : Held := fun _ _ => none
  res : VarResults := fun _ => none
  objective : Option ℚ := none
  cached : Option RTree := none
  logPath : Option String := none
  files : List (String × RTree) := []

/-- `Calculation(...)` (calculation.py:40-72). -/
def RunState.new : RunState := {}

/-- `FullCalculation.do_modeling` (calculation.py:150-163): a new `SystemModel` with new variables; the calculation keeps its results and
paths.  Simplification: a model whose construction raised counts as none. -/
def RunState.model (r : RunState) (sys : Sys) (s : System) : RunState × Option Err :=
  match systemModel sys s with
  | .error e => ({ r with made := none }, some e)
  | .ok o =>
    match translateModel o.solver with
    | .error e => ({ r with made := some ⟨sys, s, o, none⟩, held := fun _ _ => none, res := fun _ => none, objective := none }, some e)
    | .ok p => ({ r with made := some ⟨sys, s, o, some p⟩, held := p.start, res := fun _ => none, objective := none }, none)

/-- `self._counter == 0` (math_modeling.py:1007-1008): nothing has been registered. -/
def PyomoModel.isEmpty (p : PyomoModel) : Bool := p.vars.isEmpty && p.eqs.isEmpty && p.ineqs.isEmpty

/-- What a call of `solve` leaves: the calculation, the solver object, and the exception if one was raised (calculation.py:165-172). -/
structure RunOut where
  state : RunState
  solver : SolverObj
  err : Option Err

/-- The part of `PyomoModel.solve` behind the call of the solver (math_modeling.py:1011-1025). -/
def RunState.read (r : RunState) (b : Made) (v : SolverObj) (y : ℚ) : RunOut :=
  ⟨{ r with objective := some y, res := (writeResults r.held b.out.solver.vars r.res).1 }, v, (writeResults r.held b.out.solver.vars r.res).2⟩

/-- The `solve` method of the solver classes behind the call of Pyomo (math_modeling.py:772-774, 837-839, 888-892, 930-932, 959-961) and what
follows. -/
def RunState.answered (r : RunState) (b : Made) (p : PyomoModel) (v : SolverObj) (a : Answer) : RunOut :=
  match a.err with
  | some e => ⟨{ r with held := a.held }, v, some e⟩
  | none =>
    match heldTerms a.held p.objective with
    | .error e => ⟨{ r with held := a.held }, v, some e⟩
    | .ok y => RunState.read { r with held := a.held } b { v with objective := some y, message := some (v.cls.messageOf a), bestBound := a.bound } y

/-- `MathModel.solve` and `PyomoModel.solve` (math_modeling.py:520-526, 1006-1025).  What `SystemModel.solve` writes to the log afterwards
(structure.py:77-119) is in `Model/MainResults`. -/
def RunState.solveModel (r : RunState) (b : Made) (v : SolverObj) (ext : External) : RunOut :=
  match b.pyomo with
  | none => ⟨{ r with res := r.res.reset b.out.solver.vars }, v, some .attribute⟩
  | some p =>
    if p.isEmpty then ⟨{ r with res := r.res.reset b.out.solver.vars }, v, some .exception⟩
    else RunState.answered { r with res := r.res.reset b.out.solver.vars } b p v (ext p v.ask r.held)

/-- The argument `save_results` (calculation.py:165): `False`, `True` or a path. -/
inductive Save
  | no
  | yes
  | to_ (path : String)
  deriving DecidableEq, Repr

/-- The directory of the results (calculation.py:82-85). -/
def Save.dir : Save → Option String
  | .no => none
  | .yes => some "results"
  | .to_ p => if p = "" then none else some p

/-- The first two statements of `solve` (calculation.py:74-92, 166-168): the log file of the solver is the one of the calculation.  Creating
directories is left out. -/
def RunState.paths (r : RunState) (name : String) (save : Save) : RunState :=
  match save.dir with
  | none => r
  | some d => { r with logPath := some (d ++ "/" ++ name ++ "_solver.log") }

/-! ## Results -/

/-- The variables of a model under their short labels with the results they have at the moment, `None` before a run
(structure.py:489, features.py:814). -/
def NTree.entriesNow (res : VarResults) : NTree → List (String × RTree)
  | .node k f _ vs _ _ => vs.map fun x => (shortLabel k f x, (res x.label).getD .nul)

mutual
  /-- `ElementModel.results` and `ShareAllocationModel.results` (structure.py:487-491, features.py:812-817) at the moment. -/
  def NTree.resultsNow (res : VarResults) : NTree → RTree
    | .node k f .plain vs _ ss => .dict (pyUpdate [] ((NTree.node k f .plain vs [] []).entriesNow res ++ NTree.subResultsNow res ss))
    | .node k f .allocation vs _ ss =>
      .dict (pyUpdate [] ((NTree.node k f .allocation vs [] []).entriesNow res ++
        [("Shares", .dict (pyUpdate [] (ss.flatMap (NTree.entriesNow res))))]))
  /-- `{model.label: model.results() for model in self.sub_models}` (structure.py:490). -/
  def NTree.subResultsNow (res : VarResults) : List NTree → List (String × RTree)
    | [] => []
    | t :: ts => (t.key, t.resultsNow res) :: NTree.subResultsNow res ts
end

/-- `result_of_objective`, `None` before a run (structure.py:156). -/
def objectiveNow : Option ℚ → RTree
  | none => .nul
  | some y => .scal y

/-- `SystemModel.results` (structure.py:150-159) at the moment. -/
def Made.resultsNow (b : Made) (res : VarResults) (objective : Option ℚ) : RTree :=
  .dict [("Components", .dict (pyUpdate [] (NTree.subResultsNow res (b.out.compModels b.sys.cfg b.system)))),
    ("Effects", (b.out.collModel b.system).resultsNow res),
    ("Buses", .dict (pyUpdate [] (NTree.subResultsNow res (b.out.busModels b.system)))),
    ("Others", .dict []),
    ("Objective", objectiveNow objective),
    ("Time", .nul),
    ("Time intervals in hours", .arr b.sys.dt)]

/-- `Calculation.results` (calculation.py:130-133): what has been returned once is returned again. -/
def RunState.results (r : RunState) : RunState × Except Err RTree :=
  match r.cached with
  | some t => (r, .ok t)
  | none =>
    match r.made with
    | none => (r, .error .attribute)
    | some b => ({ r with cached := some (b.resultsNow r.res r.objective) }, .ok (b.resultsNow r.res r.objective))

/-- `_save_solve_infos` as far as the results (calculation.py:94-99). -/
def RunState.save (r : RunState) (name : String) (save : Save) : RunState :=
  match save.dir, r.results with
  | some d, (r', .ok t) => { r' with files := pySet r'.files (d ++ "/" ++ name ++ "_results.json") t }
  | _, _ => r

/-- `FullCalculation.solve` and `AggregatedCalculation.solve` (calculation.py:165-172, 294-302). -/
def RunState.solve (r : RunState) (name : String) (v : SolverObj) (save : Save) (ext : External) : RunOut :=
  match (r.paths name save).made with
  | none => ⟨r.paths name save, { v with logfile := (r.paths name save).logPath }, some .attribute⟩
  | some b =>
    match (r.paths name save).solveModel b { v with logfile := (r.paths name save).logPath } ext with
    | ⟨r', v', some e⟩ => ⟨r', v', some e⟩
    | ⟨r', v', none⟩ => ⟨r'.save name save, v', none⟩

/-! ## Histories -/

/-- The calls a user can make (calculation.py:130-172). -/
inductive RunOp
  | model (sys : Sys) (s : System)
  | solve (v : SolverObj) (save : Save) (ext : External)
  | results

/-- The state after a call, whether it returned or raised (calculation.py:130-172). -/
def RunState.step (name : String) (r : RunState) : RunOp → RunState
  | .model sys s => (r.model sys s).1
  | .solve v save ext => (r.solve name v save ext).state
  | .results => r.results.1

/-- The state after several calls (calculation.py:130-172). -/
def RunState.run (name : String) (r : RunState) (ops : List RunOp) : RunState := ops.foldl (RunState.step name) r

end Flix
