import Verif.Lemmas.Run
import Verif.Props.System

/-!
# C108, C109: asking a solver and reading its answer
-/

namespace Flix

/-! ## What is asked -/

/-- **C108.**  Whatever the settings, the solver asked is the one chosen, and it gets the accepted gap, the limit of time (if its class has one) and the number of threads
(HiGHS) under the names of its manual. -/
theorem C108 (v : SolverObj) :
    v.ask.plugin = v.cls.pyomoName ∧ (v.cls.gapName, OptVal.num v.mipGap) ∈ v.ask.options ∧ (∀ l, v.cls.limitName = some l → (l, OptVal.num v.timeLimit) ∈ v.ask.options) ∧
      (v.cls = .highs → ("threads", OptVal.num v.threads) ∈ v.ask.options) := by
  obtain ⟨cls, gap, limit, console, threads, logfile, y, b, m⟩ := v
  cases cls <;> simp [SolverObj.ask, SolverClass.gapName, SolverClass.limitName, SolverClass.pyomoName]

/-- **C108 (no setting is ignored; part).**  Two solvers of one class that ask for the same have the same gap, the same limit of time (if the
class has one), for HiGHS the same number of threads, for all others the same console setting and log file.  Missing: the console
setting of HiGHS, see `C108_console_wrong`. -/
theorem C108_settings_partial {v w : SolverObj} (hc : v.cls = w.cls) (h : v.ask = w.ask) :
    v.mipGap = w.mipGap ∧ (v.cls ≠ .glpk → v.timeLimit = w.timeLimit) ∧ (v.cls = .highs → v.threads = w.threads) ∧
      (v.cls ≠ .highs → v.console = w.console ∧ v.logfile = w.logfile) := by
  obtain ⟨cls, gap, limit, console, threads, logfile, y, b, m⟩ := v
  obtain ⟨cls', gap', limit', console', threads', logfile', y', b', m'⟩ := w
  cases hc
  cases cls <;> simp [SolverObj.ask] at h ⊢ <;> tauto

/-- HiGHS shows its output whatever the setting says. -/
theorem C108_console_wrong : ∃ v w : SolverObj, v.cls = .highs ∧ w.cls = .highs ∧ v.console = true ∧ w.console = false ∧ v.ask = w.ask ∧ w.ask.tee = true :=
  ⟨{ cls := .highs, logfile := none }, { cls := .highs, logfile := none, console := false }, rfl, rfl, rfl, rfl, rfl, rfl⟩

theorem paths_made (r : RunState) (name : String) (save : Save) : (r.paths name save).made = r.made := by
  unfold RunState.paths; split <;> rfl
theorem paths_held (r : RunState) (name : String) (save : Save) : (r.paths name save).held = r.held := by
  unfold RunState.paths; split <;> rfl
theorem paths_res (r : RunState) (name : String) (save : Save) : (r.paths name save).res = r.res := by
  unfold RunState.paths; split <;> rfl
theorem paths_objective (r : RunState) (name : String) (save : Save) : (r.paths name save).objective = r.objective := by
  unfold RunState.paths; split <;> rfl
theorem paths_cached (r : RunState) (name : String) (save : Save) : (r.paths name save).cached = r.cached := by
  unfold RunState.paths; split <;> rfl
theorem paths_files (r : RunState) (name : String) (save : Save) : (r.paths name save).files = r.files := by
  unfold RunState.paths; split <;> rfl

/-- **C108 (the call).**  A calculation asks the solver for exactly what its settings say, with the log file of the calculation: a program that
answers this request in the same way leads to the same outcome, whatever it would do with others. -/
theorem C108_call {r : RunState} {name : String} {v : SolverObj} {save : Save} {ext ext' : External}
    (h : ∀ p, ext p (SolverObj.ask { v with logfile := (r.paths name save).logPath }) r.held = ext' p (SolverObj.ask { v with logfile := (r.paths name save).logPath }) r.held) :
    r.solve name v save ext = r.solve name v save ext' := by
  unfold RunState.solve
  split
  · rfl
  · rename_i b hb
    have : (r.paths name save).solveModel b { v with logfile := (r.paths name save).logPath } ext =
        (r.paths name save).solveModel b { v with logfile := (r.paths name save).logPath } ext' := by
      unfold RunState.solveModel
      split
      · rfl
      · split
        · rfl
        · rw [paths_held, h]
    rw [this]

/-- **C108 (log file).**  A calculation that saves its results has the log written beside them. -/
theorem C108_logfile {r : RunState} {name : String} {save : Save} {d : String} (hd : save.dir = some d) :
    (r.paths name save).logPath = some (d ++ "/" ++ name ++ "_solver.log") := by
  unfold RunState.paths
  rw [hd]

/-- The log file given to the solver is never used: the outcome is the same for every other one. -/
theorem C108_logfile_wrong (r : RunState) (name : String) (v : SolverObj) (file : Option String) (save : Save) (ext : External) :
    r.solve name v save ext = r.solve name { v with logfile := file } save ext := rfl

theorem save_fields (r : RunState) (name : String) (save : Save) : (r.save name save).made = r.made ∧ (r.save name save).held = r.held ∧
    (r.save name save).res = r.res ∧ (r.save name save).objective = r.objective ∧ (r.save name save).logPath = r.logPath := by
  unfold RunState.save RunState.results
  cases save.dir with
  | none => exact ⟨rfl, rfl, rfl, rfl, rfl⟩
  | some d =>
    cases hc : r.cached with
    | some t => exact ⟨rfl, rfl, rfl, rfl, rfl⟩
    | none =>
      cases hm : r.made with
      | none => exact ⟨hm, rfl, rfl, rfl, rfl⟩
      | some b => exact ⟨rfl, rfl, rfl, rfl, rfl⟩

theorem results_fields (r : RunState) : r.results.1.made = r.made ∧ r.results.1.held = r.held ∧ r.results.1.res = r.res ∧
    r.results.1.objective = r.objective ∧ r.results.1.logPath = r.logPath ∧ r.results.1.files = r.files := by
  unfold RunState.results
  cases hc : r.cached with
  | some t => exact ⟨rfl, rfl, rfl, rfl, rfl, rfl⟩
  | none =>
    cases hm : r.made with
    | none => exact ⟨hm, rfl, rfl, rfl, rfl, rfl⟩
    | some b => exact ⟨rfl, rfl, rfl, rfl, rfl, rfl⟩

theorem solveModel_fields (r : RunState) (b : Made) (v : SolverObj) (ext : External) : (r.solveModel b v ext).state.made = r.made ∧
    (r.solveModel b v ext).state.cached = r.cached ∧ (r.solveModel b v ext).state.logPath = r.logPath ∧ (r.solveModel b v ext).state.files = r.files := by
  unfold RunState.solveModel
  split
  · exact ⟨rfl, rfl, rfl, rfl⟩
  · split
    · exact ⟨rfl, rfl, rfl, rfl⟩
    · unfold RunState.answered
      split
      · exact ⟨rfl, rfl, rfl, rfl⟩
      · split
        · exact ⟨rfl, rfl, rfl, rfl⟩
        · exact ⟨rfl, rfl, rfl, rfl⟩

theorem solve_logPath (r : RunState) (name : String) (v : SolverObj) (save : Save) (ext : External) :
    (r.solve name v save ext).state.logPath = (r.paths name save).logPath := by
  unfold RunState.solve
  split
  · rfl
  · rename_i b hb
    have := (solveModel_fields (r.paths name save) b { v with logfile := (r.paths name save).logPath } ext).2.2.1
    split
    · rename_i h; rw [h] at this; exact this
    · rename_i h; rw [h] at this; rw [(save_fields _ name save).2.2.2.2]; exact this

theorem run_snoc (name : String) (r : RunState) (ops : List RunOp) (op : RunOp) : r.run name (ops ++ [op]) = RunState.step name (r.run name ops) op := by
  simp [RunState.run]

theorem unsaved_logPath {name : String} {ops : List RunOp} (h : ∀ op ∈ ops, op.Unsaved) : (RunState.new.run name ops).logPath = none := by
  induction ops using List.reverseRecOn with
  | nil => rfl
  | append_singleton ops op ih =>
    have ih := ih (fun o ho => h o (List.mem_append_left _ ho))
    rw [run_snoc]
    have ho := h op (by simp)
    cases op with
    | model sys s =>
      unfold RunState.step RunState.model
      dsimp only
      split
      · exact ih
      · split <;> exact ih
    | solve v save ext =>
      cases (show save = .no from ho)
      exact (solve_logPath _ name v .no ext).trans ih
    | results =>
      exact (results_fields _).2.2.2.2.1.trans ih

/-- Without saving, HiGHS is told to write its log to a file called `None`, whatever file the solver was given, and however often the
calculation was run before. -/
theorem C108_none_wrong {name : String} {ops : List RunOp} (h : ∀ op ∈ ops, op.Unsaved) (v : SolverObj) (hv : v.cls = .highs) :
    ("log_file", OptVal.text "None") ∈
      (SolverObj.ask { v with logfile := ((RunState.new.run name ops).paths name .no).logPath }).options := by
  have : ((RunState.new.run name ops).paths name .no).logPath = none := unsaved_logPath h
  rw [this]
  obtain ⟨cls, gap, limit, console, threads, logfile, y, b, m⟩ := v
  cases hv
  simp [SolverObj.ask]

/-- **C108 (warnings; part).**  Gurobi and HiGHS warn unless the answer is a proven optimum.  Missing: the others, see `C108_warns_wrong`. -/
theorem C108_warns_partial {c : SolverClass} (hc : c = .gurobi ∨ c = .highs) (a : Answer) (h : c.warns a = false) : a.condition = "optimal" := by
  rcases hc with rfl | rfl <;> simp [SolverClass.warns] at h <;> tauto

/-- CPLEX, CBC and GLPK never warn, although a solver may stop early. -/
theorem C108_warns_wrong {c : SolverClass} (hc : c = .cplex ∨ c = .cbc ∨ c = .glpk) (a : Answer) : c.warns a = false := by
  rcases hc with rfl | rfl | rfl <;> rfl

/-- **C108 (message; part).**  HiGHS reports the termination condition and Gurobi the message of the solver.  Missing: the others, see
`C108_message_wrong`. -/
theorem C108_message_partial (a : Answer) : SolverClass.highs.messageOf a = a.condition ∧ SolverClass.gurobi.messageOf a = a.message := ⟨rfl, rfl⟩

/-- The message of GLPK is the status alone and that of CPLEX and CBC is always the same: a run stopped early reports like one with a proven optimum. -/
theorem C108_message_wrong (a : Answer) (condition message : String) :
    SolverClass.glpk.messageOf { a with condition, message } = a.status ∧
    (∀ b, SolverClass.cplex.messageOf a = SolverClass.cplex.messageOf b ∧ SolverClass.cbc.messageOf a = SolverClass.cbc.messageOf b) :=
  ⟨rfl, fun _ => ⟨rfl, rfl⟩⟩

/-- Settings reach the solver, and a calculation that saves names the log file. -/
example : ("mip_rel_gap", OptVal.num (1 / 1000)) ∈ (SolverObj.ask { cls := .highs, mipGap := 1 / 1000, logfile := none }).options ∧
    (RunState.new.paths "Sim" .yes).logPath = some "results/Sim_solver.log" := ⟨(C108 _).2.1, (C108_logfile (d := "results") rfl).trans (by decide)⟩

/-! ## What comes back -/

/-- The model of a calculation is that of its system, and the results of its variables are none or those Pyomo holds. -/
structure RunState.Sound (r : RunState) : Prop where
  model : ∀ b, r.made = some b → systemModel b.sys b.system = .ok b.out ∧ ∀ p, b.pyomo = some p → translateModel b.out.solver = .ok p
  read : ∀ b, r.made = some b → ∀ x ∈ b.out.solver.vars, r.res x.label = none ∨ ∃ t, heldResult r.held x = .ok t ∧ r.res x.label = some t

theorem made_nodup {b : Made} (h : systemModel b.sys b.system = .ok b.out) : (b.out.solver.vars.map (·.label)).Nodup :=
  (collectModel_perm (system_inv h).2.2.2).2.2.1

theorem solveModel_sound {r : RunState} (hr : r.Sound) {b : Made} (hb : r.made = some b) (v : SolverObj) (ext : External) :
    (r.solveModel b v ext).state.Sound := by
  have hf := (solveModel_fields r b v ext).1
  refine ⟨?_, ?_⟩
  · rw [hf]; exact hr.model
  · rw [hf]
    intro b' hb' x hx
    rw [hb] at hb'
    cases hb'
    have hnone := (reset_none b.out.solver.vars r.res).1 x hx
    unfold RunState.solveModel
    split
    · exact .inl hnone
    · split
      · exact .inl hnone
      · unfold RunState.answered
        split
        · exact .inl hnone
        · split
          · exact .inl hnone
          · unfold RunState.read
            dsimp only
            rcases write_read (made_nodup (hr.model b hb).1) (r.res.reset b.out.solver.vars) hx with e | e
            · rw [e]; exact .inl hnone
            · exact .inr e

theorem sound_of_fields {r r' : RunState} (hr : r.Sound) (h1 : r'.made = r.made) (h2 : r'.held = r.held) (h3 : r'.res = r.res) : r'.Sound := by
  refine ⟨?_, ?_⟩
  · rw [h1]; exact hr.model
  · rw [h1, h2, h3]; exact hr.read

theorem solve_sound {r : RunState} (hr : r.Sound) (name : String) (v : SolverObj) (save : Save) (ext : External) : (r.solve name v save ext).state.Sound := by
  have hp : (r.paths name save).Sound := sound_of_fields hr (paths_made _ _ _) (paths_held _ _ _) (paths_res _ _ _)
  unfold RunState.solve
  split
  · exact hp
  · rename_i b hb
    have := solveModel_sound hp hb { v with logfile := (r.paths name save).logPath } ext
    split
    · rename_i h; rw [h] at this; exact this
    · rename_i h; rw [h] at this
      exact sound_of_fields this (save_fields _ name save).1 (save_fields _ name save).2.1 (save_fields _ name save).2.2.1

theorem run_sound (name : String) (ops : List RunOp) : (RunState.new.run name ops).Sound := by
  induction ops using List.reverseRecOn with
  | nil => exact ⟨fun b hb => (by cases hb), fun b hb => (by cases hb)⟩
  | append_singleton ops op ih =>
    rw [run_snoc]
    cases op with
    | model sys s =>
      unfold RunState.step RunState.model
      dsimp only
      split
      · exact ⟨fun b hb => (by cases hb), fun b hb => (by cases hb)⟩
      · rename_i o ho
        split
        · refine ⟨?_, fun b hb x hx => .inl rfl⟩
          intro b hb
          cases hb
          exact ⟨ho, fun p hp => by cases hp⟩
        · rename_i p hp
          refine ⟨?_, fun b hb x hx => .inl rfl⟩
          intro b hb
          cases hb
          exact ⟨ho, fun p' hp' => by cases hp'; exact hp⟩
    | solve v save ext => exact solve_sound ih name v save ext
    | results => exact sound_of_fields ih (results_fields _).1 (results_fields _).2.1 (results_fields _).2.2.1

theorem heldResult_inv {h : Held} {x : Var} {t : RTree} (ht : heldResult h x = .ok t) :
    (∀ i < x.length, ∃ y, h x.label i = some y) ∧ t.ShowsValues x.length (fun i => reported x.isBinary ((h x.label i).getD 0)) := by
  obtain ⟨xs, hxs, rfl⟩ := map_ok.1 ht
  have hall : ∀ i < x.length, ∃ y, h x.label i = some y := by
    intro i hi
    unfold heldSeries at hxs
    obtain ⟨y, -, hy⟩ := forall₂_mem_left (mapM_ok.1 hxs) (List.mem_range.2 hi)
    split at hy
    · cases hy
    · rename_i z hz; exact ⟨z, hz⟩
  refine ⟨hall, ?_⟩
  rw [varResult_shows]
  have := heldSeries_ok (h := h) (x := x) (f := fun i => (h x.label i).getD 0) (by
    intro i hi
    obtain ⟨y, hy⟩ := hall i hi
    rw [hy]; rfl)
  rw [this] at hxs
  cases hxs
  rfl

/-- **C109 (nothing is mixed up).**  After any calls, returned or raised, a variable has no result or the values Pyomo holds for it at this
moment; a result of an earlier model or of values replaced since is never left. -/
theorem C109_current {name : String} {ops : List RunOp} {b : Made} (hb : (RunState.new.run name ops).made = some b) {x : Var} (hx : x ∈ b.out.solver.vars) :
    (RunState.new.run name ops).res x.label = none ∨
      ∃ t, (RunState.new.run name ops).res x.label = some t ∧ (∀ i < x.length, ∃ y, (RunState.new.run name ops).held x.label i = some y) ∧
        t.ShowsValues x.length (fun i => reported x.isBinary (((RunState.new.run name ops).held x.label i).getD 0)) := by
  rcases (run_sound name ops).read b hb x hx with h | ⟨t, h1, h2⟩
  · exact .inl h
  · exact .inr ⟨t, h2, (heldResult_inv h1).1, (heldResult_inv h1).2⟩

theorem made_nonempty {b : Made} {p : PyomoModel} (h : systemModel b.sys b.system = .ok b.out) (hp : translateModel b.out.solver = .ok p) : p.isEmpty = false := by
  obtain ⟨h1, h2, h3, h4⟩ := system_inv h
  obtain ⟨between, addressed, trees, pt, -, -, -, h5, -⟩ := collection_inv h3
  have hne : b.out.solver.vars ≠ [] := by
    unfold objectiveOps at h5
    split at h5
    · rename_i e he
      simp only [Except.ok.injEq] at h5
      have hm : sAll e.operation.sum (.s 1) ∈ b.out.solver.objective := by
        rw [(collectModel_perm h4).2.2.2.2, ← h5]; simp
      have := (C69 h).2 _ hm e.operation.sum ⟨_, _, _, rfl⟩
      exact List.ne_nil_of_mem this
    · cases h5
  have hl := (translateModel_inv hp).1.length_eq
  unfold PyomoModel.isEmpty
  have : p.vars ≠ [] := by
    intro e
    rw [e] at hl
    exact hne (List.length_eq_zero_iff.1 hl)
  cases hv : p.vars with
  | nil => exact absurd hv this
  | cons a as => rfl

theorem solveModel_returns {r : RunState} {b : Made} {p : PyomoModel} (hn : (b.out.solver.vars.map (·.label)).Nodup) {v : SolverObj} {ext : External}
    (hp : b.pyomo = some p) (he : (r.solveModel b v ext).err = none) :
    (ext p v.ask r.held).err = none ∧ (r.solveModel b v ext).state.held = (ext p v.ask r.held).held ∧
      ∃ y, heldTerms (ext p v.ask r.held).held p.objective = .ok y ∧ (r.solveModel b v ext).state.objective = some y ∧
        (r.solveModel b v ext).solver.objective = some y ∧ (r.solveModel b v ext).solver.bestBound = (ext p v.ask r.held).bound ∧
        ∀ x ∈ b.out.solver.vars, ∃ t, heldResult (ext p v.ask r.held).held x = .ok t ∧ (r.solveModel b v ext).state.res x.label = some t := by
  unfold RunState.solveModel at he ⊢
  rw [hp] at he ⊢
  dsimp only at he ⊢
  split at he
  · cases he
  · rename_i hem
    rw [if_neg hem]
    unfold RunState.answered at he ⊢
    split at he
    · cases he
    · rename_i hx
      split at he
      · cases he
      · rename_i y hy
        rw [hx]
        dsimp only
        rw [hy]
        exact ⟨rfl, rfl, y, rfl, rfl, rfl, rfl, fun x hx => write_all hn _ he hx⟩

theorem solve_cases (r : RunState) (name : String) (v : SolverObj) (save : Save) (ext : External) {b : Made} (hb : r.made = some b) :
    (r.solve name v save ext).err = ((r.paths name save).solveModel b { v with logfile := (r.paths name save).logPath } ext).err ∧
    (r.solve name v save ext).solver = ((r.paths name save).solveModel b { v with logfile := (r.paths name save).logPath } ext).solver ∧
    (r.solve name v save ext).state.held = ((r.paths name save).solveModel b { v with logfile := (r.paths name save).logPath } ext).state.held ∧
    (r.solve name v save ext).state.res = ((r.paths name save).solveModel b { v with logfile := (r.paths name save).logPath } ext).state.res ∧
    (r.solve name v save ext).state.objective = ((r.paths name save).solveModel b { v with logfile := (r.paths name save).logPath } ext).state.objective ∧
    (r.solve name v save ext).state.made = r.made ∧
    ((r.solve name v save ext).err = none →
      (r.solve name v save ext).state = RunState.save ((r.paths name save).solveModel b { v with logfile := (r.paths name save).logPath } ext).state name save) := by
  have hm : (r.paths name save).made = some b := by rw [paths_made, hb]
  have hf := (solveModel_fields (r.paths name save) b { v with logfile := (r.paths name save).logPath } ext).1
  rw [hm] at hf
  unfold RunState.solve
  rw [hm]
  dsimp only
  generalize (r.paths name save).solveModel b { v with logfile := (r.paths name save).logPath } ext = out at hf
  obtain ⟨r', v', e⟩ := out
  cases e with
  | some e => exact ⟨rfl, rfl, rfl, rfl, rfl, by rw [hb]; exact hf, fun h => by cases h⟩
  | none =>
    obtain ⟨f1, f2, f3, f4, -⟩ := save_fields r' name save
    exact ⟨rfl, rfl, f2, f3, f4, by rw [hb]; exact f1.trans hf, fun _ => rfl⟩

theorem heldTerms_val {h : Held} {ts : List (ℚ × String × Nat)} {y : ℚ} (hy : heldTerms h ts = .ok y) : y = termsVal (fun l i => (h l i).getD 0) ts := by
  induction ts generalizing y with
  | nil => cases hy; rfl
  | cons t ts ih =>
    unfold heldTerms at hy
    split at hy
    · cases hy
    · rename_i x hx
      obtain ⟨z, hz, rfl⟩ := map_ok.1 hy
      rw [ih hz]
      simp [termsVal, hx]

theorem made_objective {b : Made} {p : PyomoModel} (h : systemModel b.sys b.system = .ok b.out) (hp : translateModel b.out.solver = .ok p) :
    objectiveTerms b.out.solver.objective = .ok p.objective := by
  have h4 := (translateModel_inv hp).2.2.2.1
  rwa [closed_objectiveTerms] at h4
  intro op hop
  cases op with
  | summand x f i a => exact (C69 h).2 _ hop x ⟨f, i, a, rfl⟩
  | const k => trivial

/-- **C109 (what a run reports).**  A run that returns, after any earlier calls, has called the solver successfully for the model of the
calculation; every entry of every variable has a value in this answer and is reported (binary ones as whole numbers); the objective of the
calculation and of the solver object is the objective at these values, and the bound is the one of the answer. -/
theorem C109_returned {name : String} {ops : List RunOp} {b : Made} {p : PyomoModel} {v : SolverObj} {save : Save} {ext : External} {out : RunOut}
    (hb : (RunState.new.run name ops).made = some b) (hp : b.pyomo = some p) (ho : (RunState.new.run name ops).solve name v save ext = out) (he : out.err = none) :
    ∃ a, a = ext p (SolverObj.ask { v with logfile := out.state.logPath }) (RunState.new.run name ops).held ∧ a.err = none ∧
      (∀ x ∈ b.out.solver.vars, (∀ i < x.length, ∃ y, a.held x.label i = some y) ∧
        ∃ t, out.state.res x.label = some t ∧ t.ShowsValues x.length (fun i => reported x.isBinary ((a.held x.label i).getD 0))) ∧
      (∃ terms, objectiveTerms b.out.solver.objective = .ok terms ∧ out.state.objective = some (termsVal (fun l i => (a.held l i).getD 0) terms) ∧
        out.solver.objective = some (termsVal (fun l i => (a.held l i).getD 0) terms)) ∧ out.solver.bestBound = a.bound := by
  obtain ⟨c1, c2, c3, c4, c5, c6, c7⟩ := solve_cases (RunState.new.run name ops) name v save ext hb
  have hl := solve_logPath (RunState.new.run name ops) name v save ext
  rw [ho] at c1 c2 c3 c4 c5 hl
  rw [he] at c1
  obtain ⟨s1, s2, y, s3, s4, s5, s6, s7⟩ := solveModel_returns (made_nodup ((run_sound name ops).model b hb).1) hp c1.symm
  rw [paths_held] at s1 s2 s3 s6 s7
  rw [← hl] at s1 s2 s3 s6 s7
  have hm := (run_sound name ops).model b hb
  rw [heldTerms_val s3] at s4 s5
  refine ⟨_, rfl, s1, ?_, ⟨p.objective, made_objective hm.1 (hm.2 p hp), ?_, ?_⟩, ?_⟩
  · intro x hx
    obtain ⟨t, ht, hres⟩ := s7 x hx
    refine ⟨(heldResult_inv ht).1, t, ?_, (heldResult_inv ht).2⟩
    rw [c4, ← hl]; exact hres
  · rw [c5, ← hl]; rw [← hl] at s4; exact s4
  · rw [c2, ← hl]; rw [← hl] at s5; exact s5
  · rw [c2, ← hl]; exact s6

theorem loads_results {b : Made} (h : systemModel b.sys b.system = .ok b.out) {σ : Assignment} (hσ : b.out.solver.Solves σ) {hd : Held}
    (hl : hd.Loads b.out.solver σ) {x : Var} (hx : x ∈ b.out.solver.vars) : heldResult hd x = .ok (seriesResult σ x.length x.label) := by
  unfold heldResult
  rw [heldSeries_ok (hl x hx)]
  have : ((List.range x.length).map fun i => reported x.isBinary (σ x.label i)) = (List.range x.length).map (σ x.label) :=
    List.map_congr_left fun i hi => reported_id fun hb => system_binary_values h hσ x hx hb i (List.mem_range.1 hi)
  rw [this]
  rfl

theorem loads_objective {b : Made} {p : PyomoModel} (hp : translateModel b.out.solver = .ok p) {σ : Assignment} {hd : Held}
    (hl : hd.Loads b.out.solver σ) : heldTerms hd p.objective = .ok (termsVal σ p.objective) := by
  refine heldTerms_ok fun t ht => ?_
  obtain ⟨x, hx, e, hi⟩ := objective_known (translateModel_inv hp).2.2.2.1 t ht
  rw [e]
  exact hl x hx _ hi

/-- The calculation can be asked to solve, and any answer holds the solution `σ` of its model. -/
structure RunState.Answered (r : RunState) (b : Made) (p : PyomoModel) (ext : External) (σ : Assignment) : Prop where
  made : r.made = some b
  pyomo : b.pyomo = some p
  solves : b.out.solver.Solves σ
  loads : ∀ q h, (ext p q h).err = none ∧ (ext p q h).held.Loads b.out.solver σ

theorem solveModel_loads {r : RunState} (hr : r.Sound) {b : Made} {p : PyomoModel} {ext : External} {σ : Assignment} (h : r.Answered b p ext σ) (v : SolverObj) :
    (r.solveModel b v ext).err = none ∧ (r.solveModel b v ext).state.objective = some (termsVal σ p.objective) ∧
      (r.solveModel b v ext).solver.objective = some (termsVal σ p.objective) ∧
      ∀ x ∈ b.out.solver.vars, (r.solveModel b v ext).state.res x.label = some (seriesResult σ x.length x.label) := by
  obtain ⟨hm, ht⟩ := hr.model b h.made
  have ht := ht p h.pyomo
  obtain ⟨l1, l2⟩ := h.loads v.ask r.held
  have e : (r.solveModel b v ext).err = none := by
    unfold RunState.solveModel
    rw [h.pyomo]
    dsimp only
    rw [if_neg (by rw [made_nonempty hm ht]; simp)]
    unfold RunState.answered
    rw [l1]
    dsimp only
    rw [loads_objective ht l2]
    exact write_none _ fun x hx => ⟨_, loads_results hm h.solves l2 hx⟩
  obtain ⟨-, -, y, s3, s4, s5, -, s7⟩ := solveModel_returns (made_nodup hm) h.pyomo e
  rw [loads_objective ht l2] at s3
  cases s3
  refine ⟨e, s4, s5, fun x hx => ?_⟩
  obtain ⟨t, ht', hres⟩ := s7 x hx
  rw [loads_results hm h.solves l2 hx] at ht'
  cases ht'
  exact hres

theorem paths_sound {r : RunState} (hr : r.Sound) (name : String) (save : Save) : (r.paths name save).Sound :=
  sound_of_fields hr (paths_made _ _ _) (paths_held _ _ _) (paths_res _ _ _)

theorem paths_answered {r : RunState} {b : Made} {p : PyomoModel} {ext : External} {σ : Assignment} (h : r.Answered b p ext σ) (name : String) (save : Save) :
    (r.paths name save).Answered b p ext σ := ⟨by rw [paths_made]; exact h.made, h.pyomo, h.solves, h.loads⟩

/-- **C109.**  After any earlier calls, a run for which the solver finds the solution `σ` returns, every variable has exactly the values of `σ` as
its result, and the objective shown by the calculation and by the solver object is the cost of `σ`. -/
theorem C109 {name : String} {ops : List RunOp} {b : Made} {p : PyomoModel} {ext : External} {σ : Assignment}
    (h : (RunState.new.run name ops).Answered b p ext σ) (v : SolverObj) (save : Save) :
    ∃ out terms, (RunState.new.run name ops).solve name v save ext = out ∧ out.err = none ∧ out.state.Shows b.out.solver σ ∧
      objectiveTerms b.out.solver.objective = .ok terms ∧ out.state.objective = some (termsVal σ terms) ∧ out.solver.objective = some (termsVal σ terms) := by
  have hs := run_sound name ops
  obtain ⟨c1, c2, -, c4, c5, -, -⟩ := solve_cases (RunState.new.run name ops) name v save ext h.made
  obtain ⟨s1, s2, s3, s4⟩ := solveModel_loads (paths_sound hs name save) (paths_answered h name save) { v with logfile := ((RunState.new.run name ops).paths name save).logPath }
  obtain ⟨hm, ht⟩ := hs.model b h.made
  refine ⟨_, p.objective, rfl, c1.trans s1, ?_, made_objective hm (ht p h.pyomo), c5.trans s2, ?_⟩
  · intro x hx
    refine ⟨_, by rw [c4]; exact s4 x hx, ?_⟩
    rw [varResult_shows]
    rfl
  · rw [c2]; exact s3

/-! ## What `results()` returns -/

theorem lookup_pySet {α} (d : List (String × α)) (k : String) (x : α) : (pySet d k x).lookup k = some x := by
  induction d with
  | nil => simp [pySet]
  | cons q d ih =>
    obtain ⟨l, y⟩ := q
    unfold pySet
    by_cases h : l = k
    · simp [h]
    · rw [if_neg h, List.lookup_cons]
      have : (k == l) = false := by simpa using Ne.symm h
      rw [this]
      exact ih

theorem solve_cached {r : RunState} {name : String} {v : SolverObj} {ext : External} (h : r.cached = none) : (r.solve name v .no ext).state.cached = none := by
  unfold RunState.solve
  split
  · exact h
  · rename_i b hb
    have := (solveModel_fields (r.paths name .no) b { v with logfile := (r.paths name .no).logPath } ext).2.1
    split
    · rename_i e; rw [e] at this; exact this.trans h
    · rename_i e; rw [e] at this; exact this.trans h

theorem unread_cached {name : String} {ops : List RunOp} (h : ∀ op ∈ ops, ¬op.Reads) : (RunState.new.run name ops).cached = none := by
  induction ops using List.reverseRecOn with
  | nil => rfl
  | append_singleton ops op ih =>
    have ih := ih (fun o ho => h o (List.mem_append_left _ ho))
    rw [run_snoc]
    have ho := h op (by simp)
    cases op with
    | model sys s =>
      unfold RunState.step RunState.model
      dsimp only
      split
      · exact ih
      · split <;> exact ih
    | solve v save ext =>
      simp only [RunOp.Reads, not_not] at ho
      subst ho
      exact solve_cached ih
    | results => exact absurd trivial ho

/-- **C109 (results; part).**  As long as the results have been neither read nor saved before, `results()` after a run shows the solution of this
run, and so does the file if the run saves.  Missing: calculations whose results were read or saved before, see `C109_results_wrong`. -/
theorem C109_results_partial {name : String} {ops : List RunOp} (hops : ∀ op ∈ ops, ¬op.Reads) {b : Made} {p : PyomoModel} {ext : External} {σ : Assignment}
    (h : (RunState.new.run name ops).Answered b p ext σ) (v : SolverObj) (save : Save) :
    ∃ out terms, (RunState.new.run name ops).solve name v save ext = out ∧ objectiveTerms b.out.solver.objective = .ok terms ∧
      out.state.results.2 = .ok (b.out.results b.sys b.system σ (termsVal σ terms)) ∧
      ∀ d, save.dir = some d → out.state.files.lookup (d ++ "/" ++ name ++ "_results.json") = some (b.out.results b.sys b.system σ (termsVal σ terms)) := by
  have hs := run_sound name ops
  obtain ⟨hm, ht⟩ := hs.model b h.made
  obtain ⟨c1, -, -, -, -, -, c7⟩ := solve_cases (RunState.new.run name ops) name v save ext h.made
  have hsm := solveModel_fields ((RunState.new.run name ops).paths name save) b { v with logfile := ((RunState.new.run name ops).paths name save).logPath } ext
  obtain ⟨s1, s2, s3, s4⟩ := solveModel_loads (paths_sound hs name save) (paths_answered h name save) { v with logfile := ((RunState.new.run name ops).paths name save).logPath }
  refine ⟨_, p.objective, rfl, made_objective hm (ht p h.pyomo), ?_⟩
  rw [c7 (c1.trans s1)]
  generalize (((RunState.new.run name ops).paths name save).solveModel b { v with logfile := ((RunState.new.run name ops).paths name save).logPath } ext).state = r' at hsm s2 s4
  obtain ⟨g1, g2, -, -⟩ := hsm
  rw [paths_made, h.made] at g1
  rw [paths_cached, unread_cached hops] at g2
  have hres : b.resultsNow r'.res r'.objective = b.out.results b.sys b.system σ (termsVal σ p.objective) := by
    rw [s2]
    exact madeResults_eq hm s4 _
  have hr : r'.results = ({ r' with cached := some (b.out.results b.sys b.system σ (termsVal σ p.objective)) }, .ok (b.out.results b.sys b.system σ (termsVal σ p.objective))) := by
    unfold RunState.results
    rw [g2]
    dsimp only
    rw [g1]
    dsimp only
    rw [hres]
  unfold RunState.save
  cases hd : save.dir with
  | none =>
    dsimp only
    exact ⟨by rw [hr], fun d hd => by cases hd⟩
  | some d =>
    rw [hr]
    dsimp only
    refine ⟨rfl, fun d' hd' => ?_⟩
    cases hd'
    exact lookup_pySet _ _ _

theorem results_cached {r : RunState} {t : RTree} (h : r.results.2 = .ok t) : r.results.1.cached = some t := by
  unfold RunState.results at h ⊢
  cases hc : r.cached with
  | some u =>
    rw [hc] at h
    dsimp only at h ⊢
    rw [hc, ← Except.ok.inj h]
  | none =>
    rw [hc] at h
    dsimp only at h ⊢
    cases hm : r.made with
    | none => rw [hm] at h; cases h
    | some b =>
      rw [hm] at h
      dsimp only at h ⊢
      rw [Except.ok.inj h]

/-- What `results()` once returned it returns for ever, whatever is modelled and solved afterwards. -/
theorem C109_kept {r : RunState} {t : RTree} (h : r.cached = some t) (name : String) (ops : List RunOp) : (r.run name ops).results.2 = .ok t := by
  have hk : (r.run name ops).cached = some t := by
    induction ops using List.reverseRecOn with
    | nil => exact h
    | append_singleton ops op ih =>
      rw [run_snoc]
      cases op with
      | model sys s =>
        unfold RunState.step RunState.model
        dsimp only
        split
        · exact ih
        · split <;> exact ih
      | results =>
        unfold RunState.step RunState.results
        rw [ih]
        exact ih
      | solve v save ext =>
        unfold RunState.step RunState.solve
        dsimp only
        have hp : ((r.run name ops).paths name save).cached = some t := by rw [paths_cached]; exact ih
        split
        · exact hp
        · rename_i b hb
          have := (solveModel_fields ((r.run name ops).paths name save) b { v with logfile := ((r.run name ops).paths name save).logPath } ext).2.1
          split
          · rename_i e; rw [e] at this; exact this.trans hp
          · rename_i r' v' e
            rw [e] at this
            have hc : r'.cached = some t := this.trans hp
            unfold RunState.save RunState.results
            cases save.dir with
            | none => exact hc
            | some d => rw [hc]; exact hc
  unfold RunState.results
  rw [hk]

/-! ## Runs that fail -/

/-- **C109 (failed runs).**  If the solver cannot be called, no variable keeps a result. -/
theorem C109_failed {name : String} {ops : List RunOp} {b : Made} {p : PyomoModel} {ext : External} {e : Err} (hb : (RunState.new.run name ops).made = some b)
    (hp : b.pyomo = some p) (he : ∀ q h, (ext p q h).err = some e) (v : SolverObj) (save : Save) :
    ∃ out, (RunState.new.run name ops).solve name v save ext = out ∧ out.err = some e ∧ (∀ x ∈ b.out.solver.vars, out.state.res x.label = none) ∧
      out.state.objective = (RunState.new.run name ops).objective := by
  obtain ⟨hm, ht⟩ := (run_sound name ops).model b hb
  obtain ⟨c1, -, -, c4, c5, -, -⟩ := solve_cases (RunState.new.run name ops) name v save ext hb
  refine ⟨_, rfl, ?_⟩
  rw [c1, c4, c5]
  unfold RunState.solveModel
  rw [hp]
  dsimp only
  rw [if_neg (by rw [made_nonempty hm (ht p hp)]; simp)]
  unfold RunState.answered
  rw [he]
  exact ⟨rfl, (reset_none _ _).1, paths_objective _ _ _⟩

/-! ## Examples and what goes wrong -/

/-- The boiler delivers 2, 4, 0: a cheaper solution than `exSystemSol`, without excess. -/
def exSystemSol2 : Assignment := tableSol
  [("costs__invest_invest_sum", [12]), ("costs__operation_operation_sum", [132 / 5]), ("costs__operation_operation_sum_TS", [44 / 5, 88 / 5, 0]),
   ("costs__all_all_sum", [192 / 5]), ("co2__invest_invest_sum", [30]), ("co2__operation_operation_sum", [12]),
   ("co2__operation_operation_sum_TS", [4, 8, 0]), ("co2__all_all_sum", [42]),
   ("costs__Boiler__th__fix_effects", [7]), ("costs__Boiler__th__specific_effects", [5]), ("costs__co2_operation", [4 / 5, 8 / 5, 0]),
   ("costs__Gas__Q__effects_per_flow_hour", [8, 16, 0]), ("costs__operation", [132 / 5]), ("costs__invest", [12]),
   ("co2__Boiler__th__specific_effects", [30]), ("co2__Gas__Q__effects_per_flow_hour", [4, 8, 0]), ("co2__operation", [12]), ("co2__invest", [30]),
   ("Gas__Q_flow_rate", [4, 8, 0]), ("Gas__Q_sumFlowHours", [12]), ("Boiler__fu_flow_rate", [4, 8, 0]), ("Boiler__fu_sumFlowHours", [12]),
   ("Boiler__th_flow_rate", [2, 4, 0]), ("Boiler__th_sumFlowHours", [6]), ("Boiler__th__Investment_size", [10]),
   ("Load__Q_flow_rate", [2, 4, 0]), ("Load__Q_sumFlowHours", [6])]

theorem exSystem_ok2 : ∃ o, systemModel exSys exSystem = .ok o ∧ o.solver.Solves exSystemSol2 := by
  obtain ⟨o, h, hs⟩ := builds_and_solves (σ := exSystemSol2) (r := systemModel exSys exSystem)
    (f := fun o : SysOut => MTree.node o.solver.vars o.solver.cons []) (by decide +kernel)
  exact ⟨o, h, hs.1, hs.2.1⟩

theorem exSystem_costs : ∃ o terms, systemModel exSys exSystem = .ok o ∧ objectiveTerms o.solver.objective = .ok terms ∧
    termsVal exSystemSol terms = 1236 / 5 ∧ termsVal exSystemSol2 terms = 192 / 5 := by
  obtain ⟨o, h, hh⟩ := of_okB (p := fun o : SysOut => match objectiveTerms o.solver.objective with
    | .ok ts => decide (termsVal exSystemSol ts = 1236 / 5 ∧ termsVal exSystemSol2 ts = 192 / 5) | .error _ => false) (r := systemModel exSys exSystem) (by decide +kernel)
  cases ht : objectiveTerms o.solver.objective with
  | error e => rw [ht] at hh; cases hh
  | ok ts =>
    rw [ht] at hh
    have := of_decide_eq_true hh
    exact ⟨o, ts, h, ht, this.1, this.2⟩

/-- A calculation of the example system. -/
theorem exRun : ∃ b p, (RunState.new.run "Sim" [.model exSys exSystem]).made = some b ∧ b.pyomo = some p ∧ b.sys = exSys ∧ b.system = exSystem ∧
    systemModel exSys exSystem = .ok b.out ∧ b.out.solver.Solves exSystemSol ∧ b.out.solver.Solves exSystemSol2 ∧
    ∃ terms, objectiveTerms b.out.solver.objective = .ok terms ∧ termsVal exSystemSol terms = 1236 / 5 ∧ termsVal exSystemSol2 terms = 192 / 5 := by
  obtain ⟨o, h, hs⟩ := exSystem_ok
  obtain ⟨o', h', hs'⟩ := exSystem_ok2
  rw [h] at h'; cases h'
  obtain ⟨o', terms, h', ht⟩ := exSystem_costs
  rw [h] at h'; cases h'
  obtain ⟨p, hp, -, -⟩ := C69_translated exSys_valid (by decide) exSystem_fits exSystem_tied h hs
  refine ⟨⟨exSys, exSystem, o, some p⟩, p, ?_, rfl, rfl, rfl, h, hs, hs', terms, ht⟩
  unfold RunState.run
  simp only [List.foldl_cons, List.foldl_nil, RunState.step, RunState.model, h, hp]

theorem finds_loads (σ : Assignment) (m : SolverModel) (p : PyomoModel) (q : Ask) (h : Held) :
    (External.finds σ p q h).err = none ∧ (External.finds σ p q h).held.Loads m σ := ⟨rfl, fun _ _ _ _ => rfl⟩

/-- The hypotheses of `C109` and `C109_results_partial` are met: the first run of the example system reports its solution. -/
example : ∃ b out terms, (RunState.new.run "Sim" [.model exSys exSystem]).solve "Sim" { cls := .highs, logfile := none } .yes (External.finds exSystemSol) = out ∧
    out.err = none ∧ out.state.Shows b exSystemSol ∧ out.state.objective = some (1236 / 5) ∧ objectiveTerms b.objective = .ok terms := by
  obtain ⟨b, p, h1, h2, -, -, -, h6, -, terms, h8, h9, -⟩ := exRun
  obtain ⟨out, terms', ho, k1, k2, k3, k4, -⟩ := C109 ⟨h1, h2, h6, fun q h => finds_loads exSystemSol _ p q h⟩ { cls := .highs, logfile := none } .yes
  rw [h8] at k3; cases k3
  rw [h9] at k4
  exact ⟨_, out, terms, ho, k1, k2, k4, h8⟩

/-- A calculation that was run once and whose results were read. -/
def exRead : List RunOp := [.model exSys exSystem, .solve { cls := .highs, logfile := none } .no (External.finds exSystemSol), .results]

theorem exRead_state : ∃ b p t, (RunState.new.run "Sim" exRead).Answered b p (External.finds exSystemSol2) exSystemSol2 ∧
    (RunState.new.run "Sim" exRead).cached = some t ∧ t.get ["Objective"] = some (.scal (1236 / 5)) ∧
    ∃ terms, objectiveTerms b.out.solver.objective = .ok terms ∧ termsVal exSystemSol2 terms = 192 / 5 := by
  obtain ⟨b, p, h1, h2, h3, h4, h5, h6, h7, terms, h8, h9, h10⟩ := exRun
  have hA : (RunState.new.run "Sim" [.model exSys exSystem]).Answered b p (External.finds exSystemSol) exSystemSol :=
    ⟨h1, h2, h6, fun q h => finds_loads exSystemSol _ p q h⟩
  obtain ⟨out1, terms1, ho1, k1, k2, -⟩ := C109_results_partial (by simp [RunOp.Reads]) hA { cls := .highs, logfile := none } .no
  rw [h8] at k1; cases k1
  have hst : RunState.new.run "Sim" exRead = out1.state.results.1 := by
    rw [← ho1]; rfl
  refine ⟨b, p, _, ⟨?_, h2, h7, fun q h => finds_loads exSystemSol2 _ p q h⟩, by rw [hst]; exact results_cached k2, ?_, terms, h8, h10⟩
  · rw [hst, (results_fields _).1, ← ho1]
    exact (solve_cases _ "Sim" _ .no _ h1).2.2.2.2.2.1.trans h1
  · rw [h9]
    unfold SysOut.results
    simp only [RTree.get_dict]
    rfl

/-- Results that were read stay: after a second run with a cheaper solution the calculation knows the new objective, but `results()` still returns
the dictionary of the first run. -/
theorem C109_results_wrong : ∃ (ops : List RunOp) (v : SolverObj) (out : RunOut) (t : RTree),
    (RunState.new.run "Sim" ops).solve "Sim" v .no (External.finds exSystemSol2) = out ∧ out.err = none ∧ out.state.objective = some (192 / 5) ∧
    out.state.results.2 = .ok t ∧ t.get ["Objective"] = some (.scal (1236 / 5)) := by
  obtain ⟨b, p, t, hA, hc, ht, terms, h8, h10⟩ := exRead_state
  obtain ⟨out, terms2, ho, m1, m2, m3, m4, m5⟩ := C109 hA { cls := .highs, logfile := none } .no
  rw [h8] at m3; cases m3
  refine ⟨exRead, _, out, t, ho, m1, by rw [m4, h10], ?_, ht⟩
  rw [← ho]
  exact C109_kept hc "Sim" [.solve { cls := .highs, logfile := none } .no (External.finds exSystemSol2)]

/-- What has been read or saved once is saved again: the file of a later run holds the old results. -/
theorem C109_saved_wrong {r : RunState} {t : RTree} (hc : r.cached = some t) {name : String} {v : SolverObj} {save : Save} {ext : External} {d : String}
    (hd : save.dir = some d) (he : (r.solve name v save ext).err = none) :
    (r.solve name v save ext).state.files.lookup (d ++ "/" ++ name ++ "_results.json") = some t := by
  cases hb : r.made with
  | none =>
    unfold RunState.solve at he
    rw [paths_made, hb] at he
    cases he
  | some b =>
    obtain ⟨-, -, -, -, -, -, c7⟩ := solve_cases r name v save ext hb
    rw [c7 he]
    have g := (solveModel_fields (r.paths name save) b { v with logfile := (r.paths name save).logPath } ext).2.1
    rw [paths_cached, hc] at g
    generalize ((r.paths name save).solveModel b { v with logfile := (r.paths name save).logPath } ext).state = r' at g
    unfold RunState.save RunState.results
    rw [hd, g]
    exact lookup_pySet _ _ _

/-- Such a run: the second one saves, and its file has the objective of the first one. -/
example : ∃ (out : RunOut) (t : RTree), (RunState.new.run "Sim" exRead).solve "Sim" { cls := .highs, logfile := none } .yes (External.finds exSystemSol2) = out ∧
    out.state.objective = some (192 / 5) ∧ out.state.files.lookup ("results" ++ "/" ++ "Sim" ++ "_results.json") = some t ∧
    t.get ["Objective"] = some (.scal (1236 / 5)) := by
  obtain ⟨b, p, t, hA, hc, ht, terms, h8, h10⟩ := exRead_state
  obtain ⟨out, terms2, ho, m1, m2, m3, m4, m5⟩ := C109 hA { cls := .highs, logfile := none } .yes
  rw [h8] at m3; cases m3
  refine ⟨out, t, ho, by rw [m4, h10], ?_, ht⟩
  rw [← ho]
  exact C109_saved_wrong hc rfl (by rw [ho]; exact m1)

/-- After a run that could not call the solver, the objective is still that of the run before, although no variable has a result. -/
theorem C109_objective_wrong : ∃ (ops : List RunOp) (b : Made) (v : SolverObj) (out : RunOut), (RunState.new.run "Sim" ops).made = some b ∧
    (RunState.new.run "Sim" ops).solve "Sim" v .no External.missing = out ∧ out.err ≠ none ∧ b.out.solver.vars ≠ [] ∧
    (∀ x ∈ b.out.solver.vars, out.state.res x.label = none) ∧ out.state.objective = some (1236 / 5) := by
  obtain ⟨b, p, h1, h2, h3, h4, h5, h6, h7, terms, h8, h9, h10⟩ := exRun
  have hA : (RunState.new.run "Sim" [.model exSys exSystem]).Answered b p (External.finds exSystemSol) exSystemSol :=
    ⟨h1, h2, h6, fun q h => finds_loads exSystemSol _ p q h⟩
  let v : SolverObj := { cls := .highs, logfile := none }
  obtain ⟨out1, terms1, ho1, k1, k2, k3, k4, k5⟩ := C109 hA v .no
  rw [h8] at k3; cases k3
  let ops : List RunOp := [.model exSys exSystem, .solve v .no (External.finds exSystemSol)]
  have hst : RunState.new.run "Sim" ops = out1.state := by rw [← ho1]; rfl
  have hmade : (RunState.new.run "Sim" ops).made = some b := by
    rw [hst, ← ho1]
    exact (solve_cases _ "Sim" v .no _ h1).2.2.2.2.2.1.trans h1
  obtain ⟨out2, ho2, m1, m2, m3⟩ := C109_failed hmade h2 (ext := External.missing) (e := .exception) (fun _ _ => rfl) v .no
  refine ⟨ops, b, v, out2, hmade, ho2, by rw [m1]; simp, ?_, m2, ?_⟩
  · intro e
    obtain ⟨o', h', hh⟩ := of_okB (p := fun o : SysOut => decide (0 < o.solver.vars.length)) (r := systemModel exSys exSystem) (by decide +kernel)
    rw [h5] at h'; cases h'
    rw [e] at hh
    cases hh
  · rw [m3, hst, k4, h9]

/-- A second run that ends without a solution returns the values of the first run as its own, without an exception and, for GLPK, without a
warning. -/
theorem C109_stuck_wrong : ∃ (ops : List RunOp) (b : Made) (v : SolverObj) (out : RunOut), (RunState.new.run "Sim" ops).made = some b ∧
    (RunState.new.run "Sim" ops).solve "Sim" v .no External.givesUp = out ∧ (∀ p q h, (External.givesUp p q h).condition = "infeasible" ∧ v.cls.warns (External.givesUp p q h) = false) ∧
    out.err = none ∧ out.state.Shows b.out.solver exSystemSol ∧ out.state.objective = some (1236 / 5) := by
  obtain ⟨b, p, h1, h2, h3, h4, h5, h6, h7, terms, h8, h9, h10⟩ := exRun
  have hA : (RunState.new.run "Sim" [.model exSys exSystem]).Answered b p (External.finds exSystemSol) exSystemSol :=
    ⟨h1, h2, h6, fun q h => finds_loads exSystemSol _ p q h⟩
  let v : SolverObj := { cls := .glpk, logfile := none }
  obtain ⟨out1, terms1, ho1, k1, k2, k3, k4, k5⟩ := C109 hA v .no
  rw [h8] at k3; cases k3
  let ops : List RunOp := [.model exSys exSystem, .solve v .no (External.finds exSystemSol)]
  have hst : RunState.new.run "Sim" ops = out1.state := by rw [← ho1]; rfl
  have hcs := solve_cases (RunState.new.run "Sim" [.model exSys exSystem]) "Sim" v .no (External.finds exSystemSol) h1
  have hmade : (RunState.new.run "Sim" ops).made = some b := by
    rw [hst, ← ho1]
    exact hcs.2.2.2.2.2.1.trans h1
  have hheld : (RunState.new.run "Sim" ops).held = fun l i => some (exSystemSol l i) := by
    rw [hst, ← ho1, hcs.2.2.1]
    refine (solveModel_returns (made_nodup ((run_sound "Sim" [.model exSys exSystem]).model b h1).1) h2 ?_).2.1
    rw [← hcs.1, ho1]; exact k1
  let ext' : External := fun _ _ _ => { held := fun l i => some (exSystemSol l i), status := "warning", condition := "infeasible", message := "infeasible" }
  have hsame : (RunState.new.run "Sim" ops).solve "Sim" v .no External.givesUp = (RunState.new.run "Sim" ops).solve "Sim" v .no ext' := by
    refine C108_call fun q => ?_
    rw [hheld]
    rfl
  have hA2 : (RunState.new.run "Sim" ops).Answered b p ext' exSystemSol := ⟨hmade, h2, h6, fun q h => ⟨rfl, fun _ _ _ _ => rfl⟩⟩
  obtain ⟨out2, terms2, ho2, m1, m2, m3, m4, m5⟩ := C109 hA2 v .no
  rw [h8] at m3; cases m3
  exact ⟨ops, b, v, out2, hmade, hsame.trans ho2, fun _ _ _ => ⟨rfl, rfl⟩, m1, m2, by rw [m4, h9]⟩

end Flix
