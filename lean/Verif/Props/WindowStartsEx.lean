import Verif.Props.Cut
import Verif.Props.WindowEx

/-! # C87 with costs of starts: an example, and where the starts of a segment are not those of the whole horizon -/

namespace Flix

theorem exDay_cover : Cover exDay.n 3 2 fun _ => 3 := by
  refine ⟨by decide, by decide, by decide, ?_, ?_, ?_, ?_⟩
  · intro k hk; show k * 3 + 3 ≤ 6; omega
  · intro k _; exact le_refl 3
  · intro k hk; show k * 3 + 3 = 6; omega
  · intro k _; decide

/-! ## A generator that is switched on three times -/

def exStartQ : FlowData :=
  { label := "Q", bus := "heat", size := .num 10, relMin := .s (1 / 20), effectsPerFlowHour := [("costs", .s 2)], onOff := some ({ effectsPerSwitchOn := [("costs", .s 5)] } : OnOffParams) }
def exStartLoadQ : FlowData := { label := "Q", bus := "heat", size := .num 1, fixedProfile := some (.v [2, 0, 3, 3, 0, 1]) }
def exStarts : System :=
  exSmall [.plain { label := "Gen", inputs := [], outputs := [exStartQ] }, .plain { label := "Load", inputs := [exStartLoadQ], outputs := [] }] none

def exStartsFirst : Assignment := tableSol
  [("Gen__Q_flow_rate", [2, 0, 3]), ("Gen__Q_sumFlowHours", [5]), ("Load__Q_flow_rate", [2, 0, 3]), ("Load__Q_sumFlowHours", [5]),
   ("Gen__Q__OnOff_on", [1, 0, 1]), ("Gen__Q__OnOff_totalOnHours", [2]), ("Gen__Q__OnOff_switchOn", [1, 0, 1]), ("Gen__Q__OnOff_switchOff", [0, 1, 0]), ("Gen__Q__OnOff_nrSwitchOn", [2]),
   ("costs__operation_operation_sum", [20]), ("costs__operation_operation_sum_TS", [9, 0, 11]), ("costs__all_all_sum", [20]),
   ("costs__Gen__Q__switch_on_effects", [5, 0, 5]), ("costs__Gen__Q__effects_per_flow_hour", [4, 0, 6]), ("costs__operation", [20])]

/-- The second segment: the generator is already running. -/
def exStartsSecond : Assignment := tableSol
  [("Gen__Q_flow_rate", [3, 0, 1]), ("Gen__Q_sumFlowHours", [4]), ("Load__Q_flow_rate", [3, 0, 1]), ("Load__Q_sumFlowHours", [4]),
   ("Gen__Q__OnOff_on", [1, 0, 1]), ("Gen__Q__OnOff_totalOnHours", [2]), ("Gen__Q__OnOff_switchOn", [0, 0, 1]), ("Gen__Q__OnOff_switchOff", [0, 1, 0]), ("Gen__Q__OnOff_nrSwitchOn", [1]),
   ("costs__operation_operation_sum", [13]), ("costs__operation_operation_sum_TS", [6, 0, 7]), ("costs__all_all_sum", [13]),
   ("costs__Gen__Q__switch_on_effects", [0, 0, 5]), ("costs__Gen__Q__effects_per_flow_hour", [6, 0, 2]), ("costs__operation", [13])]

def exTwo (a b : Assignment) (k : Nat) : Assignment := if k = 0 then a else b

def exHanded (r : String → String → ℚ) (k : Nat) : SegStart := ⟨fun c f => if k = 0 then none else some (.s (r c f)), fun _ => .none⟩

theorem exStarts_flows : ∀ f ∈ [exStartQ, exStartLoadQ], f.Fits exDay.n ∧ f.Sensible exDay.cfg exDay.n ∧ f.Proper exDay.n ∧ f.Local := by
  simp only [List.forall_mem_cons, List.not_mem_nil, false_imp_iff, implies_true, and_true]
  refine ⟨⟨?_, ⟨?_, ?_, ?_⟩, ?_, ?_⟩, ⟨?_, ⟨?_, ?_, ?_⟩, ?_, ?_⟩⟩
  all_goals first
    | (constructor <;> simp [exStartQ, exStartLoadQ, Num.Fits, Num.len, Num.isScalar, exDay, exCfg, InvestParams.segEffects]; done)
    | decide +kernel
    | (intro q hq; cases hq; done)
    | skip
  · constructor <;> simp [exStartQ, Num.Fits, Num.isScalar]
    constructor <;> simp [Num.isScalar]
  · constructor <;> simp [exStartQ]
    simp [OnOffParams.NonnegLimits]
  · constructor <;> simp [exStartQ]
    constructor <;> simp

theorem exStarts_proper : ∀ c ∈ exStarts.comps, c.Proper exDay := by
  have h := exStarts_flows
  simp only [List.forall_mem_cons, List.not_mem_nil, false_imp_iff, implies_true, and_true] at h
  obtain ⟨g, d⟩ := h
  intro c hc
  simp only [exStarts, exSmall, List.mem_cons, List.not_mem_nil, or_false] at hc
  rcases hc with rfl | rfl
  · exact ⟨by decide, by simpa using g.1, by simpa using g.2.1, by simpa using g.2.2.1, by simp⟩
  · exact ⟨by decide, by simpa using d.1, by simpa using d.2.1, by simpa using d.2.2.1, by simp⟩

theorem exStarts_uncoupled : exStarts.Uncoupled := by
  have h := exStarts_flows
  simp only [List.forall_mem_cons, List.not_mem_nil, false_imp_iff, implies_true, and_true] at h
  obtain ⟨g, d⟩ := h
  refine ⟨?_, by simp [exStarts, exSmall]⟩
  intro c hc
  simp only [exStarts, exSmall, List.mem_cons, List.not_mem_nil, or_false] at hc
  rcases hc with rfl | rfl
  · exact ⟨by simpa using g.2.2.2, by simp⟩
  · exact ⟨by simpa using d.2.2.2, by simp⟩

theorem exStarts_fits : exStarts.Fits exDay.n := by
  refine ⟨?_, ?_, ?_⟩
  · intro e he
    simp only [exStarts, exSmall, List.mem_cons, List.not_mem_nil, or_false] at he
    subst he
    refine ⟨?_, ?_, ?_, ?_⟩ <;> simp
  · intro c hc
    simp only [exStarts, exSmall, List.mem_cons, List.not_mem_nil, or_false] at hc
    rcases hc with rfl | rfl <;> refine ⟨?_, ?_, ?_⟩ <;> simp [Comp.flows, Comp.inputs, Comp.outputs, Comp.onOff, exStartQ, exStartLoadQ]
    · refine ⟨?_, ?_, by simp⟩
      · simp [EffDict.Series, Num.Fits, Num.isScalar]
      · rintro q ⟨⟩
        refine ⟨?_, ?_⟩ <;> simp [EffDict.Series, Num.Fits, Num.isScalar]
    · refine ⟨?_, ?_, ?_⟩ <;> simp [EffDict.Series]
  · simp [exStarts, exSmall]

/-- A case of C87 with costs of starts: the second segment does not pay for a start in its first step, and neither does the whole horizon. -/
example : ∃ o, systemModel exDay exStarts = .ok o ∧ ∃ τ, o.solver.Solves τ ∧ (List.range 6).map (τ (startL "Gen__Q")) = [1, 0, 1, 0, 0, 1] ∧
    (List.range 6).map (τ (opTSL "costs")) = [9, 0, 11, 6, 0, 7] := by
  obtain ⟨o, h⟩ : ∃ o, systemModel exDay exStarts = .ok o := builds (by decide +kernel)
  refine ⟨o, h, ?_⟩
  obtain ⟨τ, t1, t2, -, t4⟩ := C87_starts_partial (L := 3) (m := 2) (len := fun _ => 3) (σ := exTwo exStartsFirst exStartsSecond) (st := exHanded fun _ _ => 3) exDay_valid
    (by simp [exDay, Num.Nonneg]) (by decide) exStarts_fits exStarts_proper exStarts_uncoupled h exDay_cover
    (by
      intro c hc
      simp only [exStarts, exSmall, List.mem_cons, List.not_mem_nil, or_false] at hc
      refine ⟨?_, ?_, ?_, ?_⟩
      · intro f hf
        rcases hc with rfl | rfl <;> simp [Comp.flows, Comp.inputs, Comp.outputs] at hf <;> subst hf <;> rfl
      · rintro x rfl
        rcases hc with hc | hc <;> cases hc
      · intro k hk f hf
        have : k = 0 := by omega
        subst this
        rcases hc with rfl | rfl <;> simp [Comp.flows, Comp.inputs, Comp.outputs] at hf <;> subst hf <;> decide +kernel
      · rintro x rfl
        rcases hc with hc | hc <;> cases hc)
    (by
      intro c hc
      simp only [exStarts, exSmall, List.mem_cons, List.not_mem_nil, or_false] at hc
      refine ⟨?_, ?_⟩
      · intro f hf q _ _ k hk
        have : k = 0 := by omega
        subst this
        rcases hc with rfl | rfl <;> simp [Comp.flows, Comp.inputs, Comp.outputs] at hf <;> subst hf <;> decide +kernel
      · intro q hq
        rcases hc with rfl | rfl <;> cases hq)
    (by
      intro k hk
      have : k = 0 ∨ k = 1 := by omega
      rcases this with rfl | rfl
      · obtain ⟨ok, h1, h2⟩ := builds_and_solves (σ := exStartsFirst) (r := systemModel (exDay.window 0 3) (exStarts.window 0 3 (exHanded (fun _ _ => 3) 0)))
          (f := fun o : SysOut => MTree.node o.solver.vars o.solver.cons []) (by decide +kernel)
        exact ⟨ok, h1, h2.1, h2.2.1⟩
      · obtain ⟨ok, h1, h2⟩ := builds_and_solves (σ := exStartsSecond) (r := systemModel (exDay.window 3 3) (exStarts.window 3 3 (exHanded (fun _ _ => 3) 1)))
          (f := fun o : SysOut => MTree.node o.solver.vars o.solver.cons []) (by decide +kernel)
        exact ⟨ok, h1, h2.1, h2.2.1⟩)
  refine ⟨τ, t1, ?_, ?_⟩
  · have := (t2 (.plain { label := "Gen", inputs := [], outputs := [exStartQ] }) (by simp [exStarts, exSmall])).2.flows exStartQ (by simp [Comp.flows, Comp.inputs, Comp.outputs]) _ rfl (by simp)
    have e : flowFull (Comp.plain { label := "Gen", inputs := [], outputs := [exStartQ] }).label exStartQ.label = "Gen__Q" := by decide +kernel
    rw [e] at this
    refine (List.map_congr_left fun t (ht : t ∈ List.range 6) => this t (List.mem_range.1 ht)).trans ?_
    decide +kernel
  · have := (t4 { label := "costs", isStandard := true, isObjective := true } (by simp [exStarts, exSmall])).1
    refine (List.map_congr_left fun t (ht : t ∈ List.range 6) => this t (List.mem_range.1 ht)).trans ?_
    decide +kernel

theorem exStarts_readable : ∀ c ∈ exStarts.comps, c.Readable exDay := by
  intro c hc
  simp only [exStarts, exSmall, List.mem_cons, List.not_mem_nil, or_false] at hc
  rcases hc with rfl | rfl
  · refine ⟨?_, fun q hq => by cases hq⟩
    intro f hf q _ _
    simp [Comp.flows, Comp.inputs, Comp.outputs] at hf
    subst hf
    refine ⟨10, rfl, by norm_num, fun t _ => ?_⟩
    simp [FlowData.lowRel, exStartQ, Num.at, exDay, exCfg]
    norm_num
  · refine ⟨?_, fun q hq => by cases hq⟩
    intro f hf q hq
    simp [Comp.flows, Comp.inputs, Comp.outputs] at hf
    subst hf
    cases hq

def exStartsSolver : SegSolver := knownSolver exStarts
  [⟨0, 3, exStarts.userRates, [], exStartsFirst⟩, ⟨3, 3, [.num (.s 3), .num (.s 3)], [], exStartsSecond⟩]

/-- The same as a run of the segmented calculation. -/
example : ∃ o, systemModel exDay exStarts = .ok o ∧ ∃ τ, o.solver.Solves τ ∧ (List.range 6).map (τ "Gen__Q_flow_rate") = [2, 0, 3, 3, 0, 1] := by
  obtain ⟨o, h⟩ : ∃ o, systemModel exDay exStarts = .ok o := builds (by decide +kernel)
  refine ⟨o, h, ?_⟩
  obtain ⟨c, hc⟩ : ∃ c, SegCalc.init exDay.n none 3 0 = .ok c := ⟨_, rfl⟩
  have ec : c = { L := 3, o := 0, total := 6 } := by cases hc; rfl
  subst ec
  obtain ⟨τ, t1, t2, -⟩ := C87_run_starts_partial exDay_valid (by simp [exDay, Num.Nonneg]) (by decide) exStarts_fits exStarts_proper exStarts_uncoupled exStarts_readable h
    (by decide +kernel) (by decide +kernel) hc (by decide) (by decide +kernel)
    (solver := exStartsSolver) (knownSolver_solves (by decide +kernel)) (by decide +kernel)
  refine ⟨τ, t1, ?_⟩
  obtain ⟨xss, x1, x2⟩ := t2 _ 0 rfl
  rw [series_of x1] at x2
  refine x2.symm.trans ?_
  decide +kernel

def exStartsWhole : Assignment := tableSol
  [("Gen__Q_flow_rate", [2, 0, 3, 3, 0, 1]), ("Gen__Q_sumFlowHours", [9]), ("Load__Q_flow_rate", [2, 0, 3, 3, 0, 1]), ("Load__Q_sumFlowHours", [9]),
   ("Gen__Q__OnOff_on", [1, 0, 1, 1, 0, 1]), ("Gen__Q__OnOff_totalOnHours", [4]), ("Gen__Q__OnOff_switchOn", [1, 0, 1, 0, 0, 1]),
   ("Gen__Q__OnOff_switchOff", [0, 1, 0, 0, 1, 0]), ("Gen__Q__OnOff_nrSwitchOn", [3]),
   ("costs__operation_operation_sum", [33]), ("costs__operation_operation_sum_TS", [9, 0, 11, 6, 0, 7]), ("costs__all_all_sum", [33]),
   ("costs__Gen__Q__switch_on_effects", [5, 0, 5, 0, 0, 5]), ("costs__Gen__Q__effects_per_flow_hour", [4, 0, 6, 6, 0, 2]), ("costs__operation", [33])]

/-- A case of C91 with costs of starts: the last three steps of the solution as a segment. -/
example : ∃ ok, systemModel (exDay.window 3 3) (exStarts.window 3 3 (exHanded (fun _ _ => 3) 1)) = .ok ok ∧ ∃ τ, ok.solver.Solves τ ∧
    (List.range 3).map (τ (startL "Gen__Q")) = [0, 0, 1] ∧ (List.range 3).map (τ (opTSL "costs")) = [6, 0, 7] := by
  obtain ⟨o, h, hs⟩ := builds_and_solves (σ := exStartsWhole) (r := systemModel exDay exStarts) (f := fun o : SysOut => MTree.node o.solver.vars o.solver.cons []) (by decide +kernel)
  obtain ⟨ok, hok⟩ : ∃ ok, systemModel (exDay.window 3 3) (exStarts.window 3 3 (exHanded (fun _ _ => 3) 1)) = .ok ok := builds (by decide +kernel)
  refine ⟨ok, hok, ?_⟩
  obtain ⟨τ, t1, t2, -, t4⟩ := C91_starts_partial exDay_valid (by simp [exDay, Num.Nonneg]) exStarts_fits exStarts_proper exStarts_uncoupled h
    (show o.solver.Solves exStartsWhole from ⟨hs.1, hs.2.1⟩) (a := 3) (k := 3) (by decide) (by decide)
    (by
      intro c hc
      simp only [exStarts, exSmall, List.mem_cons, List.not_mem_nil, or_false] at hc
      refine ⟨fun h => absurd h (by decide), fun h => absurd h (by decide), ?_, ?_⟩
      · intro _ f hf
        rcases hc with rfl | rfl <;> simp [Comp.flows, Comp.inputs, Comp.outputs] at hf <;> subst hf <;> decide +kernel
      · rintro _ x rfl
        rcases hc with hc | hc <;> cases hc)
    (by
      intro c hc
      simp only [exStarts, exSmall, List.mem_cons, List.not_mem_nil, or_false] at hc
      refine ⟨?_, ?_⟩
      · intro f hf q _ _ _
        rcases hc with rfl | rfl <;> simp [Comp.flows, Comp.inputs, Comp.outputs] at hf <;> subst hf <;> decide +kernel
      · intro q hq
        rcases hc with rfl | rfl <;> cases hq)
    (by
      rintro c hc x rfl
      simp [exStarts, exSmall] at hc) hok
  refine ⟨τ, t1, ?_, ?_⟩
  · have := (t2 (.plain { label := "Gen", inputs := [], outputs := [exStartQ] }) (by simp [exStarts, exSmall])).2.flows exStartQ (by simp [Comp.flows, Comp.inputs, Comp.outputs]) _ rfl (by simp)
    have e : flowFull (Comp.plain { label := "Gen", inputs := [], outputs := [exStartQ] }).label exStartQ.label = "Gen__Q" := by decide +kernel
    rw [e] at this
    refine (List.map_congr_left fun t (ht : t ∈ List.range 3) => this t (List.mem_range.1 ht)).trans ?_
    decide +kernel
  · have := (t4 { label := "costs", isStandard := true, isObjective := true } (by simp [exStarts, exSmall])).1
    refine (List.map_congr_left fun t (ht : t ∈ List.range 3) => this t (List.mem_range.1 ht)).trans ?_
    decide +kernel

/-! ## A component with two outlets of which the first one is running -/

def exTwinA : FlowData := { label := "A", bus := "heat", size := .num 1 }
def exTwinB : FlowData := { label := "B", bus := "heat", size := .num 1 }
def exTwinGen : CompData := { label := "Gen", inputs := [], outputs := [exTwinA, exTwinB], onOff := some ({ effectsPerSwitchOn := [("costs", .s 5)] } : OnOffParams) }
def exTwinLoad : FlowData := { label := "Q", bus := "heat", size := .num 1, fixedProfile := some (.s 1) }
def exTwin : System := exSmall [.plain exTwinGen, .plain { label := "Load", inputs := [exTwinLoad], outputs := [] }] none

def exTwinFirst : Assignment := tableSol
  [("Gen__A_flow_rate", [1, 1, 1]), ("Gen__A_sumFlowHours", [3]), ("Load__Q_flow_rate", [1, 1, 1]), ("Load__Q_sumFlowHours", [3]),
   ("Gen__OnOff_on", [1, 1, 1]), ("Gen__OnOff_totalOnHours", [3]), ("Gen__OnOff_switchOn", [1, 0, 0]), ("Gen__OnOff_nrSwitchOn", [1]),
   ("Gen__A__OnOff_on", [1, 1, 1]), ("Gen__A__OnOff_totalOnHours", [3]), ("Gen__A__OnOff_switchOn", [1, 0, 0]), ("Gen__A__OnOff_nrSwitchOn", [1]),
   ("costs__operation_operation_sum", [5]), ("costs__operation_operation_sum_TS", [5, 0, 0]), ("costs__all_all_sum", [5]),
   ("costs__Gen__switch_on_effects", [5, 0, 0]), ("costs__operation", [5])]

/-- The second segment pays for another start although the component never stops. -/
def exTwinSecond : Assignment := tableSol
  [("Gen__A_flow_rate", [1, 1, 1]), ("Gen__A_sumFlowHours", [3]), ("Load__Q_flow_rate", [1, 1, 1]), ("Load__Q_sumFlowHours", [3]),
   ("Gen__OnOff_on", [1, 1, 1]), ("Gen__OnOff_totalOnHours", [3]), ("Gen__OnOff_switchOn", [1, 0, 0]), ("Gen__OnOff_nrSwitchOn", [1]),
   ("Gen__A__OnOff_on", [1, 1, 1]), ("Gen__A__OnOff_totalOnHours", [3]),
   ("costs__operation_operation_sum", [5]), ("costs__operation_operation_sum_TS", [5, 0, 0]), ("costs__all_all_sum", [5]),
   ("costs__Gen__switch_on_effects", [5, 0, 0]), ("costs__operation", [5])]

theorem exTwin_gen_proper : exTwinGen.Proper exDay := by
  refine ⟨by decide, ?_, ?_, ?_, ?_⟩ <;> simp only [exTwinGen, exTwinA, exTwinB, List.nil_append, List.forall_mem_cons, List.not_mem_nil, false_imp_iff, implies_true, and_true]
  · refine ⟨?_, ?_⟩ <;> constructor <;> simp [Num.Fits, Num.isScalar]
  · refine ⟨⟨⟨by simp, by simp [exDay, exCfg]⟩, by decide +kernel, by simp⟩, ⟨⟨by simp, by simp [exDay, exCfg]⟩, by decide +kernel, by simp⟩⟩
  · refine ⟨?_, ?_⟩ <;> constructor <;> simp
  · rintro q ⟨⟩
    refine ⟨?_, ?_⟩
    · constructor <;> simp
    · simp [OnOffParams.NonnegLimits]

theorem exTwin_fits : exTwin.Fits exDay.n := by
  refine ⟨?_, ?_, ?_⟩
  · intro e he
    simp only [exTwin, exSmall, List.mem_cons, List.not_mem_nil, or_false] at he
    subst he
    refine ⟨?_, ?_, ?_, ?_⟩ <;> simp
  · intro c hc
    simp only [exTwin, exSmall, List.mem_cons, List.not_mem_nil, or_false] at hc
    rcases hc with rfl | rfl <;> refine ⟨?_, ?_, ?_⟩ <;> simp [Comp.flows, Comp.inputs, Comp.outputs, Comp.onOff, exTwinGen, exTwinA, exTwinB, exTwinLoad]
    · refine ⟨⟨?_, ?_, ?_⟩, ⟨?_, ?_, ?_⟩⟩ <;> simp [EffDict.Series]
    · refine ⟨?_, ?_⟩ <;> simp [EffDict.Series, Num.Fits, Num.isScalar]
    · refine ⟨?_, ?_, ?_⟩ <;> simp [EffDict.Series]
  · simp [exTwin, exSmall]

/-- **C87 fails** if starts of a component cost something: of the values handed over for its flows only that of the last flow counts, so that a segment
may take a running component for one that is off.  No solution of the whole horizon with the flow rates and states of the segments has their costs. -/
theorem C87_starts_wrong : ∃ o σ st, systemModel exDay exTwin = .ok o ∧ Cover exDay.n 3 2 (fun _ => 3) ∧ (∀ c ∈ exTwin.comps, c.Handed 3 2 σ st) ∧
    (∀ k < 2, ∃ ok, systemModel (exDay.window (k * 3) 3) (exTwin.window (k * 3) 3 (st k)) = .ok ok ∧ ok.solver.Solves (σ k)) ∧
    σ 1 (opTSL "costs") 0 = 5 ∧ ∀ τ, o.solver.Solves τ → (∀ c ∈ exTwin.comps, c.Takes exDay.n 3 2 σ τ) → τ (opTSL "costs") 3 = 0 := by
  obtain ⟨o, h⟩ : ∃ o, systemModel exDay exTwin = .ok o := builds (by decide +kernel)
  refine ⟨o, exTwo exTwinFirst exTwinSecond, exHanded fun _ f => if f = "B" then 0 else 1, h, exDay_cover, ?_, ?_, by decide +kernel, ?_⟩
  · intro c hc
    simp only [exTwin, exSmall, List.mem_cons, List.not_mem_nil, or_false] at hc
    refine ⟨?_, ?_, ?_, ?_⟩
    · intro f hf
      rcases hc with rfl | rfl
      · simp [Comp.flows, Comp.inputs, Comp.outputs, exTwinGen] at hf
        rcases hf with rfl | rfl <;> rfl
      · simp [Comp.flows, Comp.inputs, Comp.outputs] at hf
        subst hf
        rfl
    · rintro x rfl
      rcases hc with hc | hc <;> cases hc
    · intro k hk f hf
      have : k = 0 := by omega
      subst this
      rcases hc with rfl | rfl
      · simp [Comp.flows, Comp.inputs, Comp.outputs, exTwinGen] at hf
        rcases hf with rfl | rfl <;> decide +kernel
      · simp [Comp.flows, Comp.inputs, Comp.outputs] at hf
        subst hf
        decide +kernel
    · rintro x rfl
      rcases hc with hc | hc <;> cases hc
  · intro k hk
    have : k = 0 ∨ k = 1 := by omega
    rcases this with rfl | rfl
    · obtain ⟨ok, h1, h2⟩ := builds_and_solves (σ := exTwinFirst) (r := systemModel (exDay.window 0 3) (exTwin.window 0 3 (exHanded (fun _ f => if f = "B" then 0 else 1) 0)))
        (f := fun o : SysOut => MTree.node o.solver.vars o.solver.cons []) (by decide +kernel)
      exact ⟨ok, h1, h2.1, h2.2.1⟩
    · obtain ⟨ok, h1, h2⟩ := builds_and_solves (σ := exTwinSecond) (r := systemModel (exDay.window 3 3) (exTwin.window 3 3 (exHanded (fun _ f => if f = "B" then 0 else 1) 1)))
        (f := fun o : SysOut => MTree.node o.solver.vars o.solver.cons []) (by decide +kernel)
      exact ⟨ok, h1, h2.1, h2.2.1⟩
  · intro τ hs ht
    have hmem : Comp.plain exTwinGen ∈ exTwin.comps := by simp [exTwin, exSmall]
    obtain ⟨oc, hoc, hm⟩ := forall₂_mem_left (system_inv h).1 hmem
    have hst := anyComp_starts exDay_valid (c := .plain exTwinGen) exTwin_gen_proper hm (((system_solves h _).1 hs).2.1 oc hoc)
    obtain ⟨hist, -, last, -, hstart⟩ := hst.starts (by simp [Comp.onOff, exTwinGen])
    have hon := (ht _ hmem).on (by simp [Comp.onOff, exTwinGen])
    have h3 : τ (startL "Gen") 3 = 0 := by
      have := hstart 3 (by decide)
      rw [if_neg] at this
      · exact this
      · rintro ⟨h0, -⟩
        have e : τ (stateL "Gen") 2 = 1 := by
          have := hon 2 (by decide)
          exact this.trans (by decide +kernel)
        have h0 : τ (stateL "Gen") 2 = 0 := h0
        rw [e] at h0
        norm_num at h0
    have := (solution_totals exDay_valid (by decide) exTwin_fits h hs).1 { label := "costs", isStandard := true, isObjective := true } (by simp [exTwin, exSmall])
    have := this.1 3 (by decide)
    simp [System.opOf, exTwin, exSmall, Comp.operation, Comp.flows, Comp.inputs, Comp.outputs, Comp.onOff, Comp.label, exTwinGen, exTwinA, exTwinB, exTwinLoad, flowOperation, onOffOperation,
      effVal, names] at this
    rw [show startL "Gen" = "Gen__OnOff_switchOn" by decide +kernel] at h3
    rw [this, h3, mul_zero]

end Flix
