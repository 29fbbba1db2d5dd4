import Verif.Props.WindowEx

/-! # C87: numbers of starts and sizes are not handed over either -/

namespace Flix

/-- A source that runs twice, and a load that may be switched on once. -/
def exPulseQ : FlowData := { label := "Q", bus := "heat", size := .num 1, fixedProfile := some (.v [1, 1, 0, 0, 1, 1]) }
def exPulse : CompData := { label := "Gen", inputs := [], outputs := [exPulseQ] }

def exOnceQ : FlowData := { label := "Q", bus := "heat", size := .num 1, onOff := some ({ switchOnTotalMax := some 1 } : OnOffParams) }
def exOnceLoad : CompData := { label := "Load", inputs := [exOnceQ], outputs := [] }

def exOnce : System := exSmall [.plain exPulse, .plain exOnceLoad] none

def exOnceSegs : List KnownSeg :=
  [⟨0, 3, exOnce.userRates, [], tableSol [("Gen__Q_flow_rate", [1, 1, 0]), ("Gen__Q_sumFlowHours", [2]), ("Load__Q_flow_rate", [1, 1, 0]), ("Load__Q_sumFlowHours", [2]),
      ("Load__Q__OnOff_on", [1, 1, 0]), ("Load__Q__OnOff_totalOnHours", [2]), ("Load__Q__OnOff_switchOn", [1, 0, 0]), ("Load__Q__OnOff_switchOff", [0, 0, 1]),
      ("Load__Q__OnOff_nrSwitchOn", [1])]⟩,
   ⟨3, 3, [.num (.s 0), .num (.s 0)], [], tableSol [("Gen__Q_flow_rate", [0, 1, 1]), ("Gen__Q_sumFlowHours", [2]), ("Load__Q_flow_rate", [0, 1, 1]), ("Load__Q_sumFlowHours", [2]),
      ("Load__Q__OnOff_on", [0, 1, 1]), ("Load__Q__OnOff_totalOnHours", [2]), ("Load__Q__OnOff_switchOn", [0, 1, 0]), ("Load__Q__OnOff_nrSwitchOn", [1])]⟩]

/-- **C87 fails** with a limit on the number of starts: every segment counts its own. -/
theorem C87_count_wrong : ∃ o c solver, systemModel exDay exOnce = .ok o ∧ SegCalc.init exDay.n none 3 0 = .ok c ∧ exOnce.SolvedBy exDay solver ∧
    (c.solveAll solver (SegState.start exOnce.userRates exOnce.userCharges)).2 = none ∧ ∀ τ, ¬ o.solver.Solves τ := by
  obtain ⟨o, h⟩ : ∃ o, systemModel exDay exOnce = .ok o := builds (by decide +kernel)
  refine ⟨o, _, _, h, rfl, knownSolver_solves (known := exOnceSegs) (by decide +kernel), by decide +kernel, fun τ hs => ?_⟩
  have hpl : exOnceLoad.Proper exDay := by
    refine ⟨by decide, ?_, ?_, ?_, by simp [exOnceLoad]⟩ <;> simp only [exOnceLoad, exOnceQ, List.append_nil, List.forall_mem_cons, List.not_mem_nil, false_imp_iff, implies_true, and_true]
    · constructor <;> simp [Num.Fits, exDay, Num.isScalar]
      constructor <;> simp
    · exact ⟨⟨by simp, by simp [exDay, exCfg]⟩, by decide +kernel, by simp⟩
    · refine ⟨?_, by simp⟩
      rintro q ⟨⟩ m hm t _
      simp at hm
  have hps : exPulse.Proper exDay := by
    refine ⟨by decide, ?_, ?_, ?_, by simp [exPulse]⟩ <;> simp only [exPulse, exPulseQ, List.nil_append, List.forall_mem_cons, List.not_mem_nil, false_imp_iff, implies_true, and_true]
    · constructor <;> simp [Num.Fits, exDay, Num.isScalar, Num.len]
    · exact ⟨⟨by simp, by simp [exDay, exCfg]⟩, by decide +kernel, by simp⟩
    · constructor <;> simp
  obtain ⟨os, hos, hms⟩ := forall₂_mem_left (system_inv h).1 (by simp [exOnce, exSmall] : Comp.plain exPulse ∈ exOnce.comps)
  obtain ⟨oc, hoc, hm⟩ := forall₂_mem_left (system_inv h).1 (by simp [exOnce, exSmall] : Comp.plain exOnceLoad ∈ exOnce.comps)
  obtain ⟨ps, has, hrs⟩ := C82_plain_sound exDay_valid hps hms (((system_solves h _).1 hs).2.1 os hos)
  obtain ⟨p, ha, hr⟩ := C82_plain_sound exDay_valid hpl hm (((system_solves h _).1 hs).2.1 oc hoc)
  have hf := (ha.flows exOnceQ (by simp [exOnceLoad])).follows
  have hg := (has.flows exPulseQ (by simp [exPulse])).follows
  have bus := (C27_system exDay_valid h hs (by simp [exOnce, exSmall]; rfl)).1 rfl
  have hd : (exOnceLoad.declared exOnceQ).onOff = some ({ switchOnTotalMax := some 1 } : OnOffParams) := by decide +kernel
  have hrate : ∀ t < 6, (p.flow exOnceQ.label).r t = (Num.v [1, 1, 0, 0, 1, 1]).at t := by
    intro t ht
    have e : τ (rateL exPulse.label exPulseQ.label) t = τ (rateL exOnceLoad.label exOnceQ.label) t := by
      have := bus t ht
      simpa [fedInto, takenFrom, exOnce, exSmall, Comp.inputs, Comp.outputs, exPulse, exOnceLoad, exPulseQ, exOnceQ, Comp.label, rateL] using this
    have r1 := hr.rate exOnceQ (by simp [exOnceLoad])
    have r2 := hrs.rate exPulseQ (by simp [exPulse])
    obtain ⟨g1, g2⟩ := hg.always rfl t ht
    rw [r1, r2] at e
    rw [← e]
    simp [FlowData.lowRel, FlowData.highRel, CompData.declared, exPulse, exPulseQ, FlowPlan.capacity] at g1 g2 ⊢
    linarith
  have hb : ∀ t < 6, (p.flow exOnceQ.label).b t = (Num.v [1, 1, 0, 0, 1, 1]).at t := by
    intro t ht
    have h1 := hrate t ht
    rcases hf.running (by simp [CompData.declared, exOnceQ]) t ht with ⟨b0, r0⟩ | ⟨b1, r1, _⟩
    · rw [b0, ← h1, r0]
    · rw [b1]
      rw [h1] at r1
      have : exDay.cfg.eps = exCfg.eps := rfl
      interval_cases t <;> simp [Num.at, this, exCfg] at r1 ⊢ <;> norm_num at r1
  obtain ⟨_, last, hlast, hsch⟩ := hf.schedule _ hd
  have hl0 : last = 0 := by
    have e : (flowHistory exDay.cfg.eps (exOnceLoad.declared exOnceQ).previousFlowRate).getLast? = some 0 := by decide +kernel
    rw [e] at hlast
    cases hlast
    rfl
  subst hl0
  have hst := hsch.starts 1 rfl
  have hsub : ({0, 4} : Finset Nat) ⊆ startSteps (p.flow exOnceQ.label).b 0 exDay.n := by
    intro t ht
    simp only [Finset.mem_insert, Finset.mem_singleton] at ht
    unfold startSteps
    rw [Finset.mem_filter, Finset.mem_range]
    rcases ht with rfl | rfl
    · exact ⟨by decide, rfl, hb 0 (by decide)⟩
    · exact ⟨by decide, hb 3 (by decide), hb 4 (by decide)⟩
  have hcard := Finset.card_le_card hsub
  have e2 : ({0, 4} : Finset Nat).card = 2 := by decide
  rw [e2] at hcard
  have : (2 : ℚ) ≤ ((startSteps (p.flow exOnceQ.label).b 0 exDay.n).card : ℚ) := by exact_mod_cast hcard
  have hst : ((startSteps (p.flow exOnceQ.label).b 0 exDay.n).card : ℚ) ≤ 1 := hst
  linarith

/-- A load whose size is to be decided and that always runs at full size. -/
def exSizeQ : FlowData := { label := "Q", bus := "heat", size := .invest { maximumSize := some 10 }, fixedProfile := some (.s 1) }
def exSizeLoad : CompData := { label := "Load", inputs := [exSizeQ], outputs := [] }
def exSizeGen : CompData := { label := "Gen", inputs := [], outputs := [{ label := "Q", bus := "heat", size := .num 10 }] }
def exSize : System := exSmall [.plain exSizeGen, .plain exSizeLoad] none

def exSizeSegs : List KnownSeg :=
  [⟨0, 3, exSize.userRates, [], tableSol [("Gen__Q_flow_rate", [3, 3, 3]), ("Gen__Q_sumFlowHours", [9]), ("Load__Q_flow_rate", [3, 3, 3]), ("Load__Q_sumFlowHours", [9]),
      ("Load__Q__Investment_size", [3]), ("Load__Q__Investment_isInvested", [1])]⟩,
   ⟨3, 3, [.num (.s 3), .num (.s 3)], [], tableSol [("Gen__Q_flow_rate", [5, 5, 5]), ("Gen__Q_sumFlowHours", [15]), ("Load__Q_flow_rate", [5, 5, 5]), ("Load__Q_sumFlowHours", [15]),
      ("Load__Q__Investment_size", [5]), ("Load__Q__Investment_isInvested", [1])]⟩]

/-- **C87 fails** with an investment decision: every segment decides on a size of its own, so that no solution of the whole horizon has the combined
flow rates. -/
theorem C87_size_wrong : ∃ o c solver, systemModel exDay exSize = .ok o ∧ SegCalc.init exDay.n none 3 0 = .ok c ∧ exSize.SolvedBy exDay solver ∧
    (c.solveAll solver (SegState.start exSize.userRates exSize.userCharges)).2 = none ∧
    (∃ q, exSize.flowItems[1]? = some q ∧ ∀ τ, o.solver.Solves τ → ∀ xss,
      List.Forall₂ (fun a xs => ∃ r, a.res = some r ∧ r.flowRates[1]? = some xs) (c.solveAll solver (SegState.start exSize.userRates exSize.userCharges)).1.subs xss →
      concatLimited 3 xss ≠ (List.range exDay.n).map (τ (rateL q.1.label q.2.label))) := by
  obtain ⟨o, h⟩ : ∃ o, systemModel exDay exSize = .ok o := builds (by decide +kernel)
  refine ⟨o, { L := 3, o := 0, total := 6 }, knownSolver exSize exSizeSegs, h, rfl, knownSolver_solves (by decide +kernel), by decide +kernel, _, rfl, fun τ hs xss hx he => ?_⟩
  rw [series_of hx] at he
  have hval : concatLimited 3 (((⟨3, 0, 6⟩ : SegCalc).solveAll (knownSolver exSize exSizeSegs) (SegState.start exSize.userRates exSize.userCharges)).1.subs.map
      fun a => a.res.elim [] fun r => r.flowRates.getD 1 []) = [3, 3, 3, 5, 5, 5] := by decide +kernel
  have he := hval.symm.trans he
  have h0 : τ (rateL "Load" "Q") 0 = 3 := by
    have := congrArg (fun l : List ℚ => l[0]?) he
    simp [exDay, List.range_succ] at this
    exact this.symm
  have h3 : τ (rateL "Load" "Q") 3 = 5 := by
    have := congrArg (fun l : List ℚ => l[3]?) he
    simp [exDay, List.range_succ] at this
    exact this.symm
  have hp : exSizeLoad.Proper exDay := by
    refine ⟨by decide, ?_, ?_, ?_, by simp [exSizeLoad]⟩ <;> simp only [exSizeLoad, exSizeQ, List.append_nil, List.forall_mem_cons, List.not_mem_nil, false_imp_iff, implies_true, and_true]
    · constructor <;> simp [Num.Fits, exDay, Num.isScalar]
    · refine ⟨⟨by simp, by simp [exDay, exCfg]⟩, by decide +kernel, ?_⟩
      rintro q ⟨⟩
      refine ⟨?_, ?_, ?_⟩
      · constructor <;> simp
      · constructor <;> simp [exDay, exCfg]
      · simp
    · constructor <;> simp [InvestParams.segEffects]
  obtain ⟨oc, hoc, hm⟩ := forall₂_mem_left (system_inv h).1 (by simp [exSize, exSmall] : Comp.plain exSizeLoad ∈ exSize.comps)
  obtain ⟨p, ha, hr⟩ := C82_plain_sound exDay_valid hp hm (((system_solves h _).1 hs).2.1 oc hoc)
  have hprof := ((ha.flows exSizeQ (by simp [exSizeLoad])).invests _ rfl).profile (.s 1) rfl
  have r1 := hr.rate exSizeQ (by simp [exSizeLoad])
  have p0 := hprof 0 (by decide)
  have p3 := hprof 3 (by decide)
  have q0 := (congrFun r1 0).symm.trans h0
  have q3 := (congrFun r1 3).symm.trans h3
  rw [q0] at p0
  rw [q3] at p3
  simp only [Num.at] at p0 p3
  linarith

end Flix
