import Verif.Props.Cut
import Verif.Props.WindowEx

/-! # C91: an example, and an optimal segment that makes the next one impossible -/

namespace Flix

/-- An operation of the six hours: 2 are stored in the first half and used in the second. -/
def exDayWhole : Assignment := tableSol
  [("Gen__Q_flow_rate", [3, 4, 4, 0, 4, 2]), ("Gen__Q_sumFlowHours", [17]), ("Load__Q_flow_rate", [2, 4, 3, 1, 5, 2]), ("Load__Q_sumFlowHours", [17]),
   ("Tank__in_flow_rate", [1, 0, 1, 0, 0, 0]), ("Tank__in_sumFlowHours", [2]), ("Tank__in__OnOff_on", [1, 0, 1, 0, 0, 0]), ("Tank__in__OnOff_totalOnHours", [2]),
   ("Tank__in__OnOff_switchOn", [1, 0, 1, 0, 0, 0]), ("Tank__in__OnOff_switchOff", [0, 1, 0, 1, 0, 0]), ("Tank__in__OnOff_nrSwitchOn", [2]),
   ("Tank__out_flow_rate", [0, 0, 0, 1, 1, 0]), ("Tank__out_sumFlowHours", [2]), ("Tank__out__OnOff_on", [0, 0, 0, 1, 1, 0]), ("Tank__out__OnOff_totalOnHours", [2]),
   ("Tank__out__OnOff_switchOn", [0, 0, 0, 1, 0, 0]), ("Tank__out__OnOff_switchOff", [0, 0, 0, 0, 0, 1]), ("Tank__out__OnOff_nrSwitchOn", [1]),
   ("Tank_charge_state", [0, 1, 1, 2, 1, 0, 0]), ("Tank_netto_discharge", [-1, 0, -1, 1, 1, 0]),
   ("costs__operation_operation_sum", [46]), ("costs__operation_operation_sum_TS", [6, 8, 12, 0, 16, 4]), ("costs__all_all_sum", [46]),
   ("costs__Gen__Q__effects_per_flow_hour", [6, 8, 12, 0, 16, 4]), ("costs__operation", [46])]

/-- A case of C91: the second half of the six hours, with the values of the step before. -/
example : ∃ ok τ, systemModel (exDay.window 3 3) (exDaySystem.window 3 3 (exDaySystem.segStart exHandedRates [.num (.s 2)])) = .ok ok ∧ ok.solver.Solves τ ∧
    (List.range 3).map (τ "Gen__Q_flow_rate") = [0, 4, 2] ∧ (List.range 4).map (τ "Tank_charge_state") = [2, 1, 0, 0] ∧
    (List.range 3).map (τ "costs__operation_operation_sum_TS") = [0, 16, 4] := by
  obtain ⟨o, h1, h2⟩ := builds_and_solves (σ := exDayWhole) (r := systemModel exDay exDaySystem) (f := fun o : SysOut => MTree.node o.solver.vars o.solver.cons []) (by decide +kernel)
  obtain ⟨ok, hok⟩ : ∃ ok, systemModel (exDay.window 3 3) (exDaySystem.window 3 3 (exDaySystem.segStart exHandedRates [.num (.s 2)])) = .ok ok := builds (by decide +kernel)
  have hb : ∀ c ∈ exDaySystem.comps, c.Begins 3 exDayWhole (exDaySystem.segStart exHandedRates [.num (.s 2)]) := by
    intro c hc
    simp only [exDaySystem, List.mem_cons, List.not_mem_nil, or_false] at hc
    rcases hc with rfl | rfl | rfl
    all_goals refine ⟨fun h => absurd h (by decide), fun h => absurd h (by decide), fun _ f hf => ?_, fun _ x hx => ?_⟩
    · simp only [Comp.flows, Comp.inputs, Comp.outputs, List.nil_append, List.mem_singleton] at hf
      subst hf
      decide +kernel
    · cases hx
    · simp only [Comp.flows, Comp.inputs, Comp.outputs, List.cons_append, List.nil_append, List.mem_cons, List.not_mem_nil, or_false] at hf
      rcases hf with rfl | rfl <;> decide +kernel
    · cases hx
      decide +kernel
    · simp only [Comp.flows, Comp.inputs, Comp.outputs, List.append_nil, List.mem_singleton] at hf
      subst hf
      decide +kernel
    · cases hx
  obtain ⟨τ, t1, t2, _, t4⟩ := C91_partial exDay_valid (by simp [exDay, Num.Nonneg]) exDay_fits exDay_proper exDay_local h1 ⟨h2.1, h2.2.1⟩ (a := 3) (k := 3) (by decide) (by decide) hb (by
    intro c hc x hx
    subst hx
    simp only [exDaySystem, List.mem_cons, List.not_mem_nil, or_false] at hc
    rcases hc with h | h | h
    · cases h
    · cases h; exact .inl ⟨rfl, rfl⟩
    · cases h) hok
  refine ⟨ok, τ, hok, t1, ?_, ?_, ?_⟩
  · have := fun t ht => (t2 (.plain { label := "Gen", inputs := [], outputs := [exGenFlow] }) (by simp [exDaySystem])).rate exGenFlow (by simp [Comp.flows, Comp.inputs, Comp.outputs]) t ht
    rw [show rateL (Comp.plain { label := "Gen", inputs := [], outputs := [exGenFlow] }).label exGenFlow.label = "Gen__Q_flow_rate" by decide +kernel] at this
    rw [List.map_congr_left (g := fun t => exDayWhole "Gen__Q_flow_rate" (3 + t)) fun t ht => this t (List.mem_range.1 ht)]
    decide +kernel
  · have := fun t ht => (t2 (.storage exDayTank) (by simp [exDaySystem])).charge exDayTank rfl t ht
    rw [show chargeStateL exDayTank.label = "Tank_charge_state" by decide +kernel] at this
    rw [List.map_congr_left (g := fun t => exDayWhole "Tank_charge_state" (3 + t)) fun t ht => this t (by have := List.mem_range.1 ht; omega)]
    decide +kernel
  · have := (t4 { label := "costs", isStandard := true, isObjective := true } (by simp [exDaySystem])).1
    rw [show opTSL ({ label := "costs", isStandard := true, isObjective := true } : EffectData).label = "costs__operation_operation_sum_TS" by decide +kernel] at this
    rw [List.map_congr_left (g := fun t => exDayWhole "costs__operation_operation_sum_TS" (3 + t)) fun t ht => this t (List.mem_range.1 ht)]
    decide +kernel

/-! ## An optimal segment can make the next one impossible -/

/-- A store with a content of 3, somebody who pays 1 for every unit, and a load of 1 in the second half. -/
def exGreedyTank : StorageData := { exDayTank with initial := .num 3 }
def exSellQ : FlowData := { label := "Q", bus := "heat", size := .num 1, effectsPerFlowHour := [("costs", .s (-1))] }
def exSell : CompData := { label := "Sell", inputs := [exSellQ], outputs := [] }
def exLateQ : FlowData := { label := "Q", bus := "heat", size := .num 1, fixedProfile := some (.v [0, 0, 0, 1, 1, 1]) }
def exLate : CompData := { label := "Load", inputs := [exLateQ], outputs := [] }

def exGreedy : System := exSmall [.storage exGreedyTank, .plain exSell, .plain exLate] none

/-- Nothing is sold. -/
def exGreedyWhole : Assignment := tableSol
  [("Load__Q_flow_rate", [0, 0, 0, 1, 1, 1]), ("Load__Q_sumFlowHours", [3]), ("Tank__out_flow_rate", [0, 0, 0, 1, 1, 1]), ("Tank__out_sumFlowHours", [3]),
   ("Tank__out__OnOff_on", [0, 0, 0, 1, 1, 1]), ("Tank__out__OnOff_totalOnHours", [3]), ("Tank__out__OnOff_switchOn", [0, 0, 0, 1, 0, 0]),
   ("Tank__out__OnOff_nrSwitchOn", [1]), ("Tank_charge_state", [3, 3, 3, 3, 2, 1, 0]), ("Tank_netto_discharge", [0, 0, 0, 1, 1, 1])]

/-- The best that can be done in the first half: everything is sold. -/
def exGreedyFirst : Assignment := tableSol
  [("Sell__Q_flow_rate", [1, 1, 1]), ("Sell__Q_sumFlowHours", [3]), ("Tank__out_flow_rate", [1, 1, 1]), ("Tank__out_sumFlowHours", [3]),
   ("Tank__out__OnOff_on", [1, 1, 1]), ("Tank__out__OnOff_totalOnHours", [3]), ("Tank__out__OnOff_switchOn", [1, 0, 0]),
   ("Tank__out__OnOff_nrSwitchOn", [1]), ("Tank_charge_state", [3, 2, 1, 0]), ("Tank_netto_discharge", [1, 1, 1]),
   ("costs__operation_operation_sum", [-3]), ("costs__operation_operation_sum_TS", [-1, -1, -1]), ("costs__all_all_sum", [-3]),
   ("costs__Sell__Q__effects_per_flow_hour", [-1, -1, -1]), ("costs__operation", [-3])]

/-- A successful segment is an optimal solution of the model of its steps (`SolvedBy` with an optimum). -/
def System.SolvedBest (sys : Sys) (s : System) (solver : SegSolver) : Prop :=
  ∀ i idx fs ss, (solver i idx fs ss).1 = none → fs.length = s.flowItems.length ∧ ss.length = s.storeItems.length ∧
    ∃ (a k : Nat) (ok : SysOut) (σ : Assignment) (r : SegRes) (terms : List (ℚ × String × ℕ)), idx = pyRange (a : Int) ((a + k : Nat) : Int) ∧
      systemModel (sys.window a k) (s.window a k (s.segStart fs ss)) = .ok ok ∧ ok.solver.Solves σ ∧
      objectiveTerms ok.solver.objective = .ok terms ∧ (∀ τ, ok.solver.Solves τ → termsVal σ terms ≤ termsVal τ terms) ∧ (solver i idx fs ss).2 = some r ∧
      r.flowRates = (s.flowItems.map fun q => (List.range k).map (σ (rateL q.1.label q.2.label))) ∧
      r.charges = (s.storeItems.map fun q => (List.range (k + 1)).map (σ (chargeStateL q.label)))

theorem SolvedBest.solved {sys : Sys} {s : System} {solver : SegSolver} (h : s.SolvedBest sys solver) : s.SolvedBy sys solver := by
  intro i idx fs ss hr
  obtain ⟨h1, h2, a, k, ok, σ, r, _, h3, h4, h5, _, _, h6, h7, h8⟩ := h i idx fs ss hr
  exact ⟨h1, h2, a, k, ok, σ, r, h3, h4, h5, h6, h7, h8⟩

theorem exGreedy_flows : (∀ f ∈ [exSellQ, exLateQ, exGreedyTank.charging, exGreedyTank.discharging], f.Fits exDay.n ∧ f.Sensible exDay.cfg exDay.n ∧ f.Proper exDay.n ∧ f.Local) := by
  simp only [List.forall_mem_cons, List.not_mem_nil, false_imp_iff, implies_true, and_true]
  refine ⟨⟨?_, ⟨?_, ?_, ?_⟩, ?_, ?_⟩, ⟨?_, ⟨?_, ?_, ?_⟩, ?_, ?_⟩, ⟨?_, ⟨?_, ?_, ?_⟩, ?_, ?_⟩, ⟨?_, ⟨?_, ?_, ?_⟩, ?_, ?_⟩⟩
  all_goals first
    | (constructor <;> simp [exSellQ, exLateQ, exGreedyTank, exDayTank, Num.Fits, Num.len, Num.isScalar, exDay, exCfg, InvestParams.segEffects, FlowData.lowRel, FlowData.highRel]; done)
    | decide +kernel
    | (intro q hq; cases hq)

theorem exGreedy_proper : ∀ c ∈ exGreedy.comps, c.Proper exDay := by
  have h := exGreedy_flows
  simp only [List.forall_mem_cons, List.not_mem_nil, false_imp_iff, implies_true, and_true] at h
  obtain ⟨g, d, i, u⟩ := h
  intro c hc
  simp only [exGreedy, exSmall, List.mem_cons, List.not_mem_nil, or_false] at hc
  rcases hc with rfl | rfl | rfl
  · refine ⟨⟨by decide +kernel, ?_, ?_, ?_, by simp [StorageData.comp]⟩, ?_, ?_, ?_⟩
    · intro f hf; simp [StorageData.comp] at hf; rcases hf with rfl | rfl; exacts [i.1, u.1]
    · intro f hf; simp [StorageData.comp] at hf; rcases hf with rfl | rfl; exacts [i.2.1, u.2.1]
    · intro f hf; simp [StorageData.comp] at hf; rcases hf with rfl | rfl; exacts [i.2.2.1, u.2.2.1]
    · constructor <;> simp [exGreedyTank, exDayTank, Num.Fits, Num.isScalar]
    · intro t _; simp [exGreedyTank, exDayTank, Num.at]
    · intro q hq; cases hq
  · exact ⟨by decide, by simpa [exSell] using g.1, by simpa [exSell] using g.2.1, by simpa [exSell] using g.2.2.1, by simp [exSell]⟩
  · exact ⟨by decide, by simpa [exLate] using d.1, by simpa [exLate] using d.2.1, by simpa [exLate] using d.2.2.1, by simp [exLate]⟩

theorem exGreedy_local : exGreedy.Local := by
  have h := exGreedy_flows
  simp only [List.forall_mem_cons, List.not_mem_nil, false_imp_iff, implies_true, and_true] at h
  obtain ⟨g, d, i, u⟩ := h
  refine ⟨?_, ?_, by simp [exGreedy, exSmall]⟩
  · intro c hc
    simp only [exGreedy, exSmall, List.mem_cons, List.not_mem_nil, or_false] at hc
    rcases hc with rfl | rfl | rfl
    · refine ⟨⟨?_, by simp [StorageData.comp]⟩, ?_, by decide, by simp [exGreedyTank, exDayTank]⟩
      · intro f hf; simp [StorageData.comp] at hf; rcases hf with rfl | rfl; exacts [i.2.2.2, u.2.2.2]
      · intro q hq; cases hq
    · exact ⟨by simpa [exSell] using g.2.2.2, by simp [exSell]⟩
    · exact ⟨by simpa [exLate] using d.2.2.2, by simp [exLate]⟩
  · unfold System.FreeStarts
    simp [exGreedy, exSmall, Comp.flows, Comp.inputs, Comp.outputs, Comp.onOff, exSell, exSellQ, exLate, exLateQ, exGreedyTank, exDayTank]

theorem exGreedy_fits : exGreedy.Fits exDay.n := by
  refine ⟨?_, ?_, ?_⟩
  · intro e he
    simp only [exGreedy, exSmall, List.mem_cons, List.not_mem_nil, or_false] at he
    subst he
    refine ⟨?_, ?_, ?_, ?_⟩ <;> simp
  · intro c hc
    simp only [exGreedy, exSmall, List.mem_cons, List.not_mem_nil, or_false] at hc
    rcases hc with rfl | rfl | rfl <;> refine ⟨?_, ?_, ?_⟩ <;> simp [Comp.flows, Comp.inputs, Comp.outputs, Comp.onOff, exSell, exSellQ, exLate, exLateQ, exGreedyTank, exDayTank]
    · refine ⟨⟨?_, ?_, ?_⟩, ⟨?_, ?_, ?_⟩⟩ <;> simp [EffDict.Series]
    · rintro s q rfl hq
      cases hq
    · refine ⟨?_, by simp, by simp⟩
      simp [EffDict.Series, Num.Fits, Num.isScalar]
    · refine ⟨?_, ?_, ?_⟩ <;> simp [EffDict.Series]
  · simp [exGreedy, exSmall]

/-- What the first half costs. -/
theorem exGreedy_cost {st : SegStart} {ok : SysOut} (h : systemModel (exDay.window 0 3) (exGreedy.window 0 3 st) = .ok ok) {terms : List (ℚ × String × ℕ)}
    (ht : objectiveTerms ok.solver.objective = .ok terms) {σ : Assignment} (hs : ok.solver.Solves σ) :
    termsVal σ terms = -(σ "Sell__Q_flow_rate" 0 + σ "Sell__Q_flow_rate" 1 + σ "Sell__Q_flow_rate" 2) ∧ ∀ t < 3, σ "Sell__Q_flow_rate" t ≤ 1 := by
  have hv := valid_window (a := 0) (len := 3) exDay_valid (by decide)
  have hf : (exGreedy.window 0 3 st).Fits 3 := window_fits exGreedy_fits st (by decide)
  constructor
  · obtain ⟨terms', e, h1, h2, h3⟩ := solution_cost hv (by decide) hf h
    rw [ht] at h1
    cases h1
    have he : e ∈ (exGreedy.window 0 3 st).effects := List.mem_of_find?_eq_some h2
    obtain ⟨p, _⟩ := C21_system_operation hv (by decide) hf h hs he
    obtain ⟨i, _⟩ := C21_system_invest hv (by decide) hf h hs he
    rw [h3 σ hs]
    have e1 : (exGreedy.window 0 3 st).effects = exGreedy.effects := by
      simp [exGreedy, exSmall, System.window, EffectData.window]
    rw [e1] at he p i
    simp only [exGreedy, exSmall, List.mem_cons, List.not_mem_nil, or_false] at he
    subst he
    have p0 := p 0 (by decide); have p1 := p 1 (by decide); have p2 := p 2 (by decide)
    unfold System.cost
    have e2 : (exDay.window 0 3).n = 3 := rfl
    have w0 : (exDay.window 0 3).width 0 = 1 := rfl
    have w1 : (exDay.window 0 3).width 1 = 1 := rfl
    have w2 : (exDay.window 0 3).width 2 = 1 := rfl
    have nm : names [({ label := "costs", isStandard := true, isObjective := true } : EffectData)] "costs" (some "costs") := by decide +kernel
    have ev : ∀ t, effVal [({ label := "costs", isStandard := true, isObjective := true } : EffectData)] [(some "costs", .s (-1))] "costs" t = -1 := by
      intro t
      simp [effVal, nm, Num.at]
    have ev0 : ∀ es l t, effVal es [] l t = 0 := fun es l t => by simp [effVal]
    simp only [e2, Finset.sum_range_succ, Finset.sum_range_zero, p0, p1, p2, i]
    simp [exGreedy, exSmall, System.window, BusData.window, BusData.penaltyCost, Comp.window, StorageData.window, CompData.window, FlowData.window, Comp.operation, Comp.investment,
      Comp.flows, Comp.inputs, Comp.outputs, Comp.onOff, Comp.label, exSell, exSellQ, exLate, exLateQ, exGreedyTank, exDayTank, fromOthersOp, fromOthersInv, flowOperation, onOffOperation,
      flowInvestment, capacityInvestment, EffDict.window, ev, ev0, w0, w1, w2, Num.window, rateL]
    ring
  · have hp := exGreedy_proper (.plain exSell) (by simp [exGreedy, exSmall])
    have hl := exGreedy_local.comps (.plain exSell) (by simp [exGreedy, exSmall])
    obtain ⟨oc, hoc, hm⟩ := forall₂_mem_left (system_inv h).1 (by simp [exGreedy, exSmall, System.window, Comp.window] : Comp.plain (exSell.window 0 3 st) ∈ (exGreedy.window 0 3 st).comps)
    obtain ⟨p, ha, hr⟩ := C82_plain_sound hv (comp_window_proper hp hl (by decide)) hm (((system_solves h _).1 hs).2.1 oc hoc)
    have hf := (ha.flows (exSellQ.window 0 3 (st.rate exSell.label exSellQ.label)) (by simp [exSell, CompData.window])).follows
    have r1 := hr.rate (exSellQ.window 0 3 (st.rate exSell.label exSellQ.label)) (by simp [exSell, CompData.window])
    intro t ht
    have := (hf.always rfl t ht).2
    rw [← r1] at this
    simpa [FlowData.highRel, CompData.declared, exSell, exSellQ, CompData.window, FlowData.window, Num.window, Num.at, FlowPlan.capacity, rateL] using this

/-- In the whole horizon nothing can be sold. -/
theorem exGreedy_unsold {o : SysOut} (h : systemModel exDay exGreedy = .ok o) {τ : Assignment} (hs : o.solver.Solves τ) :
    τ "Sell__Q_flow_rate" 0 + τ "Sell__Q_flow_rate" 1 + τ "Sell__Q_flow_rate" 2 ≤ 0 := by
  obtain ⟨os, hos, hms⟩ := forall₂_mem_left (system_inv h).1 (by simp [exGreedy, exSmall] : Comp.storage exGreedyTank ∈ exGreedy.comps)
  obtain ⟨oc, hoc, hm⟩ := forall₂_mem_left (system_inv h).1 (by simp [exGreedy, exSmall] : Comp.plain exSell ∈ exGreedy.comps)
  obtain ⟨ol, hol, hml⟩ := forall₂_mem_left (system_inv h).1 (by simp [exGreedy, exSmall] : Comp.plain exLate ∈ exGreedy.comps)
  obtain ⟨so, hso, rfl⟩ := map_ok.1 hms
  have hpt := exGreedy_proper (.storage exGreedyTank) (by simp [exGreedy, exSmall])
  obtain ⟨ps, has, hrs, _⟩ := C82_storage_sound exDay_valid hpt hso (((system_solves h _).1 hs).2.1 _ hos)
  obtain ⟨p, ha, hr⟩ := C82_plain_sound exDay_valid (exGreedy_proper (.plain exSell) (by simp [exGreedy, exSmall])) hm (((system_solves h _).1 hs).2.1 oc hoc)
  obtain ⟨q, hq, hqr⟩ := C82_plain_sound exDay_valid (exGreedy_proper (.plain exLate) (by simp [exGreedy, exSmall])) hml (((system_solves h _).1 hs).2.1 ol hol)
  have hf := (ha.flows exSellQ (by simp [exSell])).follows
  have hg := (hq.flows exLateQ (by simp [exLate])).follows
  have r1 := hr.rate exSellQ (by simp [exSell])
  have r2 := hqr.rate exLateQ (by simp [exLate])
  have r3 := hrs.rate exGreedyTank.charging (by simp [StorageData.comp])
  have r4 := hrs.rate exGreedyTank.discharging (by simp [StorageData.comp])
  have bus := (C27_system exDay_valid h hs (b := { label := "heat", excessPenalty := none }) (by simp [exGreedy, exSmall])).1 rfl
  have sold : ∀ t < 6, 0 ≤ τ "Sell__Q_flow_rate" t := by
    intro t ht
    have := (hf.always rfl t ht).1
    rw [← r1] at this
    simpa [FlowData.lowRel, CompData.declared, exSell, exSellQ, Num.at, FlowPlan.capacity, rateL] using this
  have load : ∀ t < 6, (([0, 0, 0, 1, 1, 1] : List ℚ)[t]?.getD 0) ≤ τ "Load__Q_flow_rate" t := by
    intro t ht
    have := (hg.always rfl t ht).1
    rw [← r2] at this
    interval_cases t <;> simpa [FlowData.lowRel, CompData.declared, exLate, exLateQ, Num.at, FlowPlan.capacity, rateL] using this
  have step : ∀ t < 6, ps.content (t + 1) = ps.content t - (τ "Sell__Q_flow_rate" t + τ "Load__Q_flow_rate" t) := by
    intro t ht
    have e := bus t ht
    have b := has.balance t ht
    rw [← r3, ← r4] at b
    have w : exDay.width t = 1 := by interval_cases t <;> rfl
    rw [w] at b
    simp [fedInto, takenFrom, exGreedy, exSmall, Comp.inputs, Comp.outputs, exGreedyTank, exDayTank, exSell, exSellQ, exLate, exLateQ, Comp.label, rateL, StorageData.comp, Num.at] at e b ⊢
    linarith
  have first := has.ends.start 3 rfl
  have last : 0 ≤ ps.content 6 := by
    have := (has.content 6 le_rfl).1
    simpa [exGreedyTank, exDayTank, Num.at, StoragePlan.capacity] using this
  have s0 := step 0 (by decide); have s1 := step 1 (by decide); have s2 := step 2 (by decide)
  have s3 := step 3 (by decide); have s4 := step 4 (by decide); have s5 := step 5 (by decide)
  have l0 := load 0 (by decide); have l1 := load 1 (by decide); have l2 := load 2 (by decide)
  have l3 := load 3 (by decide); have l4 := load 4 (by decide); have l5 := load 5 (by decide)
  have q3 := sold 3 (by decide); have q4 := sold 4 (by decide); have q5 := sold 5 (by decide)
  simp at s0 s1 s2 s3 s4 s5 l0 l1 l2 l3 l4 l5
  linarith

/-- **C91, the limit**: the last segment need not have a solution.  Every segmented calculation with optimal segments fails, although the whole horizon has
a solution: the first segment sells what the second one needs. -/
theorem C91_greedy_wrong : (∃ o, systemModel exDay exGreedy = .ok o ∧ ∃ τ, o.solver.Solves τ) ∧ ∃ c, SegCalc.init exDay.n none 3 0 = .ok c ∧
    ∀ solver, exGreedy.SolvedBest exDay solver → (c.solveAll solver (SegState.start exGreedy.userRates exGreedy.userCharges)).2 ≠ none := by
  obtain ⟨o, h, h2⟩ := builds_and_solves (σ := exGreedyWhole) (r := systemModel exDay exGreedy) (f := fun o : SysOut => MTree.node o.solver.vars o.solver.cons []) (by decide +kernel)
  refine ⟨⟨o, h, exGreedyWhole, h2.1, h2.2.1⟩, ⟨3, 0, 6⟩, rfl, fun solver hbest hrun => ?_⟩
  obtain ⟨τ, t1, t2, -⟩ := C87_run_partial exDay_valid (by simp [exDay, Num.Nonneg]) (by decide) exGreedy_fits exGreedy_proper exGreedy_local h (by decide +kernel) (by decide +kernel)
    (Li := 3) (oi := 0) (c := ⟨3, 0, 6⟩) rfl (by decide) (by decide +kernel) (SolvedBest.solved hbest) hrun
  have unsold := exGreedy_unsold h t1
  obtain ⟨htr, hlen⟩ := SegCalc.solveAll_trace (c := ⟨3, 0, 6⟩) (solver := solver) (fs := exGreedy.userRates) (ss := exGreedy.userCharges)
  obtain ⟨hdone, hfirst⟩ := solveAll_done hrun
  replace hlen := hlen hrun
  have e2 : (⟨3, 0, 6⟩ : SegCalc).nSeg = 2 := by decide
  rw [e2] at hlen
  have hk : 0 < ((⟨3, 0, 6⟩ : SegCalc).solveAll solver (SegState.start exGreedy.userRates exGreedy.userCharges)).1.subs.length := by omega
  have ha := List.getElem?_eq_getElem hk
  obtain ⟨f1, f2⟩ := hfirst _ ha
  obtain ⟨s1, s2⟩ := htr.sub 0 _ ha (Nat.zero_le _)
  obtain ⟨-, -, a, n, ok, σ, r, terms, i1, i2, i3, i4, i5, i6, i7, -⟩ := hbest _ _ _ _ (hdone 0 _ ha)
  rw [s1] at i1
  have hn : n = 3 := by
    have := congrArg List.length i1
    rw [pyRange_length] at this
    have e3 : ((⟨3, 0, 6⟩ : SegCalc).indices (0 - 0)).length = 3 := by decide
    rw [e3] at this
    push_cast at this
    omega
  subst hn
  have h0 : a = 0 := by
    have h1 : ((⟨3, 0, 6⟩ : SegCalc).indices (0 - 0))[0]? = some 0 := by decide
    rw [i1, pyRange_get (by push_cast; omega)] at h1
    simp only [Option.some.injEq] at h1
    omega
  subst h0
  rw [f1, f2] at i2
  obtain ⟨ok', g1, g2⟩ := builds_and_solves (σ := exGreedyFirst) (r := systemModel (exDay.window 0 3) (exGreedy.window 0 3 (exGreedy.segStart exGreedy.userRates exGreedy.userCharges)))
    (f := fun o : SysOut => MTree.node o.solver.vars o.solver.cons []) (by decide +kernel)
  rw [i2] at g1
  cases g1
  have best := i5 exGreedyFirst ⟨g2.1, g2.2.1⟩
  obtain ⟨c1, c2⟩ := exGreedy_cost i2 i4 i3
  rw [c1, (exGreedy_cost i2 i4 (σ := exGreedyFirst) ⟨g2.1, g2.2.1⟩).1] at best
  obtain ⟨i, hi⟩ : ∃ i : Nat, exGreedy.flowItems[i]? = some (.plain exSell, exSellQ) :=
    List.mem_iff_getElem?.1 (by simp [System.flowItems, exGreedy, exSmall, Comp.flows, Comp.inputs, Comp.outputs, exSell])
  obtain ⟨xss, x1, x2⟩ := t2 _ i hi
  generalize ((⟨3, 0, 6⟩ : SegCalc).solveAll solver (SegState.start exGreedy.userRates exGreedy.userCharges)).1.subs = subs at *
  match subs, hlen with
  | [b0, b1], _ =>
    obtain ⟨xs0, xss1, ⟨r0, q1, q2⟩, x3, rfl⟩ := List.forall₂_cons_left_iff.1 x1
    obtain ⟨xs1, xss2, -, x4, rfl⟩ := List.forall₂_cons_left_iff.1 x3
    cases x4
    simp only [List.getElem_cons_zero] at s2 i6
    rw [s2] at q1
    rw [q1] at i6
    cases i6
    rw [i7, List.getElem?_map, hi] at q2
    simp only [Option.map_some, Option.some.injEq] at q2
    subst q2
    simp [concatLimited, exDay, List.range_succ, rateL, Comp.label, exSell, exSellQ] at x2
    have b0 := c2 0 (by decide); have b1 := c2 1 (by decide); have b2 := c2 2 (by decide)
    have k0 : exGreedyFirst "Sell__Q_flow_rate" 0 = 1 := by decide +kernel
    have k1 : exGreedyFirst "Sell__Q_flow_rate" 1 = 1 := by decide +kernel
    have k2 : exGreedyFirst "Sell__Q_flow_rate" 2 = 1 := by decide +kernel
    rw [k0, k1, k2] at best
    obtain ⟨y0, y1, y2, -⟩ := x2
    linarith

/-- A solver that solves the first half as well as possible exists. -/
example : ∃ solver, exGreedy.SolvedBest exDay solver ∧ (solver 0 ((⟨3, 0, 6⟩ : SegCalc).indices 0) exGreedy.userRates exGreedy.userCharges).1 = none := by
  refine ⟨knownSolver exGreedy [⟨0, 3, exGreedy.userRates, exGreedy.userCharges, exGreedyFirst⟩], ?_, by decide +kernel⟩
  intro i idx fs ss hr
  unfold knownSolver at hr ⊢
  cases hq : [(⟨0, 3, exGreedy.userRates, exGreedy.userCharges, exGreedyFirst⟩ : KnownSeg)].find? fun q => q.fitsB idx fs ss with
  | none => rw [hq] at hr; cases hr
  | some q =>
    have hm := List.mem_of_find?_eq_some hq
    have hf : q.fitsB idx fs ss = true := by simpa using List.find?_some hq
    simp only [List.mem_cons, List.not_mem_nil, or_false] at hm
    subst hm
    unfold KnownSeg.fitsB at hf
    simp only [Bool.and_eq_true, decide_eq_true_eq] at hf
    obtain ⟨⟨rfl, rfl⟩, rfl⟩ := hf
    obtain ⟨o, g1, g2⟩ := builds_and_solves (σ := exGreedyFirst) (r := systemModel (exDay.window 0 3) (exGreedy.window 0 3 (exGreedy.segStart exGreedy.userRates exGreedy.userCharges)))
      (f := fun o : SysOut => MTree.node o.solver.vars o.solver.cons []) (by decide +kernel)
    have hv := valid_window (a := 0) (len := 3) exDay_valid (by decide)
    obtain ⟨terms, e, h1, -, -⟩ := solution_cost hv (by decide) (window_fits exGreedy_fits _ (by decide)) g1
    refine ⟨by decide +kernel, by decide +kernel, 0, 3, o, exGreedyFirst, _, terms, rfl, g1, ⟨g2.1, g2.2.1⟩, h1, fun τ hτ => ?_, rfl, rfl, rfl⟩
    obtain ⟨c1, c2⟩ := exGreedy_cost g1 h1 hτ
    rw [c1, (exGreedy_cost g1 h1 (σ := exGreedyFirst) ⟨g2.1, g2.2.1⟩).1]
    have b0 := c2 0 (by decide); have b1 := c2 1 (by decide); have b2 := c2 2 (by decide)
    have k0 : exGreedyFirst "Sell__Q_flow_rate" 0 = 1 := by decide +kernel
    have k1 : exGreedyFirst "Sell__Q_flow_rate" 1 = 1 := by decide +kernel
    have k2 : exGreedyFirst "Sell__Q_flow_rate" 2 = 1 := by decide +kernel
    rw [k0, k1, k2]
    linarith

end Flix
