import Verif.Lemmas.LooserPhysical
import Verif.Props.WindowEx
import Verif.Props.Cheapest

/-!
# C98: looser limits never exclude a solution and never make the cheapest solution more expensive
-/

namespace Flix

variable {sys : Sys} {s s' : System} {o o' : SysOut}

/-- **C98 (partial).**  If the limits of a flow system are made looser, every solution remains one: with the same flow rates and the same totals of all effects,
and it does not cost more.  Missing: sizes of zero, which the code takes as no size at all (`C98_wrong`). -/
theorem C98_partial (hv : sys.Valid) (hpd : sys.prevDt.Nonneg) (hn : sys.n ≠ 0) (hf : s.Fits sys.n) (hf' : s'.Fits sys.n) (hp : ∀ c ∈ s.comps, c.Proper sys ∧ c.CapacityNonneg)
    (hp' : ∀ c ∈ s'.comps, c.Proper sys ∧ c.CapacityNonneg) (hb : (s.buses.map (·.label)).Nodup) (h : systemModel sys s = .ok o) (h' : systemModel sys s' = .ok o')
    (hl : s.Looser sys.cfg.big sys.n s') (hpr : s.SamePrices s') {σ : Assignment} (hs : o.solver.Solves σ) :
    ∃ σ', o'.solver.Solves σ' ∧
      (∀ c ∈ s.comps, ∀ f ∈ c.inputs ++ c.outputs, σ' (c.label ++ "__" ++ f.label ++ "_" ++ "flow_rate") = σ (c.label ++ "__" ++ f.label ++ "_" ++ "flow_rate")) ∧
      (∀ e ∈ s.effects, (∀ t < sys.n, σ' (e.label ++ "__operation_operation_sum_TS") t = σ (e.label ++ "__operation_operation_sum_TS") t) ∧
        σ' (e.label ++ "__invest_invest_sum") 0 = σ (e.label ++ "__invest_invest_sum") 0) ∧
      ∃ t₁ t₂, objectiveTerms o.solver.objective = .ok t₁ ∧ objectiveTerms o'.solver.objective = .ok t₂ ∧ termsVal σ' t₂ ≤ termsVal σ t₁ := by
  obtain ⟨tb, ta⟩ := solution_totals hv hn hf h hs
  have hw : ∀ t < sys.n, 0 ≤ sys.dt.getD t 0 := fun t ht => (hv.width_pos ht).le
  obtain ⟨τ, hc, hbus', keep, keepR, pen⟩ := looser_physical hv hpd hn hf hf' hp hp' hb h h' hl.freer hs
  have contrib : ∀ l, (∀ t < sys.n, s'.opOf sys τ l t = s.opOf sys σ l t) ∧ s'.invOf τ l = s.invOf σ l := by
    intro l
    have each : ∀ c ∈ s'.comps, (∀ t < sys.n, c.operation sys.width τ s'.effects l t = c.operation sys.width σ s'.effects l t) ∧ c.investment τ s'.effects l = c.investment σ s'.effects l := by
      intro c hcm
      obtain ⟨oc, hoc, hm⟩ := forall₂_mem_left (system_inv h').1 hcm
      obtain ⟨k1, k2⟩ := contrib_congr hv (hf'.comps c hcm) hm (keep oc hoc) s'.effects l
      exact ⟨fun t ht => (k1 t ht).symm, k2.symm⟩
    obtain ⟨k1, k2⟩ := contribs_looser (sys := sys) (σ := σ) hl hpr l
    refine ⟨fun t ht => ?_, ?_⟩
    · rw [← k1 t]
      exact congrArg List.sum (List.map_congr_left fun c hcm => (each c hcm).1 t ht)
    · rw [← k2]
      exact congrArg List.sum (List.map_congr_left fun c hcm => (each c hcm).2)
  have tb' := balanced_looser hl.effects hpr.effects (fun e _ => contrib e.label) tb
  obtain ⟨σ', g1, g2, g3⟩ := solution_complete hv hn hf' h' hc hbus' tb' (fun e' he' => by
    obtain ⟨e, he, k⟩ := forall₂_mem_right hl.effects he'
    exact allowed_looser hw k (ta e he))
  have same : ∀ e ∈ s.effects, (∀ t < sys.n, σ' (e.label ++ "__operation_operation_sum_TS") t = σ (e.label ++ "__operation_operation_sum_TS") t) ∧
        σ' (e.label ++ "__invest_invest_sum") 0 = σ (e.label ++ "__invest_invest_sum") 0 := by
    intro e hem
    obtain ⟨e', hem', k⟩ := forall₂_mem_left hl.effects hem
    obtain ⟨q1, q2⟩ := g3 e' hem'
    rw [k.label] at q1 q2
    exact ⟨fun t _ => congrFun q1 t, q2⟩
  refine ⟨σ', g1, ?_, same, ?_⟩
  · intro c hcm f hfm
    obtain ⟨c', hcm', hcl⟩ := forall₂_mem_left hl.comps hcm
    obtain ⟨e1, e2, e3, _⟩ := comp_shape hcl
    obtain ⟨oc, hoc, hm⟩ := forall₂_mem_left (system_inv h').1 hcm'
    obtain ⟨f', hfm', hfl⟩ := forall₂_mem_left (List.rel_append e2 e3) hfm
    obtain ⟨x, hx, ex⟩ := rate_hasVar hm hfm'
    rw [e1, hfl.label] at ex
    rw [← keepR, ← ex]
    exact g2 _ (physical_label h' (.inl ⟨oc, hoc, hx⟩))
  · obtain ⟨t₁, e₁, a1, a2, a3⟩ := solution_cost hv hn hf h
    obtain ⟨t₂, e₂, b1, b2, b3⟩ := solution_cost hv hn hf' h'
    refine ⟨t₁, t₂, a1, b1, ?_⟩
    rw [a3 σ hs, b3 σ' g1]
    have el : e₂.label = e₁.label := by
      rcases looser_find (p := (·.isObjective)) (fun e e' h => h.objective) hl.effects with ⟨k1, k2⟩ | ⟨e, e', k1, k2, k3⟩
      · rw [k1] at a2; cases a2
      · rw [k1] at a2
        rw [k2] at b2
        cases a2
        cases b2
        exact k3.label
    have hem := List.mem_of_find?_eq_some a2
    unfold System.cost
    rw [el, Finset.sum_congr rfl fun t ht => (same _ hem).1 t (Finset.mem_range.1 ht), (same _ hem).2]
    refine add_le_add le_rfl ?_
    exact pen hl.buses σ' fun b' hbm' hpen => by
      obtain ⟨x1, x2⟩ := excess_outside hv hf' h' hbm' hpen
      exact ⟨g2 _ x1, g2 _ x2⟩

/-- **C98 (optimum, partial).**  The cheapest solution with looser limits costs no more than any solution with the original ones. -/
theorem C98_optimum_partial (hv : sys.Valid) (hpd : sys.prevDt.Nonneg) (hn : sys.n ≠ 0) (hf : s.Fits sys.n) (hf' : s'.Fits sys.n) (hp : ∀ c ∈ s.comps, c.Proper sys ∧ c.CapacityNonneg)
    (hp' : ∀ c ∈ s'.comps, c.Proper sys ∧ c.CapacityNonneg) (hb : (s.buses.map (·.label)).Nodup) (h : systemModel sys s = .ok o) (h' : systemModel sys s' = .ok o')
    (hl : s.Looser sys.cfg.big sys.n s') (hpr : s.SamePrices s') {σ σ' : Assignment} (hs : o.solver.Solves σ) (ho : o'.Optimal σ') :
    ∃ t₁ t₂, objectiveTerms o.solver.objective = .ok t₁ ∧ objectiveTerms o'.solver.objective = .ok t₂ ∧ termsVal σ' t₂ ≤ termsVal σ t₁ := by
  obtain ⟨τ, g1, _, _, t₁, t₂, e1, e2, e3⟩ := C98_partial hv hpd hn hf hf' hp hp' hb h h' hl hpr hs
  obtain ⟨_, t, e, hmin⟩ := ho
  rw [e2] at e
  cases e
  exact ⟨t₁, t₂, e1, e2, le_trans (hmin τ g1) e3⟩

/-- The system of `exDaySystem` with narrower limits: a smaller generator with a limited amount of heat, a smaller store that may keep little at the end, no excess, limited costs. -/
def exTightDay : System :=
  { effects := [{ label := "costs", isStandard := true, isObjective := true, maxTotal := some 50 }]
    comps := [.plain { label := "Gen", inputs := [], outputs := [{ exGenFlow with size := .num 5, flowHoursTotalMax := some 20 }] },
      .storage { exDayTank with capacity := .num 4, maxFinal := some 1 }, .plain { label := "Load", inputs := [exDemand], outputs := [] }]
    buses := [{ label := "heat", excessPenalty := none }] }

def exTightSol : Assignment := tableSol
  [("Gen__Q_flow_rate", [3, 4, 4, 0, 4, 2]), ("Gen__Q_sumFlowHours", [17]), ("Load__Q_flow_rate", [2, 4, 3, 1, 5, 2]), ("Load__Q_sumFlowHours", [17]),
   ("Tank__in_flow_rate", [1, 0, 1]), ("Tank__in_sumFlowHours", [2]), ("Tank__in__OnOff_on", [1, 0, 1]), ("Tank__in__OnOff_totalOnHours", [2]),
   ("Tank__in__OnOff_switchOn", [1, 0, 1]), ("Tank__in__OnOff_switchOff", [0, 1, 0, 1]), ("Tank__in__OnOff_nrSwitchOn", [2]),
   ("Tank__out_flow_rate", [0, 0, 0, 1, 1, 0]), ("Tank__out_sumFlowHours", [2]), ("Tank__out__OnOff_on", [0, 0, 0, 1, 1, 0]), ("Tank__out__OnOff_totalOnHours", [2]),
   ("Tank__out__OnOff_switchOn", [0, 0, 0, 1]), ("Tank__out__OnOff_switchOff", [0, 0, 0, 0, 0, 1]), ("Tank__out__OnOff_nrSwitchOn", [1]),
   ("Tank_charge_state", [0, 1, 1, 2, 1, 0, 0]), ("Tank_netto_discharge", [-1, 0, -1, 1, 1, 0]),
   ("costs__operation_operation_sum", [46]), ("costs__operation_operation_sum_TS", [6, 8, 12, 0, 16, 4]), ("costs__all_all_sum", [46]),
   ("costs__Gen__Q__effects_per_flow_hour", [6, 8, 12, 0, 16, 4]), ("costs__operation", [46])]

theorem exTight_proper : ∀ c ∈ exTightDay.comps, c.Proper exDay := by
  have h := exDay_flows
  simp only [List.forall_mem_cons, List.not_mem_nil, false_imp_iff, implies_true, and_true] at h
  obtain ⟨g, d, i, u⟩ := h
  have g' : (∀ f ∈ [{ exGenFlow with size := .num 5, flowHoursTotalMax := some 20 }], f.Fits exDay.n ∧ f.Sensible exDay.cfg exDay.n ∧ f.Proper exDay.n) := by
    simp only [List.forall_mem_cons, List.not_mem_nil, false_imp_iff, implies_true, and_true]
    refine ⟨?_, ⟨?_, ?_, ?_⟩, ?_⟩
    all_goals first
      | (constructor <;> simp [exGenFlow, Num.Fits, Num.len, Num.isScalar, exDay, exCfg, InvestParams.segEffects, FlowData.lowRel, FlowData.highRel]; done)
      | decide +kernel
      | (intro q hq; cases hq)
  simp only [List.forall_mem_cons, List.not_mem_nil, false_imp_iff, implies_true, and_true] at g'
  intro c hc
  simp only [exTightDay, List.mem_cons, List.not_mem_nil, or_false] at hc
  rcases hc with rfl | rfl | rfl
  · exact ⟨by decide, by simpa using g'.1, by simpa using g'.2.1, by simpa using g'.2.2, by simp⟩
  · refine ⟨⟨by decide +kernel, ?_, ?_, ?_, by simp [StorageData.comp]⟩, ?_, ?_, ?_⟩
    · intro f hf; simp [StorageData.comp] at hf; rcases hf with rfl | rfl; exacts [i.1, u.1]
    · intro f hf; simp [StorageData.comp] at hf; rcases hf with rfl | rfl; exacts [i.2.1, u.2.1]
    · intro f hf; simp [StorageData.comp] at hf; rcases hf with rfl | rfl; exacts [i.2.2.1, u.2.2.1]
    · constructor <;> simp [exDayTank, Num.Fits, Num.isScalar]
    · intro t _; simp [exDayTank, Num.at]
    · intro q hq; cases hq
  · exact ⟨by decide, by simpa using d.1, by simpa using d.2.1, by simpa using d.2.2.1, by simp⟩

theorem exTight_fits : exTightDay.Fits exDay.n := by
  refine ⟨?_, ?_, ?_⟩
  · intro e he
    simp only [exTightDay, List.mem_cons, List.not_mem_nil, or_false] at he
    subst he
    refine ⟨?_, ?_, ?_, ?_⟩ <;> simp
  · intro c hc
    simp only [exTightDay, List.mem_cons, List.not_mem_nil, or_false] at hc
    rcases hc with rfl | rfl | rfl <;> refine ⟨?_, ?_, ?_⟩ <;> simp [Comp.flows, Comp.inputs, Comp.outputs, Comp.onOff, exGenFlow, exDayTank, exDemand]
    · refine ⟨?_, by simp, by simp⟩
      simp [EffDict.Series, Num.Fits, Num.len, exDay]
    · refine ⟨⟨?_, ?_, ?_⟩, ⟨?_, ?_, ?_⟩⟩ <;> simp [EffDict.Series]
    · rintro s q rfl hq
      cases hq
    · refine ⟨?_, ?_, ?_⟩ <;> simp [EffDict.Series]
  · simp [exTightDay]

theorem same_flow_looser {n : Nat} {big S : ℚ} {f : FlowData} (ho : f.onOff = none) (hs : f.size.given big = some S) : f.Looser big n f := by
  refine ⟨rfl, rfl, rfl, .inr rfl, fun _ _ => le_rfl, fun _ _ => le_rfl, by rw [ho]; trivial, ?_, ?_, ?_, ?_, .inl ⟨S, S, hs, hs, fun _ _ => ⟨le_rfl, le_rfl⟩, ?_, ?_⟩⟩
  all_goals first
    | (intro m hm; exact ⟨m, hm, le_rfl⟩)
    | (intro m m' h1 h2; rw [h1] at h2; cases h2; exact le_rfl)

theorem exTight_looser : exTightDay.Looser exDay.cfg.big exDay.n exDaySystem := by
  refine ⟨.cons ?_ .nil, .cons ?_ (.cons ?_ (.cons ?_ .nil)), .cons ⟨rfl, by simp⟩ .nil⟩
  · constructor <;> first | rfl | (intro m hm; cases hm)
  · refine ⟨rfl, .nil, .cons ?_ .nil, trivial, rfl⟩
    refine ⟨rfl, rfl, rfl, .inl rfl, fun _ _ => le_rfl, fun _ _ => le_rfl, trivial, ?_, ?_, ?_, ?_, .inl ⟨5, 10, rfl, rfl, fun t _ => ?_, ?_, ?_⟩⟩
    all_goals first
      | (intro m hm; cases hm; done)
      | (intro m m' hm; simp [exGenFlow] at hm; done)
      | (simp [FlowData.lowRel, FlowData.highRel, exGenFlow, Num.at]; norm_num)
  · refine ⟨rfl, same_flow_looser (S := 5) rfl rfl, same_flow_looser (S := 5) rfl rfl, fun _ _ => le_rfl, fun _ _ => le_rfl, .inl ⟨4, 10, rfl, rfl, fun t _ => ?_⟩, rfl, ?_, ?_, rfl, rfl, rfl, rfl⟩
    · simp [exDayTank, Num.at]; norm_num
    · intro m hm; cases hm
    · intro m hm; cases hm
  · exact ⟨rfl, .cons (same_flow_looser (S := 1) rfl rfl) .nil, .nil, trivial, rfl⟩

theorem same_flow_prices (f : FlowData) : f.Priced Eq f := by
  refine ⟨rfl, fun q q' h h' => ?_, fun q q' h h' => ?_⟩ <;> rw [h] at h' <;> cases h' <;> constructor <;> rfl

theorem exTight_prices : exTightDay.SamePrices exDaySystem := by
  refine ⟨.cons ⟨rfl, rfl⟩ .nil, .cons ⟨.cons ⟨rfl, ?_, ?_⟩ .nil, ?_, ?_⟩ (.cons ⟨.cons (same_flow_prices _) (.cons (same_flow_prices _) .nil), ?_, ?_⟩
    (.cons ⟨.cons (same_flow_prices _) .nil, ?_, ?_⟩ .nil))⟩
  all_goals first
    | (intro q q' h; cases h; done)
    | (intro a b q q' h; cases h; done)
    | (intro a b q q' h h' h''; cases h; cases h''; done)

theorem exTight_capacity : (∀ c ∈ exTightDay.comps, c.CapacityNonneg) ∧ ∀ c ∈ exDaySystem.comps, c.CapacityNonneg := by
  constructor
  · simp only [exTightDay, List.forall_mem_cons, List.not_mem_nil, false_imp_iff, implies_true, and_true, Comp.CapacityNonneg, true_and]
    intro q hq; cases hq
  · simp only [exDaySystem, List.forall_mem_cons, List.not_mem_nil, false_imp_iff, implies_true, and_true, Comp.CapacityNonneg, true_and]
    intro q hq; cases hq

theorem exTight_ok : ∃ o, systemModel exDay exTightDay = .ok o ∧ o.solver.Solves exTightSol := by
  obtain ⟨o, h, hs⟩ := builds_and_solves (σ := exTightSol) (r := systemModel exDay exTightDay) (f := fun o : SysOut => MTree.node o.solver.vars o.solver.cons []) (by decide +kernel)
  exact ⟨o, h, hs.1, hs.2.1⟩

/-- The hypotheses of `C98_partial` are met. -/
example : ∃ o o' σ', systemModel exDay exTightDay = .ok o ∧ o.solver.Solves exTightSol ∧ systemModel exDay exDaySystem = .ok o' ∧ o'.solver.Solves σ' ∧
    σ' "Gen__Q_flow_rate" = exTightSol "Gen__Q_flow_rate" := by
  obtain ⟨o, h, hs⟩ := exTight_ok
  obtain ⟨o', h'⟩ : ∃ o', systemModel exDay exDaySystem = .ok o' := builds (by decide +kernel)
  obtain ⟨σ', g1, g2, _⟩ := C98_partial exDay_valid (by simp [exDay, Num.Nonneg]) (by decide) exTight_fits exDay_fits (fun c hc => ⟨exTight_proper c hc, exTight_capacity.1 c hc⟩)
    (fun c hc => ⟨exDay_proper c hc, exTight_capacity.2 c hc⟩) (by decide) h h' exTight_looser exTight_prices hs
  refine ⟨o, o', σ', h, hs, h', g1, ?_⟩
  have := g2 _ List.mem_cons_self _ List.mem_cons_self
  rw [show (Comp.plain { label := "Gen", inputs := [], outputs := [{ exGenFlow with size := .num 5, flowHoursTotalMax := some 20 }] }).label ++ "__" ++ exGenFlow.label ++ "_" ++ "flow_rate" = "Gen__Q_flow_rate" by
    decide +kernel] at this
  exact this

/-- The hypotheses of `C98_optimum_partial` are met: the looser system has a cheapest solution, it costs at most what the given one costs. -/
example : ∃ o o' σ' t₁ t₂, systemModel exDay exTightDay = .ok o ∧ systemModel exDay exDaySystem = .ok o' ∧ o'.Optimal σ' ∧ objectiveTerms o.solver.objective = .ok t₁ ∧
    objectiveTerms o'.solver.objective = .ok t₂ ∧ termsVal σ' t₂ ≤ termsVal exTightSol t₁ := by
  obtain ⟨o, h, hs⟩ := exTight_ok
  obtain ⟨o', h'⟩ : ∃ o', systemModel exDay exDaySystem = .ok o' := builds (by decide +kernel)
  have hp : ∀ c ∈ exTightDay.comps, c.Proper exDay ∧ c.CapacityNonneg := fun c hc => ⟨exTight_proper c hc, exTight_capacity.1 c hc⟩
  have hp' : ∀ c ∈ exDaySystem.comps, c.Proper exDay ∧ c.CapacityNonneg := fun c hc => ⟨exDay_proper c hc, exTight_capacity.2 c hc⟩
  have hpd : exDay.prevDt.Nonneg := by simp [exDay, Num.Nonneg]
  obtain ⟨τ, g1, _⟩ := C98_partial exDay_valid hpd (by decide) exTight_fits exDay_fits hp hp' (by decide) h h' exTight_looser exTight_prices hs
  have fl := exDay_flows
  simp only [List.forall_mem_cons, List.not_mem_nil, false_imp_iff, implies_true, and_true] at fl
  obtain ⟨σ', ho⟩ := C95 exDay_valid (by decide) exDay_fits (by
    simp only [exDaySystem, List.forall_mem_cons, List.not_mem_nil, false_imp_iff, implies_true, and_true, Comp.flows, Comp.inputs, Comp.outputs, List.nil_append,
      List.append_nil, List.cons_append]
    exact ⟨fl.1.1, ⟨fl.2.2.1.1, fl.2.2.2.1⟩, fl.2.1.1⟩) h' (rank := fun _ => 0) (by
      intro e he q hq
      simp only [exDaySystem, List.mem_cons, List.not_mem_nil, or_false] at he
      subst he
      simp at hq) (by
      intro e he q hq
      simp only [exDaySystem, List.mem_cons, List.not_mem_nil, or_false] at he
      subst he
      simp at hq) (by
      simp only [exDaySystem, List.forall_mem_cons, List.not_mem_nil, false_imp_iff, implies_true, and_true]
      intro pen hp t _
      cases hp
      norm_num) ⟨τ, g1⟩
  obtain ⟨t₁, t₂, e⟩ := C98_optimum_partial exDay_valid hpd (by decide) exTight_fits exDay_fits hp hp' (by decide) h h' exTight_looser exTight_prices hs ho
  exact ⟨o, o', σ', t₁, t₂, h, h', ho, e⟩

/-! ## Sizes of zero -/

/-- A generator of size `x` for a load of 10. -/
def exZeroGen (x : ℚ) : System :=
  { effects := [{ label := "costs", isStandard := true, isObjective := true }]
    comps := [.plain { label := "Gen", inputs := [], outputs := [{ label := "Q", bus := "heat", size := .num x }] },
      .plain { label := "Load", inputs := [{ label := "Q", bus := "heat", size := .num 1, fixedProfile := some (.s 10) }], outputs := [] }]
    buses := [{ label := "heat", excessPenalty := none }] }

def exZeroSol : Assignment := tableSol [("Gen__Q_flow_rate", [10, 10, 10, 10, 10, 10]), ("Gen__Q_sumFlowHours", [60]), ("Load__Q_flow_rate", [10, 10, 10, 10, 10, 10]), ("Load__Q_sumFlowHours", [60])]

/-- **C98 fails for sizes of zero.**  A generator of size 0 serves a load of 10 (`size or CONFIG.modeling.BIG`, elements.py:220), one of size 5 does not. -/
theorem C98_wrong : (exZeroGen 0).Looser exDay.cfg.big exDay.n (exZeroGen 5) ∧ (exZeroGen 0).SamePrices (exZeroGen 5) ∧
    ∃ o o', systemModel exDay (exZeroGen 0) = .ok o ∧ o.solver.Solves exZeroSol ∧ systemModel exDay (exZeroGen 5) = .ok o' ∧ ∀ σ, ¬ o'.solver.Solves σ := by
  refine ⟨⟨.cons ?_ .nil, .cons ?_ (.cons ?_ .nil), .cons ⟨rfl, by simp⟩ .nil⟩, ⟨.cons ⟨rfl, rfl⟩ .nil, .cons ⟨.cons ⟨rfl, ?_, ?_⟩ .nil, ?_, ?_⟩ (.cons ⟨.cons (same_flow_prices _) .nil, ?_, ?_⟩ .nil)⟩, ?_⟩
  · constructor <;> first | rfl | (intro m hm; cases hm)
  · refine ⟨rfl, .nil, .cons ?_ .nil, trivial, rfl⟩
    refine ⟨rfl, rfl, rfl, .inl rfl, fun _ _ => le_rfl, fun _ _ => le_rfl, trivial, ?_, ?_, ?_, ?_, .inl ⟨0, 5, rfl, rfl, fun t _ => ?_, ?_, ?_⟩⟩
    all_goals first
      | (intro m hm; cases hm; done)
      | (intro m m' hm; simp [exGenFlow] at hm; done)
      | (simp [FlowData.lowRel, FlowData.highRel, Num.at])
  · exact ⟨rfl, .cons (same_flow_looser (S := 1) rfl rfl) .nil, .nil, trivial, rfl⟩
  · intro q q' h; cases h
  · intro q q' h; cases h
  · intro q q' h; cases h
  · intro a b q q' h; cases h
  · intro q q' h; cases h
  · intro a b q q' h; cases h
  · obtain ⟨o, h, hs⟩ := builds_and_solves (σ := exZeroSol) (r := systemModel exDay (exZeroGen 0)) (f := fun o : SysOut => MTree.node o.solver.vars o.solver.cons []) (by decide +kernel)
    obtain ⟨o', h'⟩ : ∃ o', systemModel exDay (exZeroGen 5) = .ok o' := builds (by decide +kernel)
    refine ⟨o, o', h, ⟨hs.1, hs.2.1⟩, h', fun σ hsol => ?_⟩
    have bal := (C27_system exDay_valid h' hsol (b := { label := "heat", excessPenalty := none }) (by simp [exZeroGen])).1 rfl 0 (by decide)
    obtain ⟨_, s2, _⟩ := (system_solves h' σ).1 hsol
    have rate : ∀ (c : CompData) (f : FlowData), Comp.plain c ∈ (exZeroGen 5).comps → f ∈ c.inputs ++ c.outputs → c.onOff = none → c.prevent = [] → f.onOff = none → f.Fits exDay.n →
        (f.absBounds exDay.cfg).1.at 0 ≤ σ (c.label ++ "__" ++ f.label ++ "_" ++ "flow_rate") 0 ∧ σ (c.label ++ "__" ++ f.label ++ "_" ++ "flow_rate") 0 ≤ (f.absBounds exDay.cfg).2.at 0 := by
      intro c f hc hf h1 h2 h3 hfit
      obtain ⟨oc, hoc, hm⟩ := forall₂_mem_left (system_inv h').1 hc
      have hm0 : compModel exDay c = .ok oc := hm
      have sol := (comp_solves hm0 σ).2 (s2 oc hoc)
      obtain ⟨r1, r2, _⟩ := comp_inv hm0
      obtain ⟨q, hq, e1, e2⟩ := forall₂_mem_left (List.rel_append r1 r2) hf
      have ef : fillOnOff c f = f := by unfold fillOnOff; simp [h1, h2]
      rw [ef] at e2
      have rows := (flow_iff exDay_valid hfit e2 σ).1 (sol.1 q hq)
      have lab : q.2.flowRate.label = c.label ++ "__" ++ f.label ++ "_" ++ "flow_rate" := (flowRate_ok (flow_inv e2).1).1
      rw [← lab]
      exact ⟨rows.lower h3 0 (by decide), rows.upper h3 0 (by decide)⟩
    have a := (rate _ _ List.mem_cons_self (by simp; rfl) rfl rfl rfl (by constructor <;> simp [Num.Fits, Num.isScalar])).2
    have b := (rate _ _ (List.mem_cons_of_mem _ List.mem_cons_self) (by simp; rfl) rfl rfl rfl (by constructor <;> simp [Num.Fits, Num.isScalar])).1
    simp [fedInto, takenFrom, exZeroGen, Comp.outputs, Comp.inputs, Comp.label] at bal
    simp [FlowData.absBounds, FlowData.relBounds, FlowData.effSize, pyOr, Num.map, Num.at] at a b
    linarith

end Flix
