import Verif.Lemmas.Cheaper
import Verif.Props.Looser

/-!
# C99: prices decide between solutions, they do not make solutions; lower prices never raise the cost of the cheapest one
-/

namespace Flix

variable {sys : Sys} {s s' : System} {o o' : SysOut}

/-- No effect has a lower limit. -/
def System.NoMinimum (s : System) : Prop := ∀ e ∈ s.effects, e.minOperation = none ∧ e.minInvest = none ∧ e.minTotal = none ∧ e.minOperationPerHour = none

/-- The totals of the effect are not negative. -/
def NonnegTotals (n : Nat) (σ : Assignment) (e : EffectData) : Prop :=
  (∀ t < n, 0 ≤ σ (e.label ++ "__operation_operation_sum_TS") t) ∧ 0 ≤ σ (e.label ++ "__invest_invest_sum") 0

/-- **C99 (any prices).**  Prices only decide between solutions: if no effect is limited, every solution remains one under any other prices — of flows, starts, running hours, sizes and
excess, with any other effects and shares between them — with the same flow rates. -/
theorem C99_any_price (hv : sys.Valid) (hpd : sys.prevDt.Nonneg) (hn : sys.n ≠ 0) (hf : s.Fits sys.n) (hf' : s'.Fits sys.n) (hp : ∀ c ∈ s.comps, c.Proper sys ∧ c.CapacityNonneg)
    (hp' : ∀ c ∈ s'.comps, c.Proper sys ∧ c.CapacityNonneg) (hb : (s.buses.map (·.label)).Nodup) (h : systemModel sys s = .ok o) (h' : systemModel sys s' = .ok o')
    (hl : s.Freer sys.cfg.big sys.n s') (hu : s'.Unlimited) {rank : String → Nat} (hr1 : Ranked s'.effects (·.shareOperation) rank)
    (hr2 : Ranked s'.effects (·.shareInvest) rank) {σ : Assignment} (hs : o.solver.Solves σ) :
    ∃ σ', o'.solver.Solves σ' ∧
      ∀ c ∈ s.comps, ∀ f ∈ c.inputs ++ c.outputs, σ' (c.label ++ "__" ++ f.label ++ "_" ++ "flow_rate") = σ (c.label ++ "__" ++ f.label ++ "_" ++ "flow_rate") := by
  obtain ⟨τ, hc, hbus', keep, keepR, _⟩ := looser_physical hv hpd hn hf hf' hp hp' hb h h' hl hs
  obtain ⟨σ', g1, g2⟩ := C71_unlimited hv hn hf' h' hu hr1 hr2 hc ((buses_iff hv hf' h' τ).2 hbus')
  refine ⟨σ', g1, fun c hcm f hfm => ?_⟩
  obtain ⟨c', hcm', hcl⟩ := forall₂_mem_left hl.comps hcm
  obtain ⟨e1, e2, e3, _⟩ := comp_shape hcl
  obtain ⟨oc, hoc, hm⟩ := forall₂_mem_left (system_inv h').1 hcm'
  obtain ⟨f', hfm', hfl⟩ := forall₂_mem_left (List.rel_append e2 e3) hfm
  obtain ⟨x, hx, ex⟩ := rate_hasVar hm hfm'
  rw [e1, hfl.label] at ex
  rw [← keepR, ← ex]
  exact g2 x (.inl ⟨oc, hoc, hx⟩)

/-- **C99.**  If prices are lowered (and limits loosened), every solution remains one with the same flow rates; no effect grows in any step, and it does not cost more.  The effects
must not have lower limits, and an effect whose shares in others are lowered must not be negative. -/
theorem C99 (hv : sys.Valid) (hpd : sys.prevDt.Nonneg) (hn : sys.n ≠ 0) (hf : s.Fits sys.n) (hf' : s'.Fits sys.n) (hp : ∀ c ∈ s.comps, c.Proper sys ∧ c.CapacityNonneg)
    (hp' : ∀ c ∈ s'.comps, c.Proper sys ∧ c.CapacityNonneg) (hb : (s.buses.map (·.label)).Nodup) (h : systemModel sys s = .ok o) (h' : systemModel sys s' = .ok o')
    (hl : s.Looser sys.cfg.big sys.n s') (hch : s.Cheaper sys.n s') (hm : s'.NoMinimum) {rank : String → Nat} (hr1 : Ranked s'.effects (·.shareOperation) rank)
    (hr2 : Ranked s'.effects (·.shareInvest) rank) {σ : Assignment} (hs : o.solver.Solves σ)
    (hsh : List.Forall₂ (fun e e' => (e'.shareOperation = e.shareOperation ∧ e'.shareInvest = e.shareInvest) ∨ NonnegTotals sys.n σ e) s.effects s'.effects) :
    ∃ σ', o'.solver.Solves σ' ∧
      (∀ c ∈ s.comps, ∀ f ∈ c.inputs ++ c.outputs, σ' (c.label ++ "__" ++ f.label ++ "_" ++ "flow_rate") = σ (c.label ++ "__" ++ f.label ++ "_" ++ "flow_rate")) ∧
      (∀ e ∈ s.effects, (∀ t < sys.n, σ' (e.label ++ "__operation_operation_sum_TS") t ≤ σ (e.label ++ "__operation_operation_sum_TS") t) ∧
        σ' (e.label ++ "__invest_invest_sum") 0 ≤ σ (e.label ++ "__invest_invest_sum") 0) ∧
      ∃ t₁ t₂, objectiveTerms o.solver.objective = .ok t₁ ∧ objectiveTerms o'.solver.objective = .ok t₂ ∧ termsVal σ' t₂ ≤ termsVal σ t₁ := by
  obtain ⟨tb, ta⟩ := solution_totals hv hn hf h hs
  have hw : ∀ t < sys.n, 0 ≤ sys.dt.getD t 0 := fun t ht => (hv.width_pos ht).le
  have hn0 : 0 < sys.n := Nat.pos_of_ne_zero hn
  obtain ⟨τ, hc, hbus', keep, keepR, pen⟩ := looser_physical hv hpd hn hf hf' hp hp' hb h h' hl.freer hs
  -- direct contributions
  have contrib : ∀ l, (∀ t < sys.n, s'.opOf sys τ l t ≤ s.opOf sys σ l t) ∧ s'.invOf τ l ≤ s.invOf σ l := by
    intro l
    have each : ∀ c ∈ s'.comps, (∀ t < sys.n, c.operation sys.width τ s'.effects l t = c.operation sys.width σ s'.effects l t) ∧ c.investment τ s'.effects l = c.investment σ s'.effects l := by
      intro c hcm
      obtain ⟨oc, hoc, hmod⟩ := forall₂_mem_left (system_inv h').1 hcm
      obtain ⟨k1, k2⟩ := contrib_congr hv (hf'.comps c hcm) hmod (keep oc hoc) s'.effects l
      exact ⟨fun t ht => (k1 t ht).symm, k2.symm⟩
    have low : ∀ c ∈ s.comps, ∀ c', (c.Looser sys.cfg.big sys.n c' ∧ c.Priced (LowerPrices sys.n) c') →
        (∀ t < sys.n, c'.operation sys.width σ s'.effects l t ≤ c.operation sys.width σ s.effects l t) ∧ c'.investment σ s'.effects l ≤ c.investment σ s.effects l := by
      intro c hcm c' k
      obtain ⟨oc, hoc, hmod⟩ := forall₂_mem_left (system_inv h).1 hcm
      have sg := anyComp_signs hv (hp c hcm).1 (hp c hcm).2 hmod (((system_solves h σ).1 hs).2.1 oc hoc)
      exact comp_cheaper hl.effects k.1 k.2 hn0 hw l sg
    have both := forall₂_both hl.comps hch.comps
    refine ⟨fun t ht => ?_, ?_⟩
    · refine le_trans (congrArg List.sum (List.map_congr_left fun c hcm => (each c hcm).1 t ht)).le ?_
      exact sum_cheaper both fun c hcm c' k => (low c hcm c' k).1 t ht
    · refine le_trans (congrArg List.sum (List.map_congr_left fun c hcm => (each c hcm).2)).le ?_
      exact sum_cheaper both fun c hcm c' k => (low c hcm c' k).2
  -- totals
  have lab : List.Forall₂ (fun e e' : EffectData => e'.label = e.label) s.effects s'.effects := hl.effects.imp fun _ _ k => k.label
  choose x hx using fun t => ranked_exists hr1 (fun f => f.at t) (fun l => s'.opOf sys τ l t)
  obtain ⟨y, hy⟩ := ranked_exists hr2 (fun f => f.at 0) (fun l => s'.invOf τ l)
  have opLe : ∀ t < sys.n, ∀ e ∈ s.effects, x t e.label ≤ σ (opTSL e.label) t := by
    intro t ht
    refine ranked_cheaper (x := fun l => σ (opTSL l) t) (d := fun l => s.opOf sys σ l t) (d' := fun l => s'.opOf sys τ l t) ht lab hr1 (fun e _ => (contrib e.label).1 t ht) ?_ (fun e he => (tb e he).1 t ht) (hx t)
    exact (forall₂_both hch.effects hsh).imp fun e e' k => ⟨k.1.operation, k.2.imp (fun q => q.1) fun q => q.1 t ht⟩
  have invLe : ∀ e ∈ s.effects, y e.label ≤ σ (invSumL e.label) 0 := by
    refine ranked_cheaper (x := fun l => σ (invSumL l) 0) (d := fun l => s.invOf σ l) (d' := fun l => s'.invOf τ l) hn0 lab hr2 (fun e _ => (contrib e.label).2) ?_ (fun e he => (tb e he).2) hy
    exact (forall₂_both hch.effects hsh).imp fun e e' k => ⟨k.1.invest, k.2.imp (fun q => q.2) fun q => q.2⟩
  let T : Totals := ⟨fun l t => x t l, y⟩
  have sumLe : ∀ e ∈ s.effects, T.opSum sys.n e.label ≤ ∑ t ∈ Finset.range sys.n, σ (opTSL e.label) t :=
    fun e he => Finset.sum_le_sum fun t ht => opLe t (Finset.mem_range.1 ht) e he
  obtain ⟨σ', g1, g2, g3⟩ := solution_complete (T := T) hv hn hf' h' hc hbus' (fun e he => ⟨fun t _ => hx t e he, hy e he⟩) (fun e' he' => by
    obtain ⟨e, he, k⟩ := forall₂_mem_right hl.effects he'
    have al := ta e he
    obtain ⟨m1, m2, m3, m4⟩ := hm e' he'
    have i := invLe e he
    have p := sumLe e he
    refine ⟨by simp [m1], ?_, by simp [m2], ?_, by simp [m3], ?_, by simp [m4], ?_⟩ <;> rw [k.label]
    · exact fun m hmm => le_trans p (k.maxOperation.keep al.maxOperation m hmm)
    · exact fun m hmm => le_trans i (k.maxInvest.keep al.maxInvest m hmm)
    · exact fun m hmm => le_trans (add_le_add p i) (k.maxTotal.keep al.maxTotal m hmm)
    · exact fun m hmm t ht => le_trans (opLe t ht e he) (k.maxPerHour.keep hw al.maxPerHour m hmm t ht))
  have tot : ∀ e ∈ s.effects, (∀ t < sys.n, σ' (e.label ++ "__operation_operation_sum_TS") t ≤ σ (e.label ++ "__operation_operation_sum_TS") t) ∧
        σ' (e.label ++ "__invest_invest_sum") 0 ≤ σ (e.label ++ "__invest_invest_sum") 0 := by
    intro e hem
    obtain ⟨e', hem', k⟩ := forall₂_mem_left hl.effects hem
    obtain ⟨q1, q2⟩ := g3 e' hem'
    rw [k.label] at q1 q2
    refine ⟨fun t ht => ?_, ?_⟩
    · exact le_trans (congrFun q1 t).le (opLe t ht e hem)
    · exact le_trans q2.le (invLe e hem)
  refine ⟨σ', g1, ?_, tot, ?_⟩
  · intro c hcm f hfm
    obtain ⟨c', hcm', hcl⟩ := forall₂_mem_left hl.comps hcm
    obtain ⟨e1, e2, e3, _⟩ := comp_shape hcl
    obtain ⟨oc, hoc, hmod⟩ := forall₂_mem_left (system_inv h').1 hcm'
    obtain ⟨f', hfm', hfl⟩ := forall₂_mem_left (List.rel_append e2 e3) hfm
    obtain ⟨x, hx, ex⟩ := rate_hasVar hmod hfm'
    rw [e1, hfl.label] at ex
    rw [← keepR, ← ex]
    exact g2 _ (physical_label h' (.inl ⟨oc, hoc, hx⟩))
  · obtain ⟨t₁, e₁, a1, a2, a3⟩ := solution_cost hv hn hf h
    obtain ⟨t₂, e₂, b1, b2, b3⟩ := solution_cost hv hn hf' h'
    refine ⟨t₁, t₂, a1, b1, ?_⟩
    rw [a3 σ hs, b3 σ' g1]
    have el : e₂.label = e₁.label := by
      rcases looser_find (p := (·.isObjective)) (fun e e' h => h.objective) hl.effects with ⟨k1, k2⟩ | ⟨e, e', k1, k2, k3⟩
      · rw [k1] at a2; cases a2
      · rw [k1] at a2
        rw [k2] at b2
        cases a2
        cases b2
        exact k3.label
    have hem := List.mem_of_find?_eq_some a2
    unfold System.cost
    rw [el]
    refine add_le_add (add_le_add (Finset.sum_le_sum fun t ht => (tot _ hem).1 t (Finset.mem_range.1 ht)) (tot _ hem).2) ?_
    exact pen hl.buses σ' fun b' hbm' hpen => by
      obtain ⟨x1, x2⟩ := excess_outside hv hf' h' hbm' hpen
      exact ⟨g2 _ x1, g2 _ x2⟩

/-- **C99 (optimum).**  The cheapest solution under lower prices costs no more than any solution under the original ones. -/
theorem C99_optimum (hv : sys.Valid) (hpd : sys.prevDt.Nonneg) (hn : sys.n ≠ 0) (hf : s.Fits sys.n) (hf' : s'.Fits sys.n) (hp : ∀ c ∈ s.comps, c.Proper sys ∧ c.CapacityNonneg)
    (hp' : ∀ c ∈ s'.comps, c.Proper sys ∧ c.CapacityNonneg) (hb : (s.buses.map (·.label)).Nodup) (h : systemModel sys s = .ok o) (h' : systemModel sys s' = .ok o')
    (hl : s.Looser sys.cfg.big sys.n s') (hch : s.Cheaper sys.n s') (hm : s'.NoMinimum) {rank : String → Nat} (hr1 : Ranked s'.effects (·.shareOperation) rank)
    (hr2 : Ranked s'.effects (·.shareInvest) rank) {σ σ' : Assignment} (hs : o.solver.Solves σ)
    (hsh : List.Forall₂ (fun e e' => (e'.shareOperation = e.shareOperation ∧ e'.shareInvest = e.shareInvest) ∨ NonnegTotals sys.n σ e) s.effects s'.effects) (ho : o'.Optimal σ') :
    ∃ t₁ t₂, objectiveTerms o.solver.objective = .ok t₁ ∧ objectiveTerms o'.solver.objective = .ok t₂ ∧ termsVal σ' t₂ ≤ termsVal σ t₁ := by
  obtain ⟨τ, g1, _, _, t₁, t₂, e1, e2, e3⟩ := C99 hv hpd hn hf hf' hp hp' hb h h' hl hch hm hr1 hr2 hs hsh
  obtain ⟨_, t, e, hmin⟩ := ho
  rw [e2] at e
  cases e
  exact ⟨t₁, t₂, e1, e2, le_trans (hmin τ g1) e3⟩

/-! ## Example -/

/-- A generator paid `p` per unit, with emissions that cost `q` per unit, and a load. -/
def exPriced (p q : ℚ) : System :=
  { effects := [{ label := "costs", isStandard := true, isObjective := true }, { label := "CO2", shareOperation := [("costs", .s q)] }]
    comps := [.plain { label := "Gen", inputs := [], outputs := [{ exGenFlow with effectsPerFlowHour := [(some "costs", .s p), (some "CO2", .s (1 / 2))] }] },
      .plain { label := "Load", inputs := [exDemand], outputs := [] }]
    buses := [{ label := "heat", excessPenalty := none }] }

def exPricedSol : Assignment := tableSol
  [("Gen__Q_flow_rate", [2, 4, 3, 1, 5, 2]), ("Gen__Q_sumFlowHours", [17]), ("Load__Q_flow_rate", [2, 4, 3, 1, 5, 2]), ("Load__Q_sumFlowHours", [17]),
   ("CO2__operation_operation_sum", [17 / 2]), ("CO2__operation_operation_sum_TS", [1, 2, 3 / 2, 1 / 2, 5 / 2, 1]), ("CO2__all_all_sum", [17 / 2]),
   ("CO2__Gen__Q__effects_per_flow_hour", [1, 2, 3 / 2, 1 / 2, 5 / 2, 1]), ("CO2__operation", [17 / 2]), ("costs__CO2_operation", [4, 8, 6, 2, 10, 4]),
   ("costs__Gen__Q__effects_per_flow_hour", [6, 12, 9, 3, 15, 6]), ("costs__operation_operation_sum", [85]),
   ("costs__operation_operation_sum_TS", [10, 20, 15, 5, 25, 10]), ("costs__all_all_sum", [85]), ("costs__operation", [85])]

theorem exPriced_flow (p : ℚ) : ({ exGenFlow with effectsPerFlowHour := [(some "costs", .s p), (some "CO2", .s (1 / 2))] } : FlowData).Fits exDay.n ∧
    ({ exGenFlow with effectsPerFlowHour := [(some "costs", .s p), (some "CO2", .s (1 / 2))] } : FlowData).Sensible exDay.cfg exDay.n ∧
    ({ exGenFlow with effectsPerFlowHour := [(some "costs", .s p), (some "CO2", .s (1 / 2))] } : FlowData).Proper exDay.n := by
  refine ⟨?_, ⟨?_, ?_, ?_⟩, ?_⟩
  all_goals first
    | (constructor <;> simp [exGenFlow, Num.Fits, Num.len, Num.isScalar, exDay, exCfg, InvestParams.segEffects, FlowData.lowRel, FlowData.highRel]; done)
    | (intro t _; simp [exGenFlow, FlowData.lowRel, FlowData.highRel, Num.at]; done)
    | (simp [exGenFlow, exDay, exCfg, Num.at]; done)
    | (intro q hq; cases hq; done)

theorem exPriced_proper (p q : ℚ) : ∀ c ∈ (exPriced p q).comps, c.Proper exDay ∧ c.CapacityNonneg := by
  have h := exDay_flows
  simp only [List.forall_mem_cons, List.not_mem_nil, false_imp_iff, implies_true, and_true] at h
  obtain ⟨_, d, _, _⟩ := h
  have g := exPriced_flow p
  intro c hc
  simp only [exPriced, List.mem_cons, List.not_mem_nil, or_false] at hc
  rcases hc with rfl | rfl
  · exact ⟨⟨by simp, by simpa using g.1, by simpa using g.2.1, by simpa using g.2.2, by simp⟩, trivial⟩
  · exact ⟨⟨by decide, by simpa using d.1, by simpa using d.2.1, by simpa using d.2.2.1, by simp⟩, trivial⟩

theorem exPriced_fits (p q : ℚ) : (exPriced p q).Fits exDay.n := by
  refine ⟨?_, ?_, ?_⟩
  · intro e he
    simp only [exPriced, List.mem_cons, List.not_mem_nil, or_false] at he
    rcases he with rfl | rfl <;> refine ⟨?_, ?_, ?_, ?_⟩ <;> simp [Num.Fits, Num.isScalar]
  · intro c hc
    simp only [exPriced, List.mem_cons, List.not_mem_nil, or_false] at hc
    rcases hc with rfl | rfl <;> refine ⟨?_, ?_, ?_⟩ <;> simp [Comp.flows, Comp.inputs, Comp.outputs, Comp.onOff, exGenFlow, exDemand]
    · refine ⟨?_, by simp, by simp⟩
      simp [EffDict.Series, Num.Fits, Num.isScalar]
    · refine ⟨?_, ?_, ?_⟩ <;> simp [EffDict.Series]
  · simp [exPriced]

theorem exPriced_looser (p q p' q' : ℚ) : (exPriced p q).Looser exDay.cfg.big exDay.n (exPriced p' q') := by
  refine ⟨.cons ?_ (.cons ?_ .nil), .cons ?_ (.cons ?_ .nil), .cons ⟨rfl, by simp⟩ .nil⟩
  · constructor <;> first | rfl | (intro m hm; cases hm)
  · constructor <;> first | rfl | (intro m hm; cases hm)
  · refine ⟨rfl, .nil, .cons ?_ .nil, trivial, rfl⟩
    refine ⟨rfl, rfl, rfl, .inl rfl, fun _ _ => le_rfl, fun _ _ => le_rfl, trivial, ?_, ?_, ?_, ?_, .inl ⟨10, 10, rfl, rfl, fun t _ => ⟨le_rfl, le_rfl⟩, ?_, ?_⟩⟩
    all_goals first
      | (intro m hm; cases hm; done)
      | (intro m m' hm; simp [exGenFlow] at hm; done)
  · exact ⟨rfl, .cons (same_flow_looser (S := 1) rfl rfl) .nil, .nil, trivial, rfl⟩

theorem exPriced_cheaper {p q p' q' : ℚ} (hp : p' ≤ p) (h0 : 0 ≤ q') (hq : q' ≤ q) : (exPriced p q).Cheaper exDay.n (exPriced p' q') := by
  refine ⟨.cons ⟨.nil, .nil⟩ (.cons ⟨.cons ⟨rfl, fun _ _ => ⟨h0, hq⟩⟩ .nil, .nil⟩ .nil), .cons ⟨.cons ⟨.cons ⟨rfl, fun _ _ => hp⟩ (.cons ⟨rfl, fun _ _ => le_rfl⟩ .nil), ?_, ?_⟩ .nil, ?_, ?_⟩
    (.cons ⟨.cons ⟨.nil, ?_, ?_⟩ .nil, ?_, ?_⟩ .nil)⟩
  all_goals first
    | (intro q q' h; cases h; done)
    | (intro a b q q' h; cases h; done)

theorem exPriced_ranked (p q : ℚ) : Ranked (exPriced p q).effects (·.shareOperation) (fun l => if l = "CO2" then 1 else 0) ∧
    Ranked (exPriced p q).effects (·.shareInvest) (fun l => if l = "CO2" then 1 else 0) := by
  constructor <;> simp [Ranked, exPriced]

/-- The hypotheses of `C99` are met: the generator gets cheaper, and so do its emissions; the same rates then cost 85 / 2 instead of 85. -/
example : ∃ o o' σ', systemModel exDay (exPriced 3 4) = .ok o ∧ o.solver.Solves exPricedSol ∧ systemModel exDay (exPriced 2 1) = .ok o' ∧ o'.solver.Solves σ' ∧
    σ' "Gen__Q_flow_rate" = exPricedSol "Gen__Q_flow_rate" ∧ ∃ t₁ t₂, objectiveTerms o.solver.objective = .ok t₁ ∧ objectiveTerms o'.solver.objective = .ok t₂ ∧
      termsVal σ' t₂ ≤ termsVal exPricedSol t₁ := by
  obtain ⟨o, h, hs⟩ := builds_and_solves (σ := exPricedSol) (r := systemModel exDay (exPriced 3 4)) (f := fun o : SysOut => MTree.node o.solver.vars o.solver.cons []) (by decide +kernel)
  obtain ⟨o', h'⟩ : ∃ o', systemModel exDay (exPriced 2 1) = .ok o' := builds (by decide +kernel)
  obtain ⟨σ', g1, g2, _, g3⟩ := C99 exDay_valid (by simp [exDay, Num.Nonneg]) (by decide) (exPriced_fits 3 4) (exPriced_fits 2 1) (exPriced_proper 3 4) (exPriced_proper 2 1) (by decide) h h'
    (exPriced_looser 3 4 2 1) (exPriced_cheaper (by norm_num) (by norm_num) (by norm_num)) (by intro e he; simp only [exPriced, List.mem_cons, List.not_mem_nil, or_false] at he; rcases he with rfl | rfl <;> simp)
    (exPriced_ranked 2 1).1 (exPriced_ranked 2 1).2 ⟨hs.1, hs.2.1⟩ (.cons (.inl ⟨rfl, rfl⟩) (.cons (.inr ⟨by decide +kernel, by decide +kernel⟩) .nil))
  refine ⟨o, o', σ', h, ⟨hs.1, hs.2.1⟩, h', g1, ?_, g3⟩
  have := g2 _ List.mem_cons_self _ List.mem_cons_self
  rw [show (Comp.plain { label := "Gen", inputs := [], outputs := [{ exGenFlow with effectsPerFlowHour := [(some "costs", .s 3), (some "CO2", .s (1 / 2))] }] }).label ++ "__" ++ exGenFlow.label ++ "_" ++
    "flow_rate" = "Gen__Q_flow_rate" by decide +kernel] at this
  exact this

/-- The hypotheses of `C99_optimum` are met: there is a cheapest solution under the lower prices. -/
example : ∃ o o' σ' t₁ t₂, systemModel exDay (exPriced 3 4) = .ok o ∧ systemModel exDay (exPriced 2 1) = .ok o' ∧ o'.Optimal σ' ∧ objectiveTerms o.solver.objective = .ok t₁ ∧
    objectiveTerms o'.solver.objective = .ok t₂ ∧ termsVal σ' t₂ ≤ termsVal exPricedSol t₁ := by
  obtain ⟨o, h, hs⟩ := builds_and_solves (σ := exPricedSol) (r := systemModel exDay (exPriced 3 4)) (f := fun o : SysOut => MTree.node o.solver.vars o.solver.cons []) (by decide +kernel)
  obtain ⟨o', h'⟩ : ∃ o', systemModel exDay (exPriced 2 1) = .ok o' := builds (by decide +kernel)
  have hch : (exPriced 3 4).Cheaper exDay.n (exPriced 2 1) := exPriced_cheaper (by norm_num) (by norm_num) (by norm_num)
  have hm : (exPriced 2 1).NoMinimum := by
    intro e he
    simp only [exPriced, List.mem_cons, List.not_mem_nil, or_false] at he
    rcases he with rfl | rfl <;> simp
  have hsh : List.Forall₂ (fun e e' => (e'.shareOperation = e.shareOperation ∧ e'.shareInvest = e.shareInvest) ∨ NonnegTotals exDay.n exPricedSol e) (exPriced 3 4).effects (exPriced 2 1).effects :=
    .cons (.inl ⟨rfl, rfl⟩) (.cons (.inr ⟨by decide +kernel, by decide +kernel⟩) .nil)
  have hpd : exDay.prevDt.Nonneg := by simp [exDay, Num.Nonneg]
  obtain ⟨τ, g1, _⟩ := C99 exDay_valid hpd (by decide) (exPriced_fits 3 4) (exPriced_fits 2 1) (exPriced_proper 3 4) (exPriced_proper 2 1) (by decide) h h'
    (exPriced_looser 3 4 2 1) hch hm (exPriced_ranked 2 1).1 (exPriced_ranked 2 1).2 ⟨hs.1, hs.2.1⟩ hsh
  have fl := exDay_flows
  simp only [List.forall_mem_cons, List.not_mem_nil, false_imp_iff, implies_true, and_true] at fl
  obtain ⟨σ', ho⟩ := C95 exDay_valid (by decide) (exPriced_fits 2 1) (by
    simp only [exPriced, List.forall_mem_cons, List.not_mem_nil, false_imp_iff, implies_true, and_true, Comp.flows, Comp.inputs, Comp.outputs, List.nil_append, List.append_nil]
    exact ⟨(exPriced_flow 2).1, fl.2.1.1⟩) h' (exPriced_ranked 2 1).1 (exPriced_ranked 2 1).2 (by simp [exPriced]) ⟨τ, g1⟩
  obtain ⟨t₁, t₂, e⟩ := C99_optimum exDay_valid hpd (by decide) (exPriced_fits 3 4) (exPriced_fits 2 1) (exPriced_proper 3 4) (exPriced_proper 2 1) (by decide) h h'
    (exPriced_looser 3 4 2 1) hch hm (exPriced_ranked 2 1).1 (exPriced_ranked 2 1).2 ⟨hs.1, hs.2.1⟩ hsh ho
  exact ⟨o, o', σ', t₁, t₂, h, h', ho, e⟩

/-- The hypotheses of `C99_any_price` are met for any prices whatsoever under which the model is built. -/
example (p q : ℚ) {o' : SysOut} (h' : systemModel exDay (exPriced p q) = .ok o') : ∃ σ', o'.solver.Solves σ' := by
  obtain ⟨o, h, hs⟩ := builds_and_solves (σ := exPricedSol) (r := systemModel exDay (exPriced 3 4)) (f := fun o : SysOut => MTree.node o.solver.vars o.solver.cons []) (by decide +kernel)
  obtain ⟨σ', g1, _⟩ := C99_any_price exDay_valid (by simp [exDay, Num.Nonneg]) (by decide) (exPriced_fits 3 4) (exPriced_fits p q) (exPriced_proper 3 4) (exPriced_proper p q) (by decide) h h'
    (exPriced_looser 3 4 p q).freer (by intro e he; simp only [exPriced, List.mem_cons, List.not_mem_nil, or_false] at he; rcases he with rfl | rfl <;> simp)
    (exPriced_ranked p q).1 (exPriced_ranked p q).2 ⟨hs.1, hs.2.1⟩
  exact ⟨σ', g1⟩

end Flix
