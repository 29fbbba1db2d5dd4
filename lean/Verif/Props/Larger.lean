import Verif.Lemmas.Larger4

/-!
# C118: a system `k` times as large costs `k` times as much
-/

namespace Flix

variable {sys : Sys} {s : System} {k : ℚ} {o o' : SysOut}

/-- The results `σ'` are the results `σ` at `k` times the size: powers, energies, sizes and effects are `k` times as large, all other variables of components (states, starts, durations,
decisions to build) are the same. -/
structure System.AsLarge (sys : Sys) (s : System) (k : ℚ) (o' : SysOut) (σ σ' : Assignment) : Prop where
  rates : ∀ c ∈ s.comps, ∀ f ∈ c.inputs ++ c.outputs, ∀ t,
    σ' (c.label ++ "__" ++ f.label ++ "_" ++ "flow_rate") t = k * σ (c.label ++ "__" ++ f.label ++ "_" ++ "flow_rate") t
  energy : ∀ v, (∃ c ∈ o'.comps, c.tree.HasVar v) → ∀ el x, s.HasElement el → x ∈ energyEndings → v.label = el ++ x → ∀ t, σ' v.label t = k * σ v.label t
  others : ∀ v, (∃ c ∈ o'.comps, c.tree.HasVar v) → (∀ el x, s.HasElement el → x ∈ energyEndings → v.label ≠ el ++ x) → σ' v.label = σ v.label
  effects : ∀ e ∈ s.effects,
    (∀ t < sys.n, σ' (e.label ++ "__operation_operation_sum_TS") t = k * σ (e.label ++ "__operation_operation_sum_TS") t) ∧
    σ' (e.label ++ "__invest_invest_sum") 0 = k * σ (e.label ++ "__invest_invest_sum") 0

theorem hasElement_costly {el : String} : (s.costly k).HasElement el ↔ s.HasElement el := by
  constructor
  · rintro (⟨c, hc⟩ | ⟨c, f, hc, hf⟩ | ⟨b, hb⟩)
    · obtain ⟨c, hd, rfl⟩ := List.mem_map.1 hc
      rw [(comp_costly_shape c).1]
      exact .comp c hd
    · obtain ⟨c, hd, rfl⟩ := List.mem_map.1 hc
      change f ∈ (c.costly k).flows at hf
      rw [comp_costly_flows] at hf
      obtain ⟨f, hg, rfl⟩ := List.mem_map.1 hf
      rw [(comp_costly_shape c).1]
      exact .flow c f hd hg
    · obtain ⟨b, hd, rfl⟩ := List.mem_map.1 hb
      exact .bus b hd
  · rintro (⟨c, hc⟩ | ⟨c, f, hc, hf⟩ | ⟨b, hb⟩)
    · rw [← (comp_costly_shape (k := k) c).1]
      exact .comp _ (List.mem_map_of_mem hc)
    · rw [← (comp_costly_shape (k := k) c).1]
      refine .flow (c.costly k) (f.costly k) (List.mem_map_of_mem hc) ?_
      show f.costly k ∈ (c.costly k).flows
      rw [comp_costly_flows]
      exact List.mem_map_of_mem hf
    · exact .bus (b.costly k) (List.mem_map_of_mem hb)

/-- What is declared for the small system. -/
structure System.Scalable (sys : Sys) (s : System) (k : ℚ) : Prop where
  valid : sys.Valid
  past : sys.prevDt.Nonneg
  steps : 1 < sys.n
  sane : s.Sane sys
  tied : s.Tied
  named : s.Named
  proper : ∀ c ∈ s.comps, c.Proper sys ∧ c.CapacityNonneg
  smooth : ∀ c ∈ s.comps, c.NoPieces
  pos : 0 < k
  eps : sys.cfg.eps < 1
  epsLarge : k * sys.cfg.eps < 1

theorem System.Scalable.middle (h : s.Scalable sys k) : ∃ om, systemModel sys (s.costly k) = .ok om := by
  obtain ⟨om, _, hm, _⟩ := C83 h.valid h.steps (system_sane_costly (k := k) h.sane) (system_tied_costly h.tied) (system_named_costly h.named)
  exact ⟨om, hm⟩

/-- **C118 (exists).**  A system of sensible declarations has a model at every size. -/
theorem C118_exists (h : s.Scalable sys k) : ∃ o o', systemModel sys s = .ok o ∧ systemModel (sys.inUnit k) (s.times k) = .ok o' := by
  obtain ⟨o, _, h1, _⟩ := C83 h.valid h.steps h.sane h.tied h.named
  obtain ⟨o', _, h2, _⟩ := C83 (valid_inUnit h.pos h.valid) (sys := sys.inUnit k) h.steps (system_sane_inUnit h.pos.ne' (system_sane_costly (k := k) h.sane))
    (system_tied_inUnit (system_tied_costly h.tied)) (system_named_inUnit (system_named_costly h.named))
  rw [system_both h.pos.ne' h.smooth] at h2
  exact ⟨o, o', h1, h2⟩

/-- **C107 (exists).**  Whatever the unit of energy: a system of sensible declarations has a model. -/
theorem C107_exists (hv : sys.Valid) (hn : 1 < sys.n) (hk : 0 < k) (h : s.Sane sys) (ht : s.Tied) (hs : s.Named) :
    ∃ o o', systemModel sys s = .ok o ∧ systemModel (sys.inUnit k) (s.inUnit k) = .ok o' := by
  obtain ⟨o, _, h1, _⟩ := C83 hv hn h ht hs
  obtain ⟨o', _, h2, _⟩ := C83 (valid_inUnit hk hv) (sys := sys.inUnit k) hn (system_sane_inUnit hk.ne' h) (system_tied_inUnit ht) (system_named_inUnit hs)
  exact ⟨o, o', h1, h2⟩

theorem comps_labels {κ : String → ℚ} (hl : o.Sc κ o') {v : Var} (hv : ∃ c ∈ o'.comps, c.tree.HasVar v) : ∃ c ∈ o.comps, ∃ x, c.tree.HasVar x ∧ x.label = v.label := by
  obtain ⟨c', hc', hx⟩ := hv
  obtain ⟨c, hc, hsc⟩ := forall₂_mem_right hl.comps hc'
  have e := scAll_labels (κ := κ) (t := [c.tree]) (t' := [c'.tree]) (scAll_iff.2 (.cons hsc .nil))
  simp only [List.flatMap_cons, List.flatMap_nil, List.append_nil] at e
  have := hasVar_labels hx
  rw [e] at this
  obtain ⟨x, h1, h2⟩ := hasVar_of_label this
  exact ⟨c, hc, x, h1, h2⟩

/-- **C118.**  A system `k` times as large (sizes, demands, limits, and what is paid per start, running hour or for building at all) can do the same at `k` times the size, and that costs `k`
times as much. -/
theorem C118 (h : s.Scalable sys k) (h1 : systemModel sys s = .ok o) (h2 : systemModel (sys.inUnit k) (s.times k) = .ok o') {σ : Assignment} (hσ : o.solver.Solves σ) :
    ∃ σ', o'.solver.Solves σ' ∧ s.AsLarge sys k o' σ σ' ∧
      ∃ t₁ t₂, objectiveTerms o.solver.objective = .ok t₁ ∧ objectiveTerms o'.solver.objective = .ok t₂ ∧ termsVal σ' t₂ = k * termsVal σ t₁ := by
  obtain ⟨om, hm⟩ := h.middle
  have hn : sys.n ≠ 0 := by have := h.steps; omega
  have hsm := system_sane_costly (k := k) h.sane
  have hnm := system_named_costly (k := k) h.named
  have hkm := system_segments_costly (k := k) h.smooth
  have hpm : ∀ c ∈ (s.costly k).comps, c.Proper sys ∧ c.CapacityNonneg := by
    intro c hc
    obtain ⟨c, hd, rfl⟩ := List.mem_map.1 hc
    exact comp_proper_costly (h.proper c hd)
  rw [← system_both h.pos.ne' h.smooth] at h2
  obtain ⟨τ, g1, g2, g3, g4, t₁, t₂, a1, a2, a3⟩ := C103 h.valid h.past hn (sane_fits h.sane) (sane_fits hsm) h.proper hpm h1 hm (fun _ => h.pos) (costly_inUnits h.smooth) hσ
  obtain ⟨σ', f1, f2, b₁, b₂, c1, c2, c3⟩ := C107 h.valid hn (sane_fits hsm) hnm hkm h.pos h.eps h.epsLarge hm h2 g1
  have hl := system_sc (unitOk h.valid h.pos h.eps h.epsLarge) hnm hkm hm h2
  refine ⟨σ', f1, ⟨fun c hc f hf t => ?_, fun v hv el x he hx e t => ?_, fun v hv hne => ?_, fun e he => ?_⟩, t₁, b₂, a1, c2, ?_⟩
  · have := f2.rates (c.costly k) (List.mem_map_of_mem hc) (f.costly k) (by
      show f.costly k ∈ (c.costly k).flows
      rw [comp_costly_flows]
      exact List.mem_map_of_mem hf) t
    rw [(comp_costly_shape c).1] at this
    change σ' (c.label ++ "__" ++ f.label ++ "_" ++ "flow_rate") t = k * τ (c.label ++ "__" ++ f.label ++ "_" ++ "flow_rate") t at this
    rw [this, g3 c hc f hf]
  · obtain ⟨c, hc, y, hy, ey⟩ := comps_labels hl hv
    have := f2.energy y (.inl ⟨c, hc, hy⟩) el x (hasElement_costly.2 he) hx (ey.trans e) t
    rw [← ey, this, g2 c hc y hy]
  · obtain ⟨c, hc, y, hy, ey⟩ := comps_labels hl hv
    have := f2.others y (.inl ⟨c, hc, hy⟩) fun el x he hx => by rw [ey]; exact hne el x (hasElement_costly.1 he) hx
    rw [← ey, this, g2 c hc y hy]
  · obtain ⟨p1, p2⟩ := f2.effects (e.times k) (List.mem_map_of_mem he)
    obtain ⟨q1, q2⟩ := g4 e he
    exact ⟨fun t ht => (p1 t ht).trans (q1 t ht), p2.trans q2⟩
  · rw [a2] at c1
    cases c1
    rw [c3, a3]

/-- **C118 (back).**  Conversely, whatever the large system can do, the small one can do at one `k`-th of the size and of the cost. -/
theorem C118_back (h : s.Scalable sys k) (h1 : systemModel sys s = .ok o) (h2 : systemModel (sys.inUnit k) (s.times k) = .ok o') {σ' : Assignment} (hσ : o'.solver.Solves σ') :
    ∃ σ, o.solver.Solves σ ∧
      (∀ c ∈ s.comps, ∀ f ∈ c.inputs ++ c.outputs, ∀ t, σ' (c.label ++ "__" ++ f.label ++ "_" ++ "flow_rate") t = k * σ (c.label ++ "__" ++ f.label ++ "_" ++ "flow_rate") t) ∧
      (∀ e ∈ s.effects, (∀ t < sys.n, σ' (e.label ++ "__operation_operation_sum_TS") t = k * σ (e.label ++ "__operation_operation_sum_TS") t) ∧
        σ' (e.label ++ "__invest_invest_sum") 0 = k * σ (e.label ++ "__invest_invest_sum") 0) ∧
      ∃ t₁ t₂, objectiveTerms o.solver.objective = .ok t₁ ∧ objectiveTerms o'.solver.objective = .ok t₂ ∧ termsVal σ' t₂ = k * termsVal σ t₁ := by
  obtain ⟨om, hm⟩ := h.middle
  have hn : sys.n ≠ 0 := by have := h.steps; omega
  have hsm := system_sane_costly (k := k) h.sane
  have hnm := system_named_costly (k := k) h.named
  have hkm := system_segments_costly (k := k) h.smooth
  have hpm : ∀ c ∈ (s.costly k).comps, c.Proper sys ∧ c.CapacityNonneg := by
    intro c hc
    obtain ⟨c, hd, rfl⟩ := List.mem_map.1 hc
    exact comp_proper_costly (h.proper c hd)
  rw [← system_both h.pos.ne' h.smooth] at h2
  have hl : s.InUnits sys.cfg.big sys.n (fun _ => k) k (s.costly k) := costly_inUnits h.smooth
  obtain ⟨τ, f1, f2, b₁, b₂, c1, c2, c3⟩ := C107_back h.valid hn (sane_fits hsm) hnm hkm h.pos h.eps h.epsLarge hm h2 hσ
  obtain ⟨σ, g1, g2, g3, g4, t₁, t₂, a1, a2, a3⟩ := C103 h.valid h.past hn (sane_fits hsm) (sane_fits h.sane) hpm h.proper hm h1 (fun _ => inv_pos.2 h.pos) (hl.symm (fun _ => h.pos) h.pos) f1
  have hk := h.pos.ne'
  refine ⟨σ, g1, fun c hc f hf t => ?_, fun e he => ?_, t₂, b₂, a2, c2, ?_⟩
  · have hf' : f.costly k ∈ (c.costly k).inputs ++ (c.costly k).outputs := by
      show f.costly k ∈ (c.costly k).flows
      rw [comp_costly_flows]
      exact List.mem_map_of_mem hf
    have p := f2.rates (c.costly k) (List.mem_map_of_mem hc) (f.costly k) hf' t
    have q := g3 (c.costly k) (List.mem_map_of_mem hc) (f.costly k) hf'
    rw [(comp_costly_shape c).1] at p q
    exact p.trans (by rw [← q]; rfl)
  · obtain ⟨p1, p2⟩ := f2.effects (e.times k) (List.mem_map_of_mem he)
    obtain ⟨q1, q2⟩ := g4 (e.times k) (List.mem_map_of_mem he)
    refine ⟨fun t ht => ?_, ?_⟩
    · refine (p1 t ht).trans ?_
      have := q1 t ht
      change σ (e.label ++ "__operation_operation_sum_TS") t = k⁻¹ * τ (e.label ++ "__operation_operation_sum_TS") t at this
      rw [this]
      show τ (e.label ++ "__operation_operation_sum_TS") t = _
      field_simp
    · refine p2.trans ?_
      change σ (e.label ++ "__invest_invest_sum") 0 = k⁻¹ * τ (e.label ++ "__invest_invest_sum") 0 at q2
      rw [q2]
      show τ (e.label ++ "__invest_invest_sum") 0 = _
      field_simp
  · rw [a1] at c1
    cases c1
    rw [c3, a3]
    field_simp

/-- **C118 (optimum).**  The best operation and the best sizes of the large system are those of the small one, `k` times as large. -/
theorem C118_optimum (h : s.Scalable sys k) (h1 : systemModel sys s = .ok o) (h2 : systemModel (sys.inUnit k) (s.times k) = .ok o') {σ : Assignment} (ho : o.Optimal σ) :
    ∃ σ', o'.Optimal σ' ∧ s.AsLarge sys k o' σ σ' ∧
      ∃ t₁ t₂, objectiveTerms o.solver.objective = .ok t₁ ∧ objectiveTerms o'.solver.objective = .ok t₂ ∧ termsVal σ' t₂ = k * termsVal σ t₁ := by
  obtain ⟨hσ, t, et, hmin⟩ := ho
  obtain ⟨σ', g1, g2, t₁, t₂, a1, a2, a3⟩ := C118 h h1 h2 hσ
  refine ⟨σ', ⟨g1, t₂, a2, fun τ hτ => ?_⟩, g2, t₁, t₂, a1, a2, a3⟩
  rw [et] at a1
  cases a1
  obtain ⟨ρ, r1, _, _, b₁, b₂, c1, c2, c3⟩ := C118_back h h1 h2 hτ
  rw [et] at c1
  cases c1
  rw [a2] at c2
  cases c2
  rw [a3, c3]
  exact mul_le_mul_of_nonneg_left (hmin ρ r1) h.pos.le

/-! ## Example -/

theorem exWith_nil : exWith [] = exSystem := by
  unfold exWith
  simp

theorem exSystem_proper : ∀ c ∈ exSystem.comps, c.Proper exSys ∧ c.CapacityNonneg := by
  have key : ∀ f ∈ [exGasOut, exBoilerIn, exBoilerOut, exLoadIn], f.Fits exSys.n ∧ f.Sensible exSys.cfg exSys.n ∧ f.Proper exSys.n := by
    intro f hf
    simp only [List.mem_cons, List.not_mem_nil, or_false] at hf
    rcases hf with rfl | rfl | rfl | rfl
    all_goals
      refine ⟨⟨Or.inl rfl, Or.inl rfl, ?_, ?_⟩, ⟨⟨?_, ?_⟩, ?_, ?_⟩, ?_, ?_⟩
    all_goals first
      | (simp [exGasOut, exBoilerIn, exBoilerOut, exLoadIn, exSys, exCfg, Num.Fits, Num.len]; done)
      | (intro t ht; simp [exGasOut, exBoilerIn, exBoilerOut, FlowData.lowRel, FlowData.highRel, Num.at]; done)
      | skip
    · intro q hq
      cases hq
      norm_num [InvestParams.NoZero, InvestParams.NonnegSizes, exBoilerInvest, exSys, exCfg]
      exact ⟨by simp, by simp⟩
    · intro q hq
      cases hq
      simp [InvestParams.segEffects, exBoilerInvest]
    · intro t ht
      have : t < 3 := ht
      interval_cases t <;> norm_num [exLoadIn, FlowData.lowRel, FlowData.highRel, Num.at]
  simp only [List.forall_mem_cons, List.not_mem_nil, false_imp_iff, implies_true, and_true] at key
  obtain ⟨k1, k2, k3, k4⟩ := key
  intro c hc
  simp only [exSystem, List.mem_cons, List.not_mem_nil, or_false] at hc
  rcases hc with rfl | rfl | rfl
  · exact ⟨⟨by simp, by simpa using k1.1, by simpa using k1.2.1, by simpa using k1.2.2, by simp⟩, trivial⟩
  · refine ⟨⟨⟨by decide, by simpa using ⟨k2.1, k3.1⟩, by simpa using ⟨k2.2.1, k3.2.1⟩, by simpa using ⟨k2.2.2, k3.2.2⟩, by simp⟩, ?_, by simp⟩, trivial⟩
    intro fs hfs q hq
    simp only [List.mem_singleton] at hfs
    subst hfs
    simp only [List.mem_cons, List.not_mem_nil, or_false] at hq
    rcases hq with rfl | rfl <;> exact Or.inl rfl
  · exact ⟨⟨by simp, by simpa using k4.1, by simpa using k4.2.1, by simpa using k4.2.2, by simp⟩, trivial⟩

theorem exSystem_smooth : ∀ c ∈ exSystem.comps, c.NoPieces := by
  intro c hc
  simp only [exSystem, List.mem_cons, List.not_mem_nil, or_false] at hc
  rcases hc with rfl | rfl | rfl
  all_goals
    refine ⟨fun f hf q hq => ?_, fun t q ht => by cases ht⟩
    simp only [Comp.flows, Comp.inputs, Comp.outputs, List.nil_append, List.cons_append, List.append_nil, List.mem_cons, List.not_mem_nil, or_false] at hf
  · subst hf; cases hq
  · rcases hf with rfl | rfl
    · cases hq
    · cases hq; rfl
  · subst hf; cases hq

theorem exSystem_scalable : exSystem.Scalable exSys 3 := by
  refine ⟨exSys_valid, by simp [exSys, Num.Nonneg], by decide, ?_, exSystem_tied, exSystem_named, exSystem_proper, exSystem_smooth, by norm_num, by norm_num [exSys, exCfg], by norm_num [exSys, exCfg]⟩
  rw [← exWith_nil]
  exact exWith_sane []

/-- The hypotheses are met by gas, a boiler of decided size and a load: three times as large, the boiler delivers 12 instead of 4, for 3·1236/5. -/
example : ∃ o o', systemModel exSys exSystem = .ok o ∧ systemModel (exSys.inUnit 3) (exSystem.times 3) = .ok o' ∧ o.solver.Solves exSystemSol ∧
    ∃ σ', o'.solver.Solves σ' ∧ exSystemSol "Boiler__th_flow_rate" 1 = 4 ∧ σ' "Boiler__th_flow_rate" 1 = 12 ∧
      ∃ t₁ t₂, objectiveTerms o.solver.objective = .ok t₁ ∧ objectiveTerms o'.solver.objective = .ok t₂ ∧ termsVal exSystemSol t₁ = 1236 / 5 ∧ termsVal σ' t₂ = 3 * (1236 / 5) := by
  obtain ⟨o, h, hs⟩ := exSystem_ok
  obtain ⟨_, o', _, h'⟩ := C118_exists exSystem_scalable
  obtain ⟨σ', g1, g2, t₁, t₂, a1, a2, a3⟩ := C118 exSystem_scalable h h' hs
  have e : termsVal exSystemSol t₁ = 1236 / 5 := by
    obtain ⟨t, e, b1, b2, b3⟩ := solution_cost exSys_valid (by decide) exSystem_fits h
    rw [a1] at b1
    cases b1
    rw [b3 exSystemSol hs]
    cases b2
    decide +kernel
  refine ⟨o, o', h, h', hs, σ', g1, by decide +kernel, ?_, t₁, t₂, a1, a2, e, by rw [a3, e]⟩
  have := g2.rates (.converter { comp := { label := "Boiler", inputs := [exBoilerIn], outputs := [exBoilerOut] }, factors := [[("fu", .s (1 / 2)), ("th", .s 1)]] }) (by simp [exSystem]) exBoilerOut
    (by simp [Comp.inputs, Comp.outputs]) 1
  refine Eq.trans ?_ (this.trans ?_)
  · exact congrArg (fun l => σ' l 1) (by decide +kernel)
  · decide +kernel

/-- The hypotheses of `C107_exists` are met by the same system in kilowatts. -/
example : ∃ o o', systemModel exSys exSystem = .ok o ∧ systemModel (exSys.inUnit 1000) (exSystem.inUnit 1000) = .ok o' :=
  C107_exists exSys_valid (by decide) (by norm_num) exSystem_scalable.sane exSystem_tied exSystem_named

/-- The large system: prices per unit as before, the fixed price of the boiler and its size three times as large. -/
example : (exSystem.times 3).comps.map Comp.flows = [[exGasOut.times 3], [exBoilerIn.times 3, exBoilerOut.times 3], [exLoadIn.times 3]] ∧ (exGasOut.times 3).effectsPerFlowHour = exGasOut.effectsPerFlowHour ∧
    (exBoilerOut.times 3).size = .invest { fixedSize := some 30, optional := false, fixEffects := [(none, .s 21)], specificEffects := [(some "costs", .s (1 / 2)), (some "co2", .s 3)] } ∧
    (exLoadIn.times 3).size = .num 12 := by
  refine ⟨by decide +kernel, rfl, by decide +kernel, by decide +kernel⟩

end Flix
