import Verif.Lemmas.Scale5
import Verif.Props.Renamed

/-!
# C107: the unit of energy does not matter
-/

namespace Flix

variable {sys : Sys} {s : System} {k : ℚ} {o o' : SysOut}

/-- The same results, powers and energies counted in units of which `k` make one old one. -/
structure System.InOtherUnit (sys : Sys) (s : System) (k : ℚ) (o : SysOut) (σ σ' : Assignment) : Prop where
  rates : ∀ c ∈ s.comps, ∀ f ∈ c.inputs ++ c.outputs, ∀ t,
    σ' (c.label ++ "__" ++ f.label ++ "_" ++ "flow_rate") t = k * σ (c.label ++ "__" ++ f.label ++ "_" ++ "flow_rate") t
  energy : ∀ v, ((∃ c ∈ o.comps, c.tree.HasVar v) ∨ ∃ b ∈ o.buses, b.tree.HasVar v) → ∀ el x, s.HasElement el → x ∈ energyEndings → v.label = el ++ x → ∀ t, σ' v.label t = k * σ v.label t
  others : ∀ v, ((∃ c ∈ o.comps, c.tree.HasVar v) ∨ ∃ b ∈ o.buses, b.tree.HasVar v) → (∀ el x, s.HasElement el → x ∈ energyEndings → v.label ≠ el ++ x) → σ' v.label = σ v.label
  effects : ∀ e ∈ s.effects,
    (∀ t < sys.n, σ' (e.label ++ "__operation_operation_sum_TS") t = σ (e.label ++ "__operation_operation_sum_TS") t) ∧
    σ' (e.label ++ "__invest_invest_sum") 0 = σ (e.label ++ "__invest_invest_sum") 0

theorem factor_other {l : String} (h : ∀ el x, s.HasElement el → x ∈ energyEndings → l ≠ el ++ x) : s.factor k l = 1 := by
  unfold System.factor
  rw [if_neg]
  rintro ⟨el, x, he, hx, e⟩
  exact h el x he hx e

theorem num_at_div (a : Num) (t : Nat) : (a.map (· / k)).at t = a.at t / k := by
  cases a with
  | s x => rfl
  | v xs =>
    match xs with
    | [] => simp [Num.map, Num.at]
    | [x] => simp [Num.map, Num.at]
    | x :: y :: xs =>
      simp only [Num.map, Num.at, List.map_cons]
      rw [← List.map_cons (f := (· / k)), ← List.map_cons (f := (· / k)), List.getD_eq_getElem?_getD, List.getD_eq_getElem?_getD, List.getElem?_map]
      cases (x :: y :: xs)[t]? <;> simp

/-- What both directions have in common. -/
theorem unit_results (hk : 0 < k) (hv : sys.Valid) (hf : s.Fits sys.n) (h : systemModel sys s = .ok o) (h' : systemModel (sys.inUnit k) (s.inUnit k) = .ok o') {σ τ : Assignment} (hn : sys.n ≠ 0)
    (s1 : o.solver.Solves σ) (s2 : o'.solver.Solves τ) (hp : ∀ l ∈ o.physLabels, ∀ t, τ l t = s.factor k l * σ l t)
    (he : ∀ e ∈ s.effects, (∀ t < sys.n, τ (opTSL e.label) t = σ (opTSL e.label) t) ∧ τ (invSumL e.label) 0 = σ (invSumL e.label) 0) :
    s.InOtherUnit sys k o σ τ ∧ ∃ t₁ t₂, objectiveTerms o.solver.objective = .ok t₁ ∧ objectiveTerms o'.solver.objective = .ok t₂ ∧ termsVal τ t₂ = termsVal σ t₁ := by
  have hvar : ∀ v, o.Physical v → ∀ el x, s.HasElement el → x ∈ energyEndings → v.label = el ++ x → ∀ t, τ v.label t = k * σ v.label t := by
    intro v hv el x hel hx e t
    rw [hp v.label (physLabels_iff.2 ⟨v, hv, rfl⟩) t]
    rw [show s.factor k v.label = k by rw [e]; exact factor_energy hel hx]
  refine ⟨⟨fun c hc f hfm t => ?_, hvar, fun v hv ho => ?_, he⟩, ?_⟩
  · obtain ⟨oc, hoc, hm⟩ := forall₂_mem_left (system_inv h).1 hc
    obtain ⟨v, hv, e⟩ := rate_hasVar hm hfm
    have := hvar v (.inl ⟨oc, hoc, hv⟩) _ "_flow_rate" (.flow c f hc hfm) (by decide +kernel) (by rw [e, end2 _ "_" "flow_rate"]; rfl) t
    rw [e] at this
    exact this
  · funext t
    rw [hp v.label (physLabels_iff.2 ⟨v, hv, rfl⟩) t, factor_other ho, one_mul]
  · obtain ⟨t₁, e₁, a1, a2, a3⟩ := solution_cost hv hn hf h
    obtain ⟨t₂, e₂, b1, b2, b3⟩ := solution_cost (valid_inUnit hk hv) hn (fits_inUnit hf) h'
    refine ⟨t₁, t₂, a1, b1, ?_⟩
    rw [a3 σ s1, b3 τ s2]
    have el : e₂ = e₁ := by
      change s.effects.find? _ = _ at b2
      rw [a2] at b2
      exact (Option.some.inj b2).symm
    subst el
    have hem := List.mem_of_find?_eq_some a2
    have pen : ((s.inUnit k).buses.map fun b => b.penaltyCost (sys.inUnit k) τ).sum = (s.buses.map fun b => b.penaltyCost sys σ).sum := by
      change ((s.buses.map (BusData.inUnit k)).map fun b => b.penaltyCost (sys.inUnit k) τ).sum = _
      rw [List.map_map]
      refine congrArg List.sum (List.map_congr_left fun b hb => ?_)
      obtain ⟨ob, hob, hm⟩ := forall₂_mem_left (system_inv h).2.1 hb
      simp only [Function.comp_apply]
      unfold BusData.penaltyCost
      rw [show (b.inUnit k).excessPenalty = b.excessPenalty.map (Num.map (· / k)) from rfl]
      cases hpen : b.excessPenalty with
      | none => rfl
      | some p =>
        obtain ⟨x, y, hx, hy, ex, ey⟩ := excess_vars hm hpen
        refine Finset.sum_congr rfl fun t _ => ?_
        have k1 := hvar x (.inr ⟨ob, hob, hx⟩) _ "_excess_input" (.bus b hb) (by decide +kernel) (by rw [ex, String.append_assoc]; rfl) t
        have k2 := hvar y (.inr ⟨ob, hob, hy⟩) _ "_excess_output" (.bus b hb) (by decide +kernel) (by rw [ey, String.append_assoc]; rfl) t
        rw [ex] at k1
        rw [ey] at k2
        change (p.map (· / k)).at t * sys.dt.getD t 0 * (τ (b.label ++ "_" ++ "excess_input") t + τ (b.label ++ "_" ++ "excess_output") t) = _
        rw [k1, k2, num_at_div]
        have := hk.ne'
        field_simp
    unfold System.cost
    rw [pen]
    have q1 := (he e₂ hem).1
    have q2 := (he e₂ hem).2
    exact congrArg₂ _ (congrArg₂ _ (Finset.sum_congr rfl fun t ht => q1 t (Finset.mem_range.1 ht)) q2) rfl

theorem SysOut.Sc.iff {κ : String → ℚ} (hκ : ∀ l, 0 < κ l) (hl : o.Sc κ o') (σ : Assignment) :
    ((∀ c ∈ o'.comps, c.tree.Solves (σ.sc κ)) ∧ ∀ b ∈ o'.buses, b.tree.Solves (σ.sc κ)) ↔ (∀ c ∈ o.comps, c.tree.Solves σ) ∧ ∀ b ∈ o.buses, b.tree.Solves σ := by
  refine and_congr ⟨fun h c hc => ?_, fun h c hc => ?_⟩ ⟨fun h c hc => ?_, fun h c hc => ?_⟩
  · obtain ⟨c', hc', k⟩ := forall₂_mem_left hl.comps hc
    exact (solves_sc hκ k).1 (h c' hc')
  · obtain ⟨c', hc', k⟩ := forall₂_mem_right hl.comps hc
    exact (solves_sc hκ k).2 (h c' hc')
  · obtain ⟨c', hc', k⟩ := forall₂_mem_left hl.buses hc
    exact (solves_sc hκ k).1 (h c' hc')
  · obtain ⟨c', hc', k⟩ := forall₂_mem_right hl.buses hc
    exact (solves_sc hκ k).2 (h c' hc')

theorem SysOut.Sc.physLabels {κ : String → ℚ} (h : o.Sc κ o') : o'.physLabels = o.physLabels := by
  refine scAll_labels (κ := κ) (scAll_iff.2 (List.rel_append ?_ ?_))
  · rw [List.forall₂_map_left_iff, List.forall₂_map_right_iff]
    exact h.comps
  · rw [List.forall₂_map_left_iff, List.forall₂_map_right_iff]
    exact h.buses

theorem unitOk (hv : sys.Valid) (hk : 0 < k) (h1 : sys.cfg.eps < 1) (h2 : k * sys.cfg.eps < 1) : UnitOk sys k := ⟨hk, hv.heps.le, h1, h2⟩

/-- **C107.**  The unit of energy does not matter: if powers, energies and the configured constants are counted in another unit and prices per unit follow, every solution is one in the new unit, at
the same cost. -/
theorem C107 (hv : sys.Valid) (hn : sys.n ≠ 0) (hf : s.Fits sys.n) (hs : s.Named) (hk : s.SegmentsKnown) (h0 : 0 < k) (h1 : sys.cfg.eps < 1) (h2 : k * sys.cfg.eps < 1)
    (h : systemModel sys s = .ok o) (h' : systemModel (sys.inUnit k) (s.inUnit k) = .ok o') {σ : Assignment} (hσ : o.solver.Solves σ) :
    ∃ σ', o'.solver.Solves σ' ∧ s.InOtherUnit sys k o σ σ' ∧
      ∃ t₁ t₂, objectiveTerms o.solver.objective = .ok t₁ ∧ objectiveTerms o'.solver.objective = .ok t₂ ∧ termsVal σ' t₂ = termsVal σ t₁ := by
  have hl := system_sc (unitOk hv h0 h1 h2) hs hk h h'
  obtain ⟨tb, ta⟩ := solution_totals hv hn hf h hσ
  obtain ⟨_, s2, s3⟩ := (system_solves h σ).1 hσ
  obtain ⟨c1, c2⟩ := (hl.iff (factor_pos h0) σ).2 ⟨s2, s3⟩
  have hv' := valid_inUnit h0 hv
  have con := fun l => contribs_sc (σ := σ) (sys := sys) h0 hs hk l
  obtain ⟨σ', g1, g2, g3⟩ := solution_complete (T := ⟨fun l t => σ (opTSL l) t, fun l => σ (invSumL l) 0⟩) hv' hn (fits_inUnit hf) h' c1 ((buses_iff hv' (fits_inUnit hf) h' _).1 c2)
    (balanced_same (fun l t _ => (con l).1 t) (fun l => (con l).2) tb) (fun e he => allowed_inUnit.2 (ta e he))
  obtain ⟨r1, r2⟩ := unit_results h0 hv hf h h' hn hσ g1 (fun l hm t => by
    have hm' : l ∈ o'.physLabels := by rw [hl.physLabels]; exact hm
    obtain ⟨x, hx, rfl⟩ := physLabels_iff.1 hm'
    rw [g2 _ (physical_label h' hx)]
    rfl) (fun e he => ⟨fun t _ => congrFun (g3 e he).1 t, (g3 e he).2⟩)
  exact ⟨σ', g1, r1, r2⟩

/-- **C107 (back).**  There are no further solutions in the new unit. -/
theorem C107_back (hv : sys.Valid) (hn : sys.n ≠ 0) (hf : s.Fits sys.n) (hs : s.Named) (hk : s.SegmentsKnown) (h0 : 0 < k) (h1 : sys.cfg.eps < 1) (h2 : k * sys.cfg.eps < 1)
    (h : systemModel sys s = .ok o) (h' : systemModel (sys.inUnit k) (s.inUnit k) = .ok o') {σ' : Assignment} (hσ : o'.solver.Solves σ') :
    ∃ σ, o.solver.Solves σ ∧ s.InOtherUnit sys k o σ σ' ∧
      ∃ t₁ t₂, objectiveTerms o.solver.objective = .ok t₁ ∧ objectiveTerms o'.solver.objective = .ok t₂ ∧ termsVal σ' t₂ = termsVal σ t₁ := by
  have hl := system_sc (unitOk hv h0 h1 h2) hs hk h h'
  have hv' := valid_inUnit h0 hv
  obtain ⟨tb, ta⟩ := solution_totals hv' hn (fits_inUnit hf) h' hσ
  obtain ⟨_, s2, s3⟩ := (system_solves h' σ').1 hσ
  let τ : Assignment := fun l t => σ' l t / s.factor k l
  have hτ : τ.sc (s.factor k) = σ' := by
    funext l t
    show s.factor k l * (σ' l t / s.factor k l) = _
    exact mul_div_cancel₀ _ (factor_pos h0 l).ne'
  rw [← hτ] at s2 s3
  obtain ⟨c1, c2⟩ := (hl.iff (factor_pos h0) τ).1 ⟨s2, s3⟩
  have con := fun l => contribs_sc (σ := τ) (sys := sys) h0 hs hk l
  rw [hτ] at con
  obtain ⟨σ, g1, g2, g3⟩ := solution_complete (T := ⟨fun l t => σ' (opTSL l) t, fun l => σ' (invSumL l) 0⟩) hv hn hf h c1 ((buses_iff hv hf h _).1 c2)
    (balanced_same (fun l t _ => ((con l).1 t).symm) (fun l => (con l).2.symm) tb) (fun e he => allowed_inUnit.1 (ta e he))
  obtain ⟨r1, r2⟩ := unit_results h0 hv hf h h' hn g1 hσ (fun l hm t => by
    obtain ⟨x, hx, rfl⟩ := physLabels_iff.1 hm
    rw [g2 _ (physical_label h hx)]
    exact (congrFun (congrFun hτ x.label) t).symm) (fun e he => ⟨fun t _ => (congrFun (g3 e he).1 t).symm, (g3 e he).2.symm⟩)
  exact ⟨σ, g1, r1, r2⟩

/-- **C107 (optimum).**  The cheapest operation is the same in all units. -/
theorem C107_optimum (hv : sys.Valid) (hn : sys.n ≠ 0) (hf : s.Fits sys.n) (hs : s.Named) (hk : s.SegmentsKnown) (h0 : 0 < k) (h1 : sys.cfg.eps < 1) (h2 : k * sys.cfg.eps < 1)
    (h : systemModel sys s = .ok o) (h' : systemModel (sys.inUnit k) (s.inUnit k) = .ok o') {σ : Assignment} (ho : o.Optimal σ) :
    ∃ σ', o'.Optimal σ' ∧ s.InOtherUnit sys k o σ σ' := by
  obtain ⟨hσ, t, et, hmin⟩ := ho
  obtain ⟨σ', g1, g2, t₁, t₂, a1, a2, a3⟩ := C107 hv hn hf hs hk h0 h1 h2 h h' hσ
  rw [et] at a1
  cases a1
  refine ⟨σ', ⟨g1, t₂, a2, fun τ hτ => ?_⟩, g2⟩
  obtain ⟨σ₀, k1, _, b₁, b₂, c1, c2, c3⟩ := C107_back hv hn hf hs hk h0 h1 h2 h h' hτ
  rw [et] at c1
  rw [a2] at c2
  cases c1
  cases c2
  rw [a3, c3]
  exact hmin σ₀ k1

/-- **C107 (errors).**  What is refused in a component is refused, with the same error, in the new unit. -/
theorem C107_errors (hv : sys.Valid) (hs : s.Named) (hk : s.SegmentsKnown) (h0 : 0 < k) (h1 : sys.cfg.eps < 1) (h2 : k * sys.cfg.eps < 1) {c : Comp} (hc : c ∈ s.comps) (e : Err) :
    (c.inUnit k).model (sys.inUnit k) = .error e ↔ c.model sys = .error e := by
  have key := model_factor (unitOk hv h0 h1 h2) hs hk hc
  revert key
  cases c.model sys <;> cases (c.inUnit k).model (sys.inUnit k) <;> intro key <;> cases key <;> simp

/-! ## Examples -/

theorem exSystem_named : exSystem.Named := by
  have hn := named_of (s := exSystem) (by decide +kernel)
  refine ⟨hn.names, hn.distinct, hn.flowNames, hn.flowDistinct, ?_⟩
  intro a b ha
  simp [exSystem] at ha

theorem exSystem_known : exSystem.SegmentsKnown := by
  intro c hc
  simp only [exSystem, List.mem_cons, List.not_mem_nil, or_false] at hc
  rcases hc with rfl | rfl | rfl
  all_goals
    refine ⟨fun f hf q hq xs rs e => ?_, fun t q ht => by cases ht⟩
    simp only [Comp.inputs, Comp.outputs, List.nil_append, List.cons_append, List.append_nil, List.mem_cons, List.not_mem_nil, or_false] at hf
  · subst hf; cases hq
  · rcases hf with rfl | rfl
    · cases hq
    · cases hq; cases e
  · subst hf; cases hq

/-- The hypotheses are met by gas, a boiler of decided size and a load: counted in kilowatts, the boiler delivers 4000 instead of 4, at the same cost. -/
example : exSys.Valid ∧ exSystem.Fits exSys.n ∧ exSystem.Named ∧ exSystem.SegmentsKnown ∧ exSys.cfg.eps < 1 ∧ 1000 * exSys.cfg.eps < 1 ∧
    ∃ o o', systemModel exSys exSystem = .ok o ∧ systemModel (exSys.inUnit 1000) (exSystem.inUnit 1000) = .ok o' ∧ o.solver.Solves exSystemSol ∧
      ∃ σ', o'.solver.Solves σ' ∧ exSystemSol "Boiler__th_flow_rate" 1 = 4 ∧ σ' "Boiler__th_flow_rate" 1 = 4000 ∧ σ' "costs__operation_operation_sum_TS" 1 = 88 / 5 ∧
        ∃ t₁ t₂, objectiveTerms o.solver.objective = .ok t₁ ∧ objectiveTerms o'.solver.objective = .ok t₂ ∧ termsVal σ' t₂ = termsVal exSystemSol t₁ := by
  obtain ⟨o, h, hs⟩ := exSystem_ok
  obtain ⟨o', h'⟩ := builds (r := systemModel (exSys.inUnit 1000) (exSystem.inUnit 1000)) (by decide +kernel)
  have h1 : exSys.cfg.eps < 1 := by norm_num [exSys, exCfg]
  have h2 : 1000 * exSys.cfg.eps < 1 := by norm_num [exSys, exCfg]
  refine ⟨exSys_valid, exSystem_fits, exSystem_named, exSystem_known, h1, h2, o, o', h, h', hs, ?_⟩
  obtain ⟨σ', g1, g2, g3⟩ := C107 exSys_valid (by decide) exSystem_fits exSystem_named exSystem_known (by norm_num) h1 h2 h h' hs
  refine ⟨σ', g1, by decide +kernel, ?_, ?_, g3⟩
  · have := g2.rates (.converter { comp := { label := "Boiler", inputs := [exBoilerIn], outputs := [exBoilerOut] }, factors := [[("fu", .s (1 / 2)), ("th", .s 1)]] }) (by simp [exSystem]) exBoilerOut
      (by simp [Comp.inputs, Comp.outputs]) 1
    refine Eq.trans ?_ (this.trans ?_)
    · exact congrArg (fun l => σ' l 1) (by decide +kernel)
    · decide +kernel
  · obtain ⟨e, he, hl⟩ : ∃ e ∈ exSystem.effects, e.label = "costs" := by simp [exSystem, exEffects]
    have := (g2.effects e he).1 1 (by decide)
    rw [hl] at this
    refine Eq.trans ?_ (this.trans ?_)
    · exact congrArg (fun l => σ' l 1) (by decide +kernel)
    · decide +kernel

/-- A flow without a size. -/
def exSizeless : FlowData := { label := "Q", bus := "heat" }

/-- **C107 (wrong).**  The configured constants are numbers without a unit, and a flow without a size is limited by one of them: if only the data are converted, an operation is lost. -/
theorem C107_wrong : ∃ (f : FlowData) (o o' : FlowOut) (σ : Assignment), flowModel exSys "G__Q" f = .ok o ∧ o.tree.Solves σ ∧ flowModel exSys "G__Q" (f.inUnit 1000) = .ok o' ∧
    ∀ σ', o'.tree.Solves σ' → ∃ t < exSys.n, σ' "G__Q_flow_rate" t ≠ 1000 * σ "G__Q_flow_rate" t := by
  obtain ⟨o, h, hs⟩ := builds_and_solves (σ := tableSol [("G__Q_flow_rate", [10000000, 0, 0]), ("G__Q_sumFlowHours", [10000000])]) (r := flowModel exSys "G__Q" exSizeless) (f := FlowOut.tree) (by decide +kernel)
  obtain ⟨o', h'⟩ := builds (r := flowModel exSys "G__Q" (exSizeless.inUnit 1000)) (by decide +kernel)
  refine ⟨exSizeless, o, o', _, h, hs, h', fun σ' hσ => ⟨0, by decide, ?_⟩⟩
  have r := (flow_iff exSys_valid (by constructor <;> simp [exSizeless, FlowData.inUnit]) h' σ').1 hσ
  have := r.upper rfl 0 (by decide)
  have e : (((exSizeless.inUnit 1000).absBounds exSys.cfg).2).at 0 = 10000000 := by decide +kernel
  rw [e] at this
  have e2 : tableSol [("G__Q_flow_rate", [10000000, 0, 0]), ("G__Q_sumFlowHours", [10000000])] "G__Q_flow_rate" 0 = 10000000 := by decide +kernel
  have e3 : o'.flowRate.label = "G__Q_flow_rate" := by
    obtain ⟨o₂, h₂, hb⟩ := of_okB (r := flowModel exSys "G__Q" (exSizeless.inUnit 1000)) (p := fun o => o.flowRate.label == "G__Q_flow_rate") (by decide +kernel)
    rw [h'] at h₂
    cases h₂
    exact beq_iff_eq.1 hb
  rw [e3] at this
  rw [e2]
  intro k
  rw [k] at this
  norm_num at this

end Flix
