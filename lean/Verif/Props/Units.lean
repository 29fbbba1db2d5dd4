import Verif.Lemmas.Units
import Verif.Props.Cheaper

/-!
# C103: the units in which effects are counted do not matter
-/

namespace Flix

variable {sys : Sys} {s s' : System} {o o' : SysOut} {u : String → ℚ} {k : ℚ}

theorem SeriesInUnits.none_iff {n : Nat} {a b : Option Num} (h : SeriesInUnits n k a b) : a = none ↔ b = none := by
  cases a <;> cases b <;> simp_all [SeriesInUnits]

theorem SeriesInUnits.symm {n : Nat} {a b : Option Num} (hk : 0 < k) (h : SeriesInUnits n k a b) : SeriesInUnits n k⁻¹ b a := by
  cases a <;> cases b <;> simp only [SeriesInUnits] at h ⊢
  intro t ht
  rw [h t ht, inv_mul_cancel_left₀ hk.ne']

theorem LimitInUnits.symm {a b : Option ℚ} (hk : 0 < k) (h : LimitInUnits k a b) : LimitInUnits k⁻¹ b a := by
  unfold LimitInUnits at h ⊢
  rw [h]
  cases a with
  | none => rfl
  | some m => simp [hk.ne']

theorem SharesInUnits.symm {n : Nat} {l : String} {d d' : List (String × Num)} (hu : ∀ l, 0 < u l) (h : SharesInUnits n u l d d') : SharesInUnits n (fun l => (u l)⁻¹) l d' d := by
  unfold SharesInUnits at h ⊢
  refine List.Forall₂.flip (h.imp fun p p' q => ⟨q.1.symm, fun t ht => ?_⟩)
  have h1 := (hu l).ne'
  have h2 := (hu p.1).ne'
  have := q.2 t ht
  rw [q.1]
  field_simp
  linarith

theorem EffectData.InUnits.symm {n : Nat} {e e' : EffectData} (hu : ∀ l, 0 < u l) (h : e.InUnits n u e') : e'.InUnits n (fun l => (u l)⁻¹) e := by
  have hl := h.label
  exact ⟨h.label.symm, h.standard.symm, h.objective.symm, by rw [hl]; exact h.operation.symm hu, by rw [hl]; exact h.invest.symm hu,
    by rw [hl]; exact h.minOperation.symm (hu _), by rw [hl]; exact h.maxOperation.symm (hu _), by rw [hl]; exact h.minInvest.symm (hu _), by rw [hl]; exact h.maxInvest.symm (hu _),
    by rw [hl]; exact h.minTotal.symm (hu _), by rw [hl]; exact h.maxTotal.symm (hu _), by rw [hl]; exact h.minPerHour.symm (hu _), by rw [hl]; exact h.maxPerHour.symm (hu _)⟩

theorem OnOffParams.Priced.flip {R R' : EffDict → EffDict → Prop} (hR : ∀ {d d'}, R d d' → R' d' d) {q q' : OnOffParams} (h : q.Priced R q') : q'.Priced R' q :=
  ⟨hR h.starts, hR h.hours⟩

theorem InvestParams.Priced.flip {R R' : EffDict → EffDict → Prop} (hR : ∀ {d d'}, R d d' → R' d' d) {q q' : InvestParams} (h : q.Priced R q') : q'.Priced R' q :=
  ⟨hR h.fix, hR h.divest, hR h.specific⟩

theorem FlowData.Priced.flip {R R' : EffDict → EffDict → Prop} (hR : ∀ {d d'}, R d d' → R' d' d) {q q' : FlowData} (h : q.Priced R q') : q'.Priced R' q :=
  ⟨hR h.effects, fun r r' e e' => (h.states r' r e' e).flip hR, fun r r' e e' => (h.size r' r e' e).flip hR⟩

theorem Comp.Priced.flip {R R' : EffDict → EffDict → Prop} (hR : ∀ {d d'}, R d d' → R' d' d) {q q' : Comp} (h : q.Priced R q') : q'.Priced R' q :=
  ⟨List.Forall₂.flip (h.flows.imp fun _ _ k => k.flip hR), fun r r' e e' => (h.states r' r e' e).flip hR, fun a a' r r' e1 e2 e3 e4 => (h.capacity a' a r' r e2 e1 e4 e3).flip hR⟩

theorem PricesInUnits.symm {n : Nat} {es es' : List EffectData} (hu : ∀ l, 0 < u l) (he : List.Forall₂ (EffectData.InUnits n u) es es') {d d' : EffDict} (h : PricesInUnits n u es d d') :
    PricesInUnits n (fun l => (u l)⁻¹) es' d' d := by
  unfold PricesInUnits at h ⊢
  refine List.Forall₂.flip (h.imp fun p p' q => ⟨q.1.symm, fun l hl t ht => ?_⟩)
  rw [q.1, names_units he] at hl
  rw [q.2 l hl t ht, inv_mul_cancel_left₀ (hu l).ne']

theorem InvestParams.KeepsPieces.move {big : ℚ} {q q' : InvestParams} (h : q.KeepsPieces u) (hl : q.Looser big q') : q'.KeepsPieces fun l => (u l)⁻¹ := by
  intro x es e p hp
  rw [hl.segments] at e
  show (u p.1)⁻¹ = 1
  rw [h x es e p hp, inv_one]

theorem Comp.KeepsPieces.move {big : ℚ} {n : Nat} {c c' : Comp} (h : c.KeepsPieces u) (hl : c.Looser big n c') : c'.KeepsPieces fun l => (u l)⁻¹ := by
  obtain ⟨_, e2, e3, _⟩ := comp_shape hl
  have fl : List.Forall₂ (FlowData.Looser big n) c.flows c'.flows := List.rel_append e2 e3
  refine ⟨fun f' hf' q' hq' => ?_, fun st' q' e e' => ?_⟩
  · obtain ⟨f, hf, k⟩ := forall₂_mem_right fl hf'
    rcases k.size with ⟨S, S', _, k2, _⟩ | ⟨q, r, k1, k2, k3⟩
    · rw [hq'] at k2; cases k2
    · rw [hq'] at k2; cases k2
      exact (h.1 f hf q k1).move k3
  · subst e
    cases c <;> simp only [Comp.Looser] at hl
    rcases hl.capacity with ⟨S, S', _, k2, _⟩ | ⟨q, r, k1, k2, k3⟩
    · rw [e'] at k2; cases k2
    · rw [e'] at k2; cases k2
      exact (h.2 _ q rfl k1).move k3

/-- Going back to the old units. -/
theorem System.InUnits.symm {big : ℚ} {n : Nat} (hu : ∀ l, 0 < u l) (hk : 0 < k) (h : s.InUnits big n u k s') : s'.InUnits big n (fun l => (u l)⁻¹) k⁻¹ s := by
  refine ⟨List.Forall₂.flip (h.effects.imp fun _ _ q => q.symm hu), List.Forall₂.flip (h.comps.imp fun _ _ q => ⟨q.2.1, q.1, q.2.2.flip fun r => r.symm hu h.effects⟩), fun c' hc' => ?_,
    List.Forall₂.flip (h.buses.imp fun _ _ q => ⟨q.label.symm, q.penalty.symm hk⟩), fun e' he' ho => ?_⟩
  · obtain ⟨c, hc, q⟩ := forall₂_mem_right h.comps hc'
    exact (h.pieces c hc).move q.1
  · obtain ⟨e, he, q⟩ := forall₂_mem_right h.effects he'
    show (u e'.label)⁻¹ = k⁻¹
    rw [q.label, h.goal e he (by rw [← q.objective, ho])]

theorem System.InUnits.freer {big : ℚ} {n : Nat} (h : s.InUnits big n u k s') : s.Freer big n s' :=
  ⟨h.comps.imp fun _ _ q => q.1, h.buses.imp fun _ _ q => ⟨q.label, fun hne e => hne (q.penalty.none_iff.2 e)⟩⟩

/-- **C103.**  If effects are counted in other units (prices, limits and shares between effects converted accordingly), every solution is one in the new units too: all variables of
components keep their values, every effect is converted in every step, and the cost is converted like the objective. -/
theorem C103 (hv : sys.Valid) (hpd : sys.prevDt.Nonneg) (hn : sys.n ≠ 0) (hf : s.Fits sys.n) (hf' : s'.Fits sys.n) (hp : ∀ c ∈ s.comps, c.Proper sys ∧ c.CapacityNonneg)
    (hp' : ∀ c ∈ s'.comps, c.Proper sys ∧ c.CapacityNonneg) (h : systemModel sys s = .ok o) (h' : systemModel sys s' = .ok o')
    (hu : ∀ l, 0 < u l) (hl : s.InUnits sys.cfg.big sys.n u k s') {σ : Assignment} (hs : o.solver.Solves σ) :
    ∃ σ', o'.solver.Solves σ' ∧
      (∀ c ∈ o'.comps, ∀ x, c.tree.HasVar x → σ' x.label = σ x.label) ∧
      (∀ c ∈ s.comps, ∀ f ∈ c.inputs ++ c.outputs, σ' (c.label ++ "__" ++ f.label ++ "_" ++ "flow_rate") = σ (c.label ++ "__" ++ f.label ++ "_" ++ "flow_rate")) ∧
      (∀ e ∈ s.effects, (∀ t < sys.n, σ' (e.label ++ "__operation_operation_sum_TS") t = u e.label * σ (e.label ++ "__operation_operation_sum_TS") t) ∧
        σ' (e.label ++ "__invest_invest_sum") 0 = u e.label * σ (e.label ++ "__invest_invest_sum") 0) ∧
      ∃ t₁ t₂, objectiveTerms o.solver.objective = .ok t₁ ∧ objectiveTerms o'.solver.objective = .ok t₂ ∧ termsVal σ' t₂ = k * termsVal σ t₁ := by
  obtain ⟨tb, ta⟩ := solution_totals hv hn hf h hs
  have hn0 : 0 < sys.n := Nat.pos_of_ne_zero hn
  obtain ⟨_, s2, s3⟩ := (system_solves h σ).1 hs
  have hbus := (buses_iff hv hf h σ).1 s3
  have hc : ∀ oc ∈ o'.comps, oc.tree.Solves σ := by
    intro oc' hoc'
    obtain ⟨c', hc', hm'⟩ := forall₂_mem_right (system_inv h').1 hoc'
    obtain ⟨c, hc, hcl⟩ := forall₂_mem_right hl.comps hc'
    obtain ⟨oc, hoc, hm⟩ := forall₂_mem_left (system_inv h).1 hc
    exact anyComp_looser (σ := σ) hv hpd hn (hp c hc).1 (hp' c' hc').1 (hp c hc).2 (hp' c' hc').2 hm hm' hcl.1 (s2 oc hoc)
  have hbus' : ∀ b ∈ s'.buses, s'.BusOk sys σ b := by
    intro b' hbm'
    obtain ⟨b, hbm, hbl⟩ := forall₂_mem_right hl.buses hbm'
    obtain ⟨g1, g2⟩ := hbus b hbm
    unfold System.BusOk
    rw [hbl.label]
    refine ⟨fun hpen t ht => ?_, fun hpen t ht => ?_⟩
    · rw [(fed_looser hl.freer _ t).1, (fed_looser hl.freer _ t).2]
      exact g1 (hbl.penalty.none_iff.2 hpen) t ht
    · rw [(fed_looser hl.freer _ t).1, (fed_looser hl.freer _ t).2]
      exact g2 (fun e => hpen (hbl.penalty.none_iff.1 e)) t ht
  have contrib : ∀ l, (∀ t < sys.n, s'.opOf sys σ l t = u l * s.opOf sys σ l t) ∧ s'.invOf σ l = u l * s.invOf σ l := by
    intro l
    exact ⟨fun t ht => sum_units hl.comps fun c hc c' q => (comp_units hl.effects q.1 q.2.2 (hl.pieces c hc) hn0 l).1 t ht,
      sum_units hl.comps fun c hc c' q => (comp_units (dt := sys.width) hl.effects q.1 q.2.2 (hl.pieces c hc) hn0 l).2⟩
  obtain ⟨σ', g1, g2, g3⟩ := solution_complete hv hn hf' h' hc hbus' (balanced_units hl.effects hn0 (fun l => (contrib l).1) (fun l => (contrib l).2) tb) fun e' he' => by
    obtain ⟨e, he, q⟩ := forall₂_mem_right hl.effects he'
    exact allowed_units q (hu _) (ta e he)
  have tot : ∀ e ∈ s.effects, (∀ t < sys.n, σ' (e.label ++ "__operation_operation_sum_TS") t = u e.label * σ (e.label ++ "__operation_operation_sum_TS") t) ∧
        σ' (e.label ++ "__invest_invest_sum") 0 = u e.label * σ (e.label ++ "__invest_invest_sum") 0 := by
    intro e hem
    obtain ⟨e', hem', q⟩ := forall₂_mem_left hl.effects hem
    obtain ⟨q1, q2⟩ := g3 e' hem'
    rw [q.label] at q1 q2
    exact ⟨fun t _ => congrFun q1 t, q2⟩
  have vars : ∀ c ∈ o'.comps, ∀ x, c.tree.HasVar x → σ' x.label = σ x.label := fun c hc x hx => g2 _ (physical_label h' (.inl ⟨c, hc, hx⟩))
  refine ⟨σ', g1, vars, ?_, tot, ?_⟩
  · intro c hcm f hfm
    obtain ⟨c', hcm', hcl⟩ := forall₂_mem_left hl.comps hcm
    obtain ⟨e1, e2, e3, _⟩ := comp_shape hcl.1
    obtain ⟨oc, hoc, hmod⟩ := forall₂_mem_left (system_inv h').1 hcm'
    obtain ⟨f', hfm', hfl⟩ := forall₂_mem_left (List.rel_append e2 e3) hfm
    obtain ⟨x, hx, ex⟩ := rate_hasVar hmod hfm'
    rw [e1, hfl.label] at ex
    rw [← ex]
    exact vars oc hoc x hx
  · obtain ⟨t₁, e₁, a1, a2, a3⟩ := solution_cost hv hn hf h
    obtain ⟨t₂, e₂, b1, b2, b3⟩ := solution_cost hv hn hf' h'
    refine ⟨t₁, t₂, a1, b1, ?_⟩
    rw [a3 σ hs, b3 σ' g1]
    have el : e₂.label = e₁.label := by
      rcases units_find (p := (·.isObjective)) (fun e e' h => h.objective) hl.effects with ⟨k1, k2⟩ | ⟨e, e', k1, k2, k3⟩
      · rw [k1] at a2; cases a2
      · rw [k1] at a2
        rw [k2] at b2
        cases a2
        cases b2
        exact k3.label
    have hem := List.mem_of_find?_eq_some a2
    have hk : u e₁.label = k := hl.goal e₁ hem (List.find?_some a2)
    unfold System.cost
    rw [el, (tot _ hem).2, Finset.sum_congr rfl fun t ht => (tot _ hem).1 t (Finset.mem_range.1 ht), ← Finset.mul_sum, hk]
    have pen : (s'.buses.map fun b => b.penaltyCost sys σ').sum = k * (s.buses.map fun b => b.penaltyCost sys σ).sum := by
      refine sum_units (forall₂_mems hl.buses) fun b hb b' q => ?_
      obtain ⟨q, hb'⟩ := q
      unfold BusData.penaltyCost
      cases e' : b'.excessPenalty with
      | none => rw [q.penalty.none_iff.2 e', mul_zero]
      | some p' =>
        obtain ⟨p, e, hpp⟩ := q.penalty.some_right e'
        obtain ⟨x1, x2⟩ := excess_outside hv hf' h' hb' (by simp [e'])
        rw [e]
        simp only
        rw [g2 _ x1, g2 _ x2, q.label, Finset.mul_sum]
        refine Finset.sum_congr rfl fun t ht => ?_
        rw [hpp t (Finset.mem_range.1 ht)]
        ring
    rw [pen]
    ring

/-- **C103 (optimum).**  The cheapest operation is the same in all units. -/
theorem C103_optimum (hv : sys.Valid) (hpd : sys.prevDt.Nonneg) (hn : sys.n ≠ 0) (hf : s.Fits sys.n) (hf' : s'.Fits sys.n) (hp : ∀ c ∈ s.comps, c.Proper sys ∧ c.CapacityNonneg)
    (hp' : ∀ c ∈ s'.comps, c.Proper sys ∧ c.CapacityNonneg) (h : systemModel sys s = .ok o) (h' : systemModel sys s' = .ok o')
    (hu : ∀ l, 0 < u l) (hk : 0 < k) (hl : s.InUnits sys.cfg.big sys.n u k s') {σ : Assignment} (ho : o.Optimal σ) :
    ∃ σ', o'.Optimal σ' ∧
      (∀ c ∈ s.comps, ∀ f ∈ c.inputs ++ c.outputs, σ' (c.label ++ "__" ++ f.label ++ "_" ++ "flow_rate") = σ (c.label ++ "__" ++ f.label ++ "_" ++ "flow_rate")) ∧
      (∀ e ∈ s.effects, (∀ t < sys.n, σ' (e.label ++ "__operation_operation_sum_TS") t = u e.label * σ (e.label ++ "__operation_operation_sum_TS") t) ∧
        σ' (e.label ++ "__invest_invest_sum") 0 = u e.label * σ (e.label ++ "__invest_invest_sum") 0) := by
  obtain ⟨hs, t, et, hmin⟩ := ho
  obtain ⟨σ', g1, _, g3, g4, t₁, t₂, a1, a2, a3⟩ := C103 hv hpd hn hf hf' hp hp' h h' hu hl hs
  rw [et] at a1
  cases a1
  refine ⟨σ', ⟨g1, t₂, a2, fun ρ hρ => ?_⟩, g3, g4⟩
  obtain ⟨ρ', r1, _, _, _, b₁, b₂, c1, c2, c3⟩ := C103 (u := fun l => (u l)⁻¹) (k := k⁻¹) hv hpd hn hf' hf hp' hp h' h (fun l => inv_pos.2 (hu l)) (hl.symm hu hk) hρ
  rw [a2] at c1
  rw [et] at c2
  cases c1
  cases c2
  have := hmin ρ' r1
  rw [c3] at this
  rw [a3]
  have h2 := mul_le_mul_of_nonneg_left this hk.le
  rwa [mul_inv_cancel_left₀ hk.ne'] at h2

/-! ## Example -/

/-- A generator paid `p` per unit of heat with emissions of `c` per unit, which cost `q` each and are limited to `m`; missing heat costs `x`. -/
def exUnits (p c q m x : ℚ) : System :=
  { effects := [{ label := "costs", isStandard := true, isObjective := true }, { label := "CO2", shareOperation := [("costs", .s q)], maxOperation := some m }]
    comps := [.plain { label := "Gen", inputs := [], outputs := [{ exGenFlow with effectsPerFlowHour := [(none, .s p), (some "CO2", .s c)] }] },
      .plain { label := "Load", inputs := [exDemand], outputs := [] }]
    buses := [{ label := "heat", excessPenalty := some (.s x) }] }

/-- Cents instead of euros, kilograms instead of tonnes. -/
def exCents : String → ℚ := fun l => if l = "costs" then 100 else if l = "CO2" then 1000 else 1

theorem exUnits_flow (p c : ℚ) : ({ exGenFlow with effectsPerFlowHour := [(none, .s p), (some "CO2", .s c)] } : FlowData).Fits exDay.n ∧
    ({ exGenFlow with effectsPerFlowHour := [(none, .s p), (some "CO2", .s c)] } : FlowData).Sensible exDay.cfg exDay.n ∧
    ({ exGenFlow with effectsPerFlowHour := [(none, .s p), (some "CO2", .s c)] } : FlowData).Proper exDay.n := by
  refine ⟨?_, ⟨?_, ?_, ?_⟩, ?_⟩
  all_goals first
    | (constructor <;> simp [exGenFlow, Num.Fits, Num.len, Num.isScalar, exDay, exCfg, InvestParams.segEffects, FlowData.lowRel, FlowData.highRel]; done)
    | (intro t _; simp [exGenFlow, FlowData.lowRel, FlowData.highRel, Num.at]; done)
    | (simp [exGenFlow, exDay, exCfg, Num.at]; done)
    | (intro q hq; cases hq; done)

theorem exUnits_proper (p c q m x : ℚ) : ∀ k ∈ (exUnits p c q m x).comps, k.Proper exDay ∧ k.CapacityNonneg := by
  have h := exDay_flows
  simp only [List.forall_mem_cons, List.not_mem_nil, false_imp_iff, implies_true, and_true] at h
  obtain ⟨_, d, _, _⟩ := h
  have g := exUnits_flow p c
  intro k hk
  simp only [exUnits, List.mem_cons, List.not_mem_nil, or_false] at hk
  rcases hk with rfl | rfl
  · exact ⟨⟨by simp, by simpa using g.1, by simpa using g.2.1, by simpa using g.2.2, by simp⟩, trivial⟩
  · exact ⟨⟨by decide, by simpa using d.1, by simpa using d.2.1, by simpa using d.2.2.1, by simp⟩, trivial⟩

theorem exUnits_fits (p c q m x : ℚ) : (exUnits p c q m x).Fits exDay.n := by
  refine ⟨?_, ?_, ?_⟩
  · intro e he
    simp only [exUnits, List.mem_cons, List.not_mem_nil, or_false] at he
    rcases he with rfl | rfl <;> refine ⟨?_, ?_, ?_, ?_⟩ <;> simp [Num.Fits, Num.isScalar]
  · intro k hk
    simp only [exUnits, List.mem_cons, List.not_mem_nil, or_false] at hk
    rcases hk with rfl | rfl <;> refine ⟨?_, ?_, ?_⟩ <;> simp [Comp.flows, Comp.inputs, Comp.outputs, Comp.onOff, exGenFlow, exDemand]
    · refine ⟨?_, by simp, by simp⟩
      simp [EffDict.Series, Num.Fits, Num.isScalar]
    · refine ⟨?_, ?_, ?_⟩ <;> simp [EffDict.Series]
  · simp [exUnits, Num.Fits, Num.isScalar]

theorem exUnits_looser (p c q m x p' c' q' m' x' : ℚ) : List.Forall₂ (Comp.Looser exDay.cfg.big exDay.n) (exUnits p c q m x).comps (exUnits p' c' q' m' x').comps := by
  refine .cons ?_ (.cons ?_ .nil)
  · refine ⟨rfl, .nil, .cons ?_ .nil, trivial, rfl⟩
    refine ⟨rfl, rfl, rfl, .inl rfl, fun _ _ => le_rfl, fun _ _ => le_rfl, trivial, ?_, ?_, ?_, ?_, .inl ⟨10, 10, rfl, rfl, fun t _ => ⟨le_rfl, le_rfl⟩, ?_, ?_⟩⟩
    all_goals first
      | (intro m hm; cases hm; done)
      | (intro m m' hm; simp [exGenFlow] at hm; done)
  · exact ⟨rfl, .cons (same_flow_looser (S := 1) rfl rfl) .nil, .nil, trivial, rfl⟩

/-- Prices in cents, emissions in kilograms, cents per kilogram. -/
theorem exUnits_cents (p c q m x : ℚ) : (exUnits p c q m x).InUnits exDay.cfg.big exDay.n exCents 100 (exUnits (100 * p) (1000 * c) (q / 10) (1000 * m) (100 * x)) := by
  have l1 := exUnits_looser p c q m x (100 * p) (1000 * c) (q / 10) (1000 * m) (100 * x)
  have l2 := exUnits_looser (100 * p) (1000 * c) (q / 10) (1000 * m) (100 * x) p c q m x
  simp only [exUnits, List.forall₂_cons] at l1 l2
  refine ⟨.cons ?_ (.cons ?_ .nil), .cons ⟨l1.1, l2.1, ?_⟩ (.cons ⟨l1.2.1, l2.2.1, ?_⟩ .nil), ?_, .cons ⟨rfl, fun _ _ => rfl⟩ .nil, ?_⟩
  · constructor <;> first | rfl | trivial | exact .nil
  · constructor
    case operation => exact .cons ⟨rfl, fun t _ => by simp [Num.at, exCents]; ring⟩ .nil
    case maxOperation => simp [LimitInUnits, exCents]
    all_goals first | rfl | trivial | exact .nil
  · refine ⟨.cons ⟨.cons ⟨rfl, fun l hl t _ => ?_⟩ (.cons ⟨rfl, fun l hl t _ => ?_⟩ .nil), ?_, ?_⟩ .nil, ?_, ?_⟩
    · have : "costs" = l := by simpa [names, exUnits] using hl
      subst this
      simp [Num.at, exCents]
    · have : "CO2" = l := by simpa [names, exUnits] using hl
      subst this
      simp [Num.at, exCents]
    all_goals first
      | (intro q q' h; cases h; done)
      | (intro a b q q' h; cases h; done)
  · refine ⟨.cons ⟨.nil, ?_, ?_⟩ .nil, ?_, ?_⟩
    all_goals first
      | (intro q q' h; cases h; done)
      | (intro a b q q' h; cases h; done)
  · intro k hk
    simp only [exUnits, List.mem_cons, List.not_mem_nil, or_false] at hk
    rcases hk with rfl | rfl <;> refine ⟨?_, ?_⟩ <;> simp [Comp.flows, Comp.inputs, Comp.outputs, exGenFlow, exDemand]
  · simp [exUnits, exCents]

theorem exCents_pos : ∀ l, 0 < exCents l := by
  intro l
  unfold exCents
  split
  · norm_num
  · split <;> norm_num

/-- Two tonnes of emissions are not enough for more than two hours; the rest is missing. -/
def exUnitsSol : Assignment := tableSol
  [("Gen__Q_flow_rate", [2, 2, 0, 0, 0, 0]), ("Gen__Q_sumFlowHours", [4]), ("Load__Q_flow_rate", [2, 4, 3, 1, 5, 2]), ("Load__Q_sumFlowHours", [17]),
   ("heat_excess_input", [0, 2, 3, 1, 5, 2]), ("heat_excess_output", [0, 0, 0, 0, 0, 0]), ("Effects__penalty_penalty_sum", [130]), ("Effects__heat__excess_input", [130]),
   ("CO2__operation_operation_sum", [2]), ("CO2__operation_operation_sum_TS", [1, 1, 0, 0, 0, 0]), ("CO2__all_all_sum", [2]),
   ("CO2__Gen__Q__effects_per_flow_hour", [1, 1, 0, 0, 0, 0]), ("CO2__operation", [2]), ("costs__CO2_operation", [4, 4, 0, 0, 0, 0]),
   ("costs__Gen__Q__effects_per_flow_hour", [6, 6, 0, 0, 0, 0]), ("costs__operation_operation_sum", [20]),
   ("costs__operation_operation_sum_TS", [10, 10, 0, 0, 0, 0]), ("costs__all_all_sum", [20]), ("costs__operation", [20])]

/-- The hypotheses of `C103` are met: in cents and kilograms the same rates cost 15000 instead of 150. -/
example : ∃ o o' σ', systemModel exDay (exUnits 3 (1 / 2) 4 2 10) = .ok o ∧ o.solver.Solves exUnitsSol ∧ systemModel exDay (exUnits 300 500 (4 / 10) 2000 1000) = .ok o' ∧ o'.solver.Solves σ' ∧
    (∀ t < 6, σ' "CO2__operation_operation_sum_TS" t = 1000 * exUnitsSol "CO2__operation_operation_sum_TS" t) ∧
    ∃ t₁ t₂, objectiveTerms o.solver.objective = .ok t₁ ∧ objectiveTerms o'.solver.objective = .ok t₂ ∧ termsVal exUnitsSol t₁ = 150 ∧ termsVal σ' t₂ = 15000 := by
  obtain ⟨o, h, hs⟩ := builds_and_solves (σ := exUnitsSol) (r := systemModel exDay (exUnits 3 (1 / 2) 4 2 10)) (f := fun o : SysOut => MTree.node o.solver.vars o.solver.cons []) (by decide +kernel)
  obtain ⟨o', h'⟩ : ∃ o', systemModel exDay (exUnits 300 500 (4 / 10) 2000 1000) = .ok o' := builds (by decide +kernel)
  have hl := exUnits_cents 3 (1 / 2) 4 2 10
  norm_num at hl
  obtain ⟨σ', g1, _, _, g4, t₁, t₂, a1, a2, a3⟩ := C103 (k := 100) exDay_valid (by simp [exDay, Num.Nonneg]) (by decide) (exUnits_fits _ _ _ _ _) (exUnits_fits _ _ _ _ _) (exUnits_proper _ _ _ _ _) (exUnits_proper _ _ _ _ _)
    h h' exCents_pos (by norm_num; exact hl) ⟨hs.1, hs.2.1⟩
  have e : termsVal exUnitsSol t₁ = 150 := by
    obtain ⟨t, e, b1, b2, b3⟩ := solution_cost exDay_valid (by decide) (exUnits_fits _ _ _ _ _) h
    rw [a1] at b1
    cases b1
    rw [b3 exUnitsSol ⟨hs.1, hs.2.1⟩]
    cases b2
    decide +kernel
  refine ⟨o, o', σ', h, ⟨hs.1, hs.2.1⟩, h', g1, ?_, t₁, t₂, a1, a2, e, by rw [a3, e]; norm_num⟩
  exact (g4 _ (List.mem_cons_of_mem _ List.mem_cons_self)).1

/-- The hypotheses of `C103_optimum` are met: there is a cheapest operation, and it is cheapest in cents and kilograms as well. -/
example : ∃ o o' σ σ', systemModel exDay (exUnits 3 (1 / 2) 4 2 10) = .ok o ∧ o.Optimal σ ∧ systemModel exDay (exUnits 300 500 (4 / 10) 2000 1000) = .ok o' ∧ o'.Optimal σ' ∧
    ∀ t < 6, σ' "CO2__operation_operation_sum_TS" t = 1000 * σ "CO2__operation_operation_sum_TS" t := by
  obtain ⟨o, h, hs⟩ := builds_and_solves (σ := exUnitsSol) (r := systemModel exDay (exUnits 3 (1 / 2) 4 2 10)) (f := fun o : SysOut => MTree.node o.solver.vars o.solver.cons []) (by decide +kernel)
  obtain ⟨o', h'⟩ : ∃ o', systemModel exDay (exUnits 300 500 (4 / 10) 2000 1000) = .ok o' := builds (by decide +kernel)
  have hl := exUnits_cents 3 (1 / 2) 4 2 10
  norm_num at hl
  have fl := exDay_flows
  simp only [List.forall_mem_cons, List.not_mem_nil, false_imp_iff, implies_true, and_true] at fl
  have r1 : Ranked (exUnits 3 (1 / 2) 4 2 10).effects (·.shareOperation) (fun l => if l = "CO2" then 1 else 0) := by simp [Ranked, exUnits]
  have r2 : Ranked (exUnits 3 (1 / 2) 4 2 10).effects (·.shareInvest) (fun l => if l = "CO2" then 1 else 0) := by simp [Ranked, exUnits]
  obtain ⟨σ, ho⟩ := C95 exDay_valid (by decide) (exUnits_fits 3 (1 / 2) 4 2 10) (by
    simp only [exUnits, List.forall_mem_cons, List.not_mem_nil, false_imp_iff, implies_true, and_true, Comp.flows, Comp.inputs, Comp.outputs, List.nil_append, List.append_nil]
    exact ⟨(exUnits_flow 3 (1 / 2)).1, fl.2.1.1⟩) h r1 r2 (by simp [exUnits, Num.Nonneg]) ⟨_, hs.1, hs.2.1⟩
  obtain ⟨σ', g1, _, g4⟩ := C103_optimum (k := 100) exDay_valid (by simp [exDay, Num.Nonneg]) (by decide) (exUnits_fits _ _ _ _ _) (exUnits_fits _ _ _ _ _) (exUnits_proper _ _ _ _ _) (exUnits_proper _ _ _ _ _)
    h h' exCents_pos (by norm_num) (by norm_num; exact hl) ho
  exact ⟨o, o', σ, σ', h, ho, h', g1, (g4 _ (List.mem_cons_of_mem _ List.mem_cons_self)).1⟩

end Flix
