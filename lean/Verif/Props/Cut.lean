import Verif.Lemmas.CutStarts
import Verif.Props.Window

/-! # C91: a solution of the whole horizon gives solutions of its segments -/

namespace Flix

variable {sys : Sys} {s : System} {o ok : SysOut} {a k : Nat} {st : SegStart}

theorem operation_cut {es : List EffectData} {c : Comp} {t : Nat} {l : String} {σ τ : Assignment} (hv : sys.Valid) (hi : a + k ≤ sys.n) (hf : c.EffFits sys.n)
    (hz : c.CutsStarts a k σ τ) (h : c.Cuts a k σ τ) (ht : t < k) :
    (c.window a k st).operation (sys.window a k).width τ (es.map (·.window a k)) l t = c.operation sys.width σ es l (a + t) := by
  obtain ⟨v1, _, _, v4⟩ := comp_window_views a k st c
  unfold Comp.operation
  rw [comp_window_flows, v1, v4, List.map_map]
  congr 1
  · refine congrArg List.sum (List.map_congr_left fun f hfm => ?_)
    show flowOperation _ _ _ _ (f.window _ _ _) _ _ = _
    unfold flowOperation
    have e1 : effVal (es.map (·.window a k)) (f.window a k (st.rate c.label f.label)).effectsPerFlowHour l t = effVal es f.effectsPerFlowHour l (a + t) :=
      effVal_window (es := es) (l := l) (hf.flows f hfm).op hi ht
    have e2 := onOff_window (es := es) (l := l) (σ := τ) (τ := σ) (el := c.label ++ "__" ++ f.label) (hf.flows f hfm).onOff
      (fun q hq hne => (hz.flows f hfm q hq hne t ht).symm) hv hi ht fun ho =>
      (h.flowOn f hfm ho t ht).symm
    have e3 := h.rate f hfm t ht
    rw [e1, width_window hv hi ht, flow_window_onOff, ← e3]
    congr 1
  · exact onOff_window (es := es) (l := l) (σ := τ) (τ := σ) (el := c.label) hf.onOff
      (fun q hq hne => (hz.comp q hq hne t ht).symm) hv hi ht fun ho => (h.on ho t ht).symm

theorem sends_cut {ρ : Comp → Assignment} {σ : Assignment} (hr : ∀ c ∈ s.comps, c.Cuts a k σ (ρ (c.window a k st))) {b : String} {t : Nat} (ht : t < k) :
    (s.window a k st).sends ρ b t = fedInto σ s b (a + t) ∧ (s.window a k st).receives ρ b t = takenFrom σ s b (a + t) := by
  have key : ∀ c ∈ s.comps, ∀ l : List FlowData, (∀ f ∈ l, f ∈ c.flows) →
      (((l.map fun f => f.window a k (st.rate c.label f.label)).filter fun f => f.bus = b).map fun f => ρ (c.window a k st) (rateL c.label f.label) t).sum =
      ((l.filter fun f => f.bus = b).map fun f => σ (rateL c.label f.label) (a + t)).sum := by
    intro c hc l hl
    rw [List.filter_map, List.map_map]
    refine congrArg List.sum (List.map_congr_left fun f hf => ?_)
    exact (hr c hc).rate f (hl f (List.mem_filter.1 hf).1) t ht
  constructor
  · unfold System.sends fedInto System.window
    rw [List.map_map]
    refine congrArg List.sum (List.map_congr_left fun c hc => ?_)
    obtain ⟨v1, v2, v3, _⟩ := comp_window_views a k st c
    simp only [Function.comp, v1, v3]
    exact key c hc _ fun f hf => List.mem_append_right _ hf
  · unfold System.receives takenFrom System.window
    rw [List.map_map]
    refine congrArg List.sum (List.map_congr_left fun c hc => ?_)
    obtain ⟨v1, v2, v3, _⟩ := comp_window_views a k st c
    simp only [Function.comp, v1, v2]
    exact key c hc _ fun f hf => List.mem_append_left _ hf

theorem cuts_window {c : Comp} {σ τ : Assignment} : (c.window a k st).Cuts a k σ τ ↔ c.Cuts a k σ τ := by
  obtain ⟨v1, _, _, v4⟩ := comp_window_views a k st c
  have vf := comp_window_flows a k st c
  have on0 : (c.window a k st).onOff ≠ none ↔ c.onOff ≠ none := by rw [v4]; simp
  constructor
  · intro h
    refine ⟨fun f hf t ht => ?_, fun f hf ho t ht => ?_, fun ho t ht => ?_, fun x hx t ht => ?_⟩
    · have := h.rate (f.window a k (st.rate c.label f.label)) (by rw [vf]; exact List.mem_map.2 ⟨f, hf, rfl⟩) t ht
      rw [v1] at this
      exact this
    · have := h.flowOn (f.window a k (st.rate c.label f.label)) (by rw [vf]; exact List.mem_map.2 ⟨f, hf, rfl⟩) (by rw [flow_window_onOff]; simpa using ho) t ht
      rw [v1] at this
      exact this
    · have := h.on (on0.2 ho) t ht
      rw [v1] at this
      exact this
    · subst hx
      exact h.charge (x.window a k st) rfl t ht
  · intro h
    refine ⟨fun f hf t ht => ?_, fun f hf ho t ht => ?_, fun ho t ht => ?_, fun x hx t ht => ?_⟩
    · rw [vf] at hf
      obtain ⟨g, hg, rfl⟩ := List.mem_map.1 hf
      rw [v1]
      exact h.rate g hg t ht
    · rw [vf] at hf
      obtain ⟨g, hg, rfl⟩ := List.mem_map.1 hf
      rw [v1]
      rw [flow_window_onOff] at ho
      exact h.flowOn g hg (by simpa using ho) t ht
    · rw [v1]
      exact h.on (on0.1 ho) t ht
    · cases c with
      | storage y => cases hx; exact h.charge y rfl t ht
      | plain c => cases hx
      | converter c => cases hx
      | transmission t => cases hx

/-- Free starts need not be read off. -/
theorem System.FreeStarts.clearAt (h : s.FreeStarts) (eps : ℚ) (a : Nat) (σ : Assignment) : ∀ c ∈ s.comps, c.ClearAt eps a σ := fun c hc =>
  ⟨fun f hf q hq hne => absurd ((h c hc).1 f hf q hq) hne, fun q hq hne => absurd ((h c hc).2 q hq) hne⟩

/-- **C91.**  A segment of `k` steps that starts from the values of a solution of the whole horizon can be solved: the part of the solution that belongs
to the steps of the segment is part of a solution of the segment, with the same values of the effects.  Where
starts cost something, the states before the segment have to be readable from the values handed over. -/
theorem C91_starts_partial (hv : sys.Valid) (hpd : sys.prevDt.Nonneg) (hf : s.Fits sys.n) (hp : ∀ c ∈ s.comps, c.Proper sys) (hl : s.Uncoupled)
    (h : systemModel sys s = .ok o) {σ : Assignment} (hs : o.solver.Solves σ) (hi : a + k ≤ sys.n) (hk : 0 < k) (hb : ∀ c ∈ s.comps, c.Begins a σ st)
    (hcl : ∀ c ∈ s.comps, c.ClearAt sys.cfg.eps a σ)
    (he : ∀ c ∈ s.comps, ∀ x, c = .storage x → x.OpenEnd sys.n a k) (hm : systemModel (sys.window a k) (s.window a k st) = .ok ok) :
    ∃ τ, ok.solver.Solves τ ∧ (∀ c ∈ s.comps, c.Cuts a k σ τ ∧ c.CutsStarts a k σ τ) ∧
      (∀ b ∈ s.buses, b.excessPenalty ≠ none → ∀ t < k, τ (b.label ++ "_" ++ "excess_input") t = σ (b.label ++ "_" ++ "excess_input") (a + t) ∧
        τ (b.label ++ "_" ++ "excess_output") t = σ (b.label ++ "_" ++ "excess_output") (a + t)) ∧
      ∀ e ∈ s.effects, (∀ t < k, τ (opTSL e.label) t = σ (opTSL e.label) (a + t)) ∧ τ (invSumL e.label) 0 = σ (invSumL e.label) 0 := by
  have hn : sys.n ≠ 0 := by omega
  have hvk := valid_window hv hi
  have hfk : (s.window a k st).Fits k := window_fits hf st hi
  have hlab := (List.nodup_append.1 (system_labels hm)).2.1
  obtain ⟨s1, s2, s3⟩ := (system_solves h σ).1 hs
  have each : ∀ c, ∃ ρ : Assignment, c ∈ (s.window a k st).comps → ∀ oc, c.model (sys.window a k) = .ok oc → oc.tree.Solves ρ ∧
      ∀ τ' : Assignment, (∀ l ∈ oc.tree.labels, τ' l = ρ l) → c.Cuts a k σ τ' := by
    intro c
    by_cases hcm : c ∈ (s.window a k st).comps
    · obtain ⟨oc, hoc, hmc⟩ := forall₂_mem_left (system_inv hm).1 hcm
      have hnd : oc.tree.labels.Nodup := by
        rw [List.flatMap_append] at hlab
        exact (List.nodup_flatMap.1 (List.nodup_append.1 hlab).1).1 _ (List.mem_map_of_mem hoc)
      obtain ⟨c', hc', rfl⟩ := List.mem_map.1 hcm
      obtain ⟨oc', hoc', hmc'⟩ := forall₂_mem_left (system_inv h).1 hc'
      obtain ⟨τ, t1, t2⟩ := model_cut hv hpd hi hk (hp c' hc') (hl.comps c' hc') hmc' (s2 oc' hoc') (hb c' hc') (he c' hc') hmc hnd
      refine ⟨τ, fun _ oc'' hm'' => ?_⟩
      rw [hmc] at hm''
      cases hm''
      exact ⟨t1, fun τ' hag => cuts_window.2 (t2 τ' hag)⟩
    · exact ⟨fun _ _ => 0, fun h => absurd h hcm⟩
  choose ρ hρ using each
  have cuts : ∀ c ∈ s.comps, c.Cuts a k σ (ρ (c.window a k st)) := by
    intro c hcm
    have hw : c.window a k st ∈ (s.window a k st).comps := List.mem_map.2 ⟨c, hcm, rfl⟩
    obtain ⟨oc, _, hmc⟩ := forall₂_mem_left (system_inv hm).1 hw
    exact cuts_window.1 ((hρ _ hw oc hmc).2 _ fun _ _ => rfl)
  have cutStarts : ∀ c ∈ s.comps, ∀ τ : Assignment, c.Cuts a k σ τ → (∀ ok, (c.window a k st).model (sys.window a k) = .ok ok → ok.tree.Solves τ) → c.CutsStarts a k σ τ := by
    intro c hcm τ hcut hsol
    have hw : c.window a k st ∈ (s.window a k st).comps := List.mem_map.2 ⟨c, hcm, rfl⟩
    obtain ⟨oc, _, hmc⟩ := forall₂_mem_left (system_inv hm).1 hw
    obtain ⟨oc', hoc', hmc'⟩ := forall₂_mem_left (system_inv h).1 hcm
    exact comp_cuts_starts hv hi (hp c hcm) (hl.comps c hcm) (hb c hcm) (hcl c hcm) hmc' (s2 oc' hoc') hmc (hsol oc hmc) hcut
  obtain ⟨b1, b2⟩ := solution_totals hv hn hf h hs
  have bus := (buses_iff hv hf h σ).1 s3
  obtain ⟨τ, t1, t2, t3, t4⟩ := C82_system hvk (show (sys.window a k).n ≠ 0 from hk.ne') hfk hm (ρ := ρ) (ε := fun l t => σ l (a + t)) (fun c hcm oc hmc => (hρ c hcm oc hmc).1) (by
    intro b' hb'
    obtain ⟨b, hb2, rfl⟩ := List.mem_map.1 hb'
    refine ⟨fun h0 t ht => ?_, fun h0 t ht => ?_⟩
    · have ht : t < k := ht
      rw [(sends_cut cuts ht).1, (sends_cut cuts ht).2]
      exact (bus b hb2).1 (by simpa [BusData.window] using h0) (a + t) (by omega)
    · have ht : t < k := ht
      rw [(sends_cut cuts ht).1, (sends_cut cuts ht).2]
      exact (bus b hb2).2 (by simpa [BusData.window] using h0) (a + t) (by omega)) (T := ⟨fun l t => σ (opTSL l) (a + t), fun l => σ (invSumL l) 0⟩) (by
    intro e' he'
    obtain ⟨e, he2, rfl⟩ := List.mem_map.1 he'
    constructor
    · intro t ht
      have ht : t < k := ht
      have := (b1 e he2).1 (a + t) (by omega)
      simp only at this ⊢
      rw [show (EffectData.window a k e).label = e.label from rfl, this]
      congr 1
      · unfold System.opOf System.window
        rw [List.map_map]
        refine congrArg List.sum (List.map_congr_left fun c hcm => ?_)
        exact (operation_cut hv hi (hf.comps c hcm) (cutStarts c hcm _ (cuts c hcm) fun oc hmc => (hρ _ (List.mem_map.2 ⟨c, hcm, rfl⟩) oc hmc).1) (cuts c hcm) ht).symm
      · unfold System.window
        rw [List.map_map]
        refine congrArg List.sum (List.map_congr_left fun e' he' => ?_)
        show _ = (((e'.shareOperation.map fun q => (q.1, q.2.window a k)).filter fun q => q.1 = e.label).map fun q => q.2.at t * σ (opTSL e'.label) (a + t)).sum
        rw [List.filter_map, List.map_map]
        refine congrArg List.sum (List.map_congr_left fun q hq => ?_)
        have := at_window ((hf.effects e' he').op q (List.mem_filter.1 hq).1) hi ht
        simp only [Function.comp, this]
    · have := (b1 e he2).2
      simp only at this ⊢
      rw [show (EffectData.window a k e).label = e.label from rfl, this]
      congr 1
      · unfold System.invOf System.window
        rw [List.map_map]
        refine congrArg List.sum (List.map_congr_left fun c hcm => ?_)
        show _ = (c.window _ _ _).investment _ _ _
        rw [investment_zero (sizes_window (local_sizes (hl.comps c hcm)) _ _ _), investment_zero (local_sizes (hl.comps c hcm))]
      · unfold System.window
        rw [List.map_map]
        rfl) (by
    intro e' he'
    obtain ⟨e, he2, rfl⟩ := List.mem_map.1 he'
    obtain ⟨e1, e2, e3, e4⟩ := hl.effects e he2
    have al := b2 e he2
    refine ⟨fun m hm => ?_, fun m hm => ?_, al.minInvest, al.maxInvest, fun m hm => ?_, fun m hm => ?_, fun x hx t ht => ?_, fun x hx t ht => ?_⟩
    · rw [show (e.window a k).minOperation = e.minOperation from rfl, e1] at hm; cases hm
    · rw [show (e.window a k).maxOperation = e.maxOperation from rfl, e2] at hm; cases hm
    · rw [show (e.window a k).minTotal = e.minTotal from rfl, e3] at hm; cases hm
    · rw [show (e.window a k).maxTotal = e.maxTotal from rfl, e4] at hm; cases hm
    · obtain ⟨x', hx', rfl⟩ := Option.map_eq_some_iff.1 hx
      have ht : t < k := ht
      have w := width_window hv hi ht
      unfold Sys.width at w
      rw [at_window ((hf.effects e he2).minH x' hx') hi ht, w]
      exact al.minPerHour x' hx' (a + t) (by omega)
    · obtain ⟨x', hx', rfl⟩ := Option.map_eq_some_iff.1 hx
      have ht : t < k := ht
      have w := width_window hv hi ht
      unfold Sys.width at w
      rw [at_window ((hf.effects e he2).maxH x' hx') hi ht, w]
      exact al.maxPerHour x' hx' (a + t) (by omega))
  refine ⟨τ, t1, fun c hcm => ?_, fun b hb2 h0 t _ => ?_, fun e he2 => ⟨fun t _ => ?_, ?_⟩⟩
  · have hw : c.window a k st ∈ (s.window a k st).comps := List.mem_map.2 ⟨c, hcm, rfl⟩
    obtain ⟨oc, hoc, hmc⟩ := forall₂_mem_left (system_inv hm).1 hw
    have hcut := cuts_window.1 ((hρ _ hw oc hmc).2 _ (t2 _ hw oc hmc))
    refine ⟨hcut, cutStarts c hcm τ hcut fun oc' hmc' => ?_⟩
    rw [hmc] at hmc'
    cases hmc'
    exact ((system_solves hm τ).1 t1).2.1 oc hoc
  · have := t3 (b.window a k) (List.mem_map.2 ⟨b, hb2, rfl⟩) (by simpa [BusData.window] using h0)
    exact ⟨congrFun this.1 t, congrFun this.2 t⟩
  · exact congrFun (t4 (e.window a k) (List.mem_map.2 ⟨e, he2, rfl⟩)).1 t
  · exact (t4 (e.window a k) (List.mem_map.2 ⟨e, he2, rfl⟩)).2

/-- **C91 without start costs.** -/
theorem C91_partial (hv : sys.Valid) (hpd : sys.prevDt.Nonneg) (hf : s.Fits sys.n) (hp : ∀ c ∈ s.comps, c.Proper sys) (hl : s.Local)
    (h : systemModel sys s = .ok o) {σ : Assignment} (hs : o.solver.Solves σ) (hi : a + k ≤ sys.n) (hk : 0 < k) (hb : ∀ c ∈ s.comps, c.Begins a σ st)
    (he : ∀ c ∈ s.comps, ∀ x, c = .storage x → x.OpenEnd sys.n a k) (hm : systemModel (sys.window a k) (s.window a k st) = .ok ok) :
    ∃ τ, ok.solver.Solves τ ∧ (∀ c ∈ s.comps, c.Cuts a k σ τ) ∧
      (∀ b ∈ s.buses, b.excessPenalty ≠ none → ∀ t < k, τ (b.label ++ "_" ++ "excess_input") t = σ (b.label ++ "_" ++ "excess_input") (a + t) ∧
        τ (b.label ++ "_" ++ "excess_output") t = σ (b.label ++ "_" ++ "excess_output") (a + t)) ∧
      ∀ e ∈ s.effects, (∀ t < k, τ (opTSL e.label) t = σ (opTSL e.label) (a + t)) ∧ τ (invSumL e.label) 0 = σ (invSumL e.label) 0 := by
  obtain ⟨τ, t1, t2, t3, t4⟩ := C91_starts_partial hv hpd hf hp hl.uncoupled h hs hi hk hb (hl.starts.clearAt _ _ σ) he hm
  exact ⟨τ, t1, fun c hc => (t2 c hc).1, t3, t4⟩

/-- **C91 for all segments.**  From every solution of the whole horizon one gets results for all segments such that each segment is solved, starts with
the values that the segment before has reached after `L` steps, and keeps the values of the solution. -/
theorem C91_chain_starts_partial (hv : sys.Valid) (hpd : sys.prevDt.Nonneg) (hf : s.Fits sys.n) (hp : ∀ c ∈ s.comps, c.Proper sys) (hl : s.Uncoupled)
    (h : systemModel sys s = .ok o) {σ : Assignment} (hs : o.solver.Solves σ) {L m : Nat} {len : Nat → Nat} (hc : Cover sys.n L m len) {st : Nat → SegStart}
    (hb : ∀ k < m, ∀ c ∈ s.comps, c.Begins (k * L) σ (st k)) (hcl : ∀ k < m, ∀ c ∈ s.comps, c.ClearAt sys.cfg.eps (k * L) σ)
    (he : ∀ k < m, ∀ c ∈ s.comps, ∀ x, c = .storage x → x.OpenEnd sys.n (k * L) (len k))
    (hm : ∀ k < m, ∃ ok, systemModel (sys.window (k * L) (len k)) (s.window (k * L) (len k) (st k)) = .ok ok) :
    ∃ τ : Nat → Assignment, (∀ c ∈ s.comps, c.Handed L m τ st) ∧ (∀ k < m, ∀ c ∈ s.comps, c.Cuts (k * L) (len k) σ (τ k)) ∧
      ∀ k < m, ∃ ok, systemModel (sys.window (k * L) (len k)) (s.window (k * L) (len k) (st k)) = .ok ok ∧ ok.solver.Solves (τ k) := by
  have each : ∀ k, ∃ τ : Assignment, k < m → (∀ c ∈ s.comps, c.Cuts (k * L) (len k) σ τ) ∧
      ∃ ok, systemModel (sys.window (k * L) (len k)) (s.window (k * L) (len k) (st k)) = .ok ok ∧ ok.solver.Solves τ := by
    intro k
    by_cases hk : k < m
    · obtain ⟨ok, hok⟩ := hm k hk
      obtain ⟨τ, t1, t2, _⟩ := C91_starts_partial hv hpd hf hp hl h hs (hc.inside k hk) (hc.nonempty k hk) (hb k hk) (hcl k hk) (he k hk) hok
      exact ⟨τ, fun _ => ⟨fun c hcm => (t2 c hcm).1, ok, hok, t1⟩⟩
    · exact ⟨fun _ _ => 0, fun h => absurd h hk⟩
  choose τ hτ using each
  have hL := hc.pos
  refine ⟨τ, fun c hcm => ⟨fun f hfm => (hb 0 hc.some c hcm).rate0 (by simp) f hfm, fun x hx => (hb 0 hc.some c hcm).charge0 (by simp) x hx, fun k hk f hfm => ?_, fun x hx k hk => ?_⟩,
    fun k hk => (hτ k hk).1, fun k hk => (hτ k hk).2⟩
  · have hw := hc.whole k hk
    have e : (k + 1) * L = k * L + L := by ring
    rw [(hb (k + 1) hk c hcm).rate (by rw [e]; omega) f hfm, ((hτ k (by omega)).1 c hcm).rate f hfm (L - 1) (by omega), e,
      show k * L + L - 1 = k * L + (L - 1) by omega]
  · have hw := hc.whole k hk
    have e : (k + 1) * L = k * L + L := by ring
    rw [(hb (k + 1) hk c hcm).charge (by rw [e]; omega) x hx, ((hτ k (by omega)).1 c hcm).charge x hx L hw, e]

/-- **C91 for all segments without start costs.**  From every solution of the whole horizon one gets results for all segments such that each segment is solved, starts with
the values that the segment before has reached after `L` steps, and keeps the values of the solution. -/
theorem C91_chain_partial (hv : sys.Valid) (hpd : sys.prevDt.Nonneg) (hf : s.Fits sys.n) (hp : ∀ c ∈ s.comps, c.Proper sys) (hl : s.Local)
    (h : systemModel sys s = .ok o) {σ : Assignment} (hs : o.solver.Solves σ) {L m : Nat} {len : Nat → Nat} (hc : Cover sys.n L m len) {st : Nat → SegStart}
    (hb : ∀ k < m, ∀ c ∈ s.comps, c.Begins (k * L) σ (st k)) (he : ∀ k < m, ∀ c ∈ s.comps, ∀ x, c = .storage x → x.OpenEnd sys.n (k * L) (len k))
    (hm : ∀ k < m, ∃ ok, systemModel (sys.window (k * L) (len k)) (s.window (k * L) (len k) (st k)) = .ok ok) :
    ∃ τ : Nat → Assignment, (∀ c ∈ s.comps, c.Handed L m τ st) ∧ (∀ k < m, ∀ c ∈ s.comps, c.Cuts (k * L) (len k) σ (τ k)) ∧
      ∀ k < m, ∃ ok, systemModel (sys.window (k * L) (len k)) (s.window (k * L) (len k) (st k)) = .ok ok ∧ ok.solver.Solves (τ k) :=
  C91_chain_starts_partial hv hpd hf hp hl.uncoupled h hs hc hb (fun _ _ => hl.starts.clearAt _ _ σ) he hm

end Flix
