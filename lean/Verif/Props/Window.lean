import Verif.Lemmas.WindowStarts

/-! # C87: the combined results of a segmented calculation -/

namespace Flix

variable {sys : Sys} {s : System} {o : SysOut} {L m : Nat} {len : Nat → Nat}

/-! ## What a segment declares -/

theorem names_window (es : List EffectData) (a k : Nat) (l : String) (x : Option String) : names (es.map (·.window a k)) l x = names es l x := by
  cases x with
  | some e => rfl
  | none =>
    unfold names
    rw [List.find?_map]
    have : ((fun e : EffectData => e.isStandard) ∘ fun e : EffectData => e.window a k) = fun e => e.isStandard := rfl
    rw [this]
    cases es.find? (·.isStandard) <;> rfl

theorem effVal_window {es : List EffectData} {d : EffDict} {a k t : Nat} {l : String} (hd : d.Series sys.n) (hi : a + k ≤ sys.n) (ht : t < k) :
    effVal (es.map (·.window a k)) (d.window a k) l t = effVal es d l (a + t) := by
  unfold effVal EffDict.window
  rw [List.filter_map, List.map_map]
  have : ((fun q : Option String × Num => names (es.map (·.window a k)) l q.1) ∘ fun q : Option String × Num => (q.1, q.2.window a k)) = fun q => names es l q.1 := by
    funext q
    exact names_window es a k l q.1
  rw [this]
  refine congrArg List.sum (List.map_congr_left fun q hq => ?_)
  exact at_window (hd q (List.mem_filter.1 hq).1) hi ht

/-- Starts cost nothing. -/
def System.FreeStarts (s : System) : Prop :=
  ∀ c ∈ s.comps, (∀ f ∈ c.flows, ∀ q, f.onOff = some q → q.effectsPerSwitchOn = []) ∧ ∀ q, c.onOff = some q → q.effectsPerSwitchOn = []

/-- Nothing couples distant steps: no sums over the horizon are limited, no durations, no sizes are decided. -/
structure System.Local (s : System) : Prop where
  comps : ∀ c ∈ s.comps, c.Local
  starts : s.FreeStarts
  effects : ∀ e ∈ s.effects, e.minOperation = none ∧ e.maxOperation = none ∧ e.minTotal = none ∧ e.maxTotal = none

/-- The same without a condition on the costs of starts. -/
structure System.Uncoupled (s : System) : Prop where
  comps : ∀ c ∈ s.comps, c.Local
  effects : ∀ e ∈ s.effects, e.minOperation = none ∧ e.maxOperation = none ∧ e.minTotal = none ∧ e.maxTotal = none

theorem System.Local.uncoupled (h : s.Local) : s.Uncoupled := ⟨h.comps, h.effects⟩

/-- Free starts need not be read off. -/
theorem System.FreeStarts.clear (h : s.FreeStarts) (eps : ℚ) (σ : Nat → Assignment) : ∀ c ∈ s.comps, c.Clear eps L m σ := fun c hc =>
  ⟨fun f hf q hq hne => absurd ((h c hc).1 f hf q hq) hne, fun q hq hne => absurd ((h c hc).2 q hq) hne⟩

theorem onOff_window {es : List EffectData} {a k t : Nat} {l el : String} {q : Option OnOffParams} {σ τ : Assignment} (hf : ∀ q', q = some q' → q'.EffFits sys.n)
    (h0 : ∀ q', q = some q' → q'.effectsPerSwitchOn ≠ [] → τ (startL el) (a + t) = σ (startL el) t) (hv : sys.Valid) (hi : a + k ≤ sys.n) (ht : t < k)
    (hst : q ≠ none → τ (stateL el) (a + t) = σ (stateL el) t) :
    onOffOperation (sys.window a k).width σ (es.map (·.window a k)) el (q.map (OnOffParams.window a k)) l t = onOffOperation sys.width τ es el q l (a + t) := by
  cases q with
  | none => rfl
  | some q =>
    have e3 : effVal (es.map (·.window a k)) (q.window a k).effectsPerRunningHour l t = effVal es q.effectsPerRunningHour l (a + t) :=
      effVal_window (hf q rfl).2 hi ht
    have e1 : effVal (es.map (·.window a k)) (q.window a k).effectsPerSwitchOn l t * σ (startL el) t = effVal es q.effectsPerSwitchOn l (a + t) * τ (startL el) (a + t) := by
      by_cases hz : q.effectsPerSwitchOn = []
      · have z1 : effVal (es.map (·.window a k)) (q.window a k).effectsPerSwitchOn l t = 0 := by
          show effVal _ (q.effectsPerSwitchOn.window a k) l t = 0
          rw [hz]
          rfl
        have z2 : effVal es q.effectsPerSwitchOn l (a + t) = 0 := by
          rw [hz]
          rfl
        rw [z1, z2, zero_mul, zero_mul]
      · rw [h0 q rfl hz]
        congr 1
        exact effVal_window (hf q rfl).1 hi ht
    show effVal _ (q.window a k).effectsPerSwitchOn l t * σ (startL el) t + effVal _ (q.window a k).effectsPerRunningHour l t * _ * σ (stateL el) t =
      effVal es q.effectsPerSwitchOn l (a + t) * τ (startL el) (a + t) + effVal es q.effectsPerRunningHour l (a + t) * _ * τ (stateL el) (a + t)
    rw [e1, e3, width_window hv hi ht, hst (by simp)]

theorem operation_window {es : List EffectData} {c : Comp} {t : Nat} {l : String} {σ : Nat → Assignment} {st : Nat → SegStart} {τ : Assignment}
    (hv : sys.Valid) (hc : Cover sys.n L m len) (hf : c.EffFits sys.n)
    (hz : c.TakesStarts sys.n L σ τ) (h : c.Takes sys.n L m σ τ) (ht : t < sys.n) :
    (c.window (t / L * L) (len (t / L)) (st (t / L))).operation (sys.window (t / L * L) (len (t / L))).width (σ (t / L)) (es.map (·.window (t / L * L) (len (t / L)))) l (t % L) =
      c.operation sys.width τ es l t := by
  obtain ⟨o1, o2, o3⟩ := hc.owner ht
  obtain ⟨v1, _, _, v4⟩ := comp_window_views (t / L * L) (len (t / L)) (st (t / L)) c
  have hi := hc.inside _ o1
  unfold Comp.operation
  rw [comp_window_flows, v1, v4, List.map_map]
  congr 1
  · refine congrArg List.sum (List.map_congr_left fun f hfm => ?_)
    show flowOperation _ _ _ _ (f.window _ _ _) _ _ = _
    unfold flowOperation
    have e1 : effVal (es.map (·.window (t / L * L) (len (t / L)))) (f.window (t / L * L) (len (t / L)) ((st (t / L)).rate c.label f.label)).effectsPerFlowHour l (t % L) =
        effVal es f.effectsPerFlowHour l t := by
      have := effVal_window (es := es) (l := l) (hf.flows f hfm).op hi o2
      rw [o3] at this
      exact this
    have e2 := onOff_window (es := es) (l := l) (σ := σ (t / L)) (τ := τ) (el := c.label ++ "__" ++ f.label) (hf.flows f hfm).onOff (by
      intro q hq hne
      rw [o3]
      exact hz.flows f hfm q hq hne t ht) hv hi o2 (by
      intro ho
      rw [o3]
      exact h.flowOn f hfm ho t ht)
    have e3 := h.rate f hfm t ht
    have e4 := width_window hv hi o2
    rw [o3] at e2 e4
    rw [e1, e4, flow_window_onOff, e3]
    congr 1
  · have e2 := onOff_window (es := es) (l := l) (σ := σ (t / L)) (τ := τ) (el := c.label) hf.onOff (by
      intro q hq hne
      rw [o3]
      exact hz.comp q hq hne t ht) hv hi o2 (by
      intro ho
      rw [o3]
      exact h.on ho t ht)
    rw [o3] at e2
    exact e2

/-- All sizes are given. -/
def Comp.FixedSizes (c : Comp) : Prop := (∀ f ∈ c.flows, ∀ q, f.size ≠ .invest q) ∧ ∀ s, c = .storage s → ∀ q, s.capacity ≠ .invest q

theorem local_sizes {c : Comp} (h : c.Local) : c.FixedSizes := by
  cases c with
  | plain c => exact ⟨fun f hf => ((show c.Local from h).flows f hf).size, fun s hs => by cases hs⟩
  | converter c => exact ⟨fun f hf => ((show c.comp.Local from h).flows f hf).size, fun s hs => by cases hs⟩
  | storage s => exact ⟨fun f hf => ((show s.Local from h).comp.flows f hf).size, fun s' hs => by cases hs; exact (show s.Local from h).capacity⟩
  | transmission t => exact ⟨fun f hf => ((show t.Local from h).plain.flows f hf).size, fun s hs => by cases hs⟩

theorem sizes_window {c : Comp} (h : c.FixedSizes) (a k : Nat) (st : SegStart) : (c.window a k st).FixedSizes := by
  refine ⟨fun f hf => ?_, fun s' hs => ?_⟩
  · rw [comp_window_flows] at hf
    obtain ⟨g, hg, rfl⟩ := List.mem_map.1 hf
    exact h.1 g hg
  · cases c with
    | storage s => cases hs; exact h.2 s rfl
    | plain c => cases hs
    | converter c => cases hs
    | transmission t => cases hs

theorem investment_zero {c : Comp} (h : c.FixedSizes) (σ : Assignment) (es : List EffectData) (l : String) : c.investment σ es l = 0 := by
  have fl : ∀ f ∈ c.flows, flowInvestment σ es c.label f l = 0 := by
    intro f hf
    unfold flowInvestment
    cases hs : f.size with
    | invest q => exact absurd hs (h.1 f hf q)
    | num x => rfl
    | unset => rfl
  have e : (c.flows.map fun f => flowInvestment σ es c.label f l).sum = 0 := by
    rw [List.map_congr_left (g := fun _ => (0 : ℚ)) fl]
    simp
  unfold Comp.investment
  rw [e, zero_add]
  cases c with
  | plain c => rfl
  | converter c => rfl
  | transmission t => rfl
  | storage s =>
    simp only [capacityInvestment]
    cases hs : s.capacity with
    | invest q => exact absurd hs (h.2 s rfl q)
    | num x => rfl

theorem window_fits (hf : s.Fits sys.n) {a k : Nat} (st : SegStart) (hi : a + k ≤ sys.n) : (s.window a k st).Fits k where
  effects := by
    intro e he
    obtain ⟨e', he', rfl⟩ := List.mem_map.1 he
    have h := hf.effects e' he'
    refine ⟨fun q hq => ?_, h.inv, fun x hx => ?_, fun x hx => ?_⟩
    · obtain ⟨q', hq', rfl⟩ := List.mem_map.1 hq
      exact fits_window (h.op q' hq') hi
    · obtain ⟨x', h1, rfl⟩ := Option.map_eq_some_iff.1 hx
      exact fits_window (h.minH x' h1) hi
    · obtain ⟨x', h1, rfl⟩ := Option.map_eq_some_iff.1 hx
      exact fits_window (h.maxH x' h1) hi
  comps := by
    have dict : ∀ d : EffDict, d.Series sys.n → (d.window a k).Series k := by
      intro d hd q hq
      obtain ⟨q', hq', rfl⟩ := List.mem_map.1 hq
      exact fits_window (hd q' hq') hi
    intro c hc
    obtain ⟨c', hc', rfl⟩ := List.mem_map.1 hc
    have h := hf.comps c' hc'
    refine ⟨fun f hfm => ?_, fun q hq => ?_, fun s' q hs hq => ?_⟩
    · rw [comp_window_flows] at hfm
      obtain ⟨g, hg, rfl⟩ := List.mem_map.1 hfm
      refine ⟨dict _ (h.flows g hg).op, fun q hq => ?_, (h.flows g hg).invest⟩
      obtain ⟨q', h1, rfl⟩ := Option.map_eq_some_iff.1 hq
      exact ⟨dict _ ((h.flows g hg).onOff q' h1).1, dict _ ((h.flows g hg).onOff q' h1).2⟩
    · rw [(comp_window_views a k st c').2.2.2] at hq
      obtain ⟨q', h1, rfl⟩ := Option.map_eq_some_iff.1 hq
      exact ⟨dict _ (h.onOff q' h1).1, dict _ (h.onOff q' h1).2⟩
    · cases c' with
      | storage s0 => cases hs; exact h.invest s0 q rfl hq
      | plain c => cases hs
      | converter c => cases hs
      | transmission t => cases hs
  buses := by
    intro b hb pen hp
    obtain ⟨b', hb', rfl⟩ := List.mem_map.1 hb
    obtain ⟨p', h1, rfl⟩ := Option.map_eq_some_iff.1 hp
    exact fits_window (hf.buses b' hb' p' h1) hi

theorem sends_window {ρ : Comp → Assignment} {σ : Nat → Assignment} {st : Nat → SegStart} (hr : ∀ c ∈ s.comps, c.Takes sys.n L m σ (ρ c)) {b : String} {t : Nat} (ht : t < sys.n) {a k : Nat} :
    s.sends ρ b t = fedInto (σ (t / L)) (s.window a k (st (t / L))) b (t % L) ∧ s.receives ρ b t = takenFrom (σ (t / L)) (s.window a k (st (t / L))) b (t % L) := by
  have key : ∀ c ∈ s.comps, ∀ l : List FlowData, (∀ f ∈ l, f ∈ c.flows) →
      ((l.filter fun f => f.bus = b).map fun f => ρ c (rateL c.label f.label) t).sum =
      (((l.map fun f => f.window a k ((st (t / L)).rate c.label f.label)).filter fun f => f.bus = b).map fun f => σ (t / L) (rateL c.label f.label) (t % L)).sum := by
    intro c hc l hl
    rw [List.filter_map, List.map_map]
    refine congrArg List.sum (List.map_congr_left fun f hf => ?_)
    exact (hr c hc).rate f (hl f (List.mem_filter.1 hf).1) t ht
  constructor
  · unfold System.sends fedInto System.window
    rw [List.map_map]
    refine congrArg List.sum (List.map_congr_left fun c hc => ?_)
    obtain ⟨v1, v2, v3, _⟩ := comp_window_views a k (st (t / L)) c
    simp only [Function.comp, v1, v3]
    exact key c hc _ fun f hf => List.mem_append_right _ hf
  · unfold System.receives takenFrom System.window
    rw [List.map_map]
    refine congrArg List.sum (List.map_congr_left fun c hc => ?_)
    obtain ⟨v1, v2, v3, _⟩ := comp_window_views a k (st (t / L)) c
    simp only [Function.comp, v1, v2]
    exact key c hc _ fun f hf => List.mem_append_left _ hf

/-- **C87.**  Segments of `L` steps (and some more that are thrown away) cover the horizon.  Every segment is solved; it starts where the segment
before has left it after `L` steps.  If nothing couples distant steps, and if the states at the ends of the segments can be read off the
values handed over wherever starts cost something, the results put together are part of a solution of the model of the whole horizon. -/
theorem C87_starts_partial (hv : sys.Valid) (hpd : sys.prevDt.Nonneg) (hn : sys.n ≠ 0) (hf : s.Fits sys.n) (hp : ∀ c ∈ s.comps, c.Proper sys) (hl : s.Uncoupled)
    (h : systemModel sys s = .ok o) (hc : Cover sys.n L m len) {σ : Nat → Assignment} {st : Nat → SegStart} (hh : ∀ c ∈ s.comps, c.Handed L m σ st)
    (hcl : ∀ c ∈ s.comps, c.Clear sys.cfg.eps L m σ)
    (hs : ∀ k < m, ∃ ok, systemModel (sys.window (k * L) (len k)) (s.window (k * L) (len k) (st k)) = .ok ok ∧ ok.solver.Solves (σ k)) :
    ∃ τ, o.solver.Solves τ ∧ (∀ c ∈ s.comps, c.Takes sys.n L m σ τ ∧ c.TakesStarts sys.n L σ τ) ∧
      (∀ b ∈ s.buses, b.excessPenalty ≠ none → ∀ t < sys.n, τ (b.label ++ "_" ++ "excess_input") t = σ (t / L) (b.label ++ "_" ++ "excess_input") (t % L) ∧
        τ (b.label ++ "_" ++ "excess_output") t = σ (t / L) (b.label ++ "_" ++ "excess_output") (t % L)) ∧
      ∀ e ∈ s.effects, (∀ t < sys.n, τ (opTSL e.label) t = σ (t / L) (opTSL e.label) (t % L)) ∧ τ (invSumL e.label) 0 = σ 0 (invSumL e.label) 0 := by
  have hvk : ∀ k < m, (sys.window (k * L) (len k)).Valid := fun k hk => valid_window hv (hc.inside k hk)
  have hfk : ∀ k < m, (s.window (k * L) (len k) (st k)).Fits (len k) := fun k hk => window_fits hf (st k) (hc.inside k hk)
  obtain ⟨z1, _⟩ := forall₂_zip (system_inv h).1
  have hlab := (List.nodup_append.1 (system_labels h)).2.1
  -- each component
  have segs : ∀ c ∈ s.comps, ∀ k < m, ∃ ok, (c.window (k * L) (len k) (st k)).model (sys.window (k * L) (len k)) = .ok ok ∧ ok.tree.Solves (σ k) := by
    intro c hcm k hk
    obtain ⟨ok, h1, h2⟩ := hs k hk
    obtain ⟨ock, hock, hmk⟩ := forall₂_mem_left (system_inv h1).1 (List.mem_map.2 ⟨c, hcm, rfl⟩)
    exact ⟨ock, hmk, ((system_solves h1 _).1 h2).2.1 ock hock⟩
  have each : ∀ c, ∃ ρ : Assignment, c ∈ s.comps → ∀ oc, c.model sys = .ok oc → oc.tree.Solves ρ ∧ ∀ τ' : Assignment, (∀ l ∈ oc.tree.labels, τ' l = ρ l) → c.Takes sys.n L m σ τ' := by
    intro c
    by_cases hcm : c ∈ s.comps
    · obtain ⟨oc, hoc, hm⟩ := forall₂_mem_left (system_inv h).1 hcm
      have hnd : oc.tree.labels.Nodup := by
        rw [List.flatMap_append] at hlab
        have := (List.nodup_append.1 hlab).1
        exact (List.nodup_flatMap.1 this).1 _ (List.mem_map_of_mem hoc)
      obtain ⟨τ, t1, t2⟩ := model_join hv hpd hn hc (hp c hcm) (hl.comps c hcm) hm hnd (hh c hcm) (segs c hcm)
      refine ⟨τ, fun _ oc' hm' => ?_⟩
      rw [hm] at hm'
      cases hm'
      exact ⟨t1, t2⟩
    · exact ⟨fun _ _ => 0, fun h => absurd h hcm⟩
  choose ρ hρ using each
  have takes : ∀ c ∈ s.comps, c.Takes sys.n L m σ (ρ c) := by
    intro c hcm
    obtain ⟨oc, _, hm⟩ := forall₂_mem_left (system_inv h).1 hcm
    exact (hρ c hcm oc hm).2 _ fun _ _ => rfl
  have starts : ∀ c ∈ s.comps, c.TakesStarts sys.n L σ (ρ c) := by
    intro c hcm
    obtain ⟨oc, _, hm⟩ := forall₂_mem_left (system_inv h).1 hcm
    exact comp_joins_starts hv hc (hp c hcm) (hl.comps c hcm) (hh c hcm) (hcl c hcm) hm (hρ c hcm oc hm).1 (takes c hcm) (segs c hcm)
  have tot : ∀ k < m, (⟨fun l t => σ k (opTSL l) t, fun l => σ k (invSumL l) 0⟩ : Totals).Balanced (s.window (k * L) (len k) (st k)).effects (len k)
        ((s.window (k * L) (len k) (st k)).opOf (sys.window (k * L) (len k)) (σ k)) ((s.window (k * L) (len k) (st k)).invOf (σ k)) ∧
      ∀ e ∈ (s.window (k * L) (len k) (st k)).effects, (⟨fun l t => σ k (opTSL l) t, fun l => σ k (invSumL l) 0⟩ : Totals).Allowed (sys.window (k * L) (len k)) e := fun k hk => by
    obtain ⟨ok, h1, h2⟩ := hs k hk
    exact solution_totals (hvk k hk) (hc.nonempty k hk).ne' (hfk k hk) h1 h2
  have bus : ∀ k < m, ∀ b ∈ (s.window (k * L) (len k) (st k)).buses, (s.window (k * L) (len k) (st k)).BusOk (sys.window (k * L) (len k)) (σ k) b := by
    intro k hk
    obtain ⟨ok, h1, h2⟩ := hs k hk
    exact (buses_iff (hvk k hk) (hfk k hk) h1 (σ k)).1 ((system_solves h1 _).1 h2).2.2
  obtain ⟨τ, t1, t2, t3, t4⟩ := C82_system hv hn hf h (ρ := ρ) (ε := fun l t => σ (t / L) l (t % L)) (fun c hcm oc hm => (hρ c hcm oc hm).1) (by
    intro b hb
    refine ⟨fun h0 t ht => ?_, fun h0 t ht => ?_⟩ <;> obtain ⟨o1, o2, o3⟩ := hc.owner ht
    · have := (bus _ o1 _ (List.mem_map.2 ⟨b, hb, rfl⟩)).1 (by simp [BusData.window, h0]) _ o2
      rw [(sends_window (st := st) (a := t / L * L) (k := len (t / L)) takes ht).1, (sends_window (st := st) (a := t / L * L) (k := len (t / L)) takes ht).2]
      exact this
    · have := (bus _ o1 _ (List.mem_map.2 ⟨b, hb, rfl⟩)).2 (by simpa [BusData.window] using h0) _ o2
      rw [(sends_window (st := st) (a := t / L * L) (k := len (t / L)) takes ht).1, (sends_window (st := st) (a := t / L * L) (k := len (t / L)) takes ht).2]
      exact this) (T := ⟨fun l t => σ (t / L) (opTSL l) (t % L), fun l => σ 0 (invSumL l) 0⟩) (by
    intro e he
    constructor
    · intro t ht
      obtain ⟨o1, o2, o3⟩ := hc.owner ht
      have := ((tot _ o1).1 _ (List.mem_map.2 ⟨e, he, rfl⟩)).1 _ o2
      simp only at this ⊢
      rw [show (EffectData.window (t / L * L) (len (t / L)) e).label = e.label from rfl] at this
      rw [this]
      congr 1
      · unfold System.opOf System.window
        rw [List.map_map]
        refine congrArg List.sum (List.map_congr_left fun c hcm => ?_)
        exact operation_window hv hc (hf.comps c hcm) (starts c hcm) (takes c hcm) ht
      · unfold System.window
        rw [List.map_map]
        refine congrArg List.sum (List.map_congr_left fun e' he' => ?_)
        show (((e'.shareOperation.map fun q => (q.1, q.2.window (t / L * L) (len (t / L)))).filter fun q => q.1 = e.label).map fun q =>
          q.2.at (t % L) * σ (t / L) (opTSL e'.label) (t % L)).sum = _
        rw [List.filter_map, List.map_map]
        refine congrArg List.sum (List.map_congr_left fun q hq => ?_)
        have := at_window ((hf.effects e' he').op q (List.mem_filter.1 hq).1) (hc.inside _ o1) o2
        rw [o3] at this
        simp only [Function.comp, this]
    · have := ((tot 0 hc.some).1 _ (List.mem_map.2 ⟨e, he, rfl⟩)).2
      simp only at this ⊢
      rw [show (EffectData.window (0 * L) (len 0) e).label = e.label from rfl] at this
      rw [this]
      congr 1
      · unfold System.invOf System.window
        rw [List.map_map]
        refine congrArg List.sum (List.map_congr_left fun c hcm => ?_)
        show (c.window _ _ _).investment _ _ _ = _
        rw [investment_zero (sizes_window (local_sizes (hl.comps c hcm)) _ _ _), investment_zero (local_sizes (hl.comps c hcm))]
      · unfold System.window
        rw [List.map_map]
        rfl) (by
    intro e he
    obtain ⟨e1, e2, e3, e4⟩ := hl.effects e he
    have al : ∀ k < m, (⟨fun l t => σ k (opTSL l) t, fun l => σ k (invSumL l) 0⟩ : Totals).Allowed (sys.window (k * L) (len k)) (e.window (k * L) (len k)) :=
      fun k hk => (tot k hk).2 _ (List.mem_map.2 ⟨e, he, rfl⟩)
    refine ⟨by simp [e1], by simp [e2], (al 0 hc.some).minInvest, (al 0 hc.some).maxInvest, by simp [e3], by simp [e4], fun x hx t ht => ?_, fun x hx t ht => ?_⟩ <;>
      obtain ⟨o1, o2, o3⟩ := hc.owner ht
    · have := (al _ o1).minPerHour (x.window (t / L * L) (len (t / L))) (by simp [EffectData.window, hx]) _ o2
      rw [at_window ((hf.effects e he).minH x hx) (hc.inside _ o1) o2, o3] at this
      have w := width_window hv (hc.inside _ o1) o2
      unfold Sys.width at w
      rw [w, o3] at this
      exact this
    · have := (al _ o1).maxPerHour (x.window (t / L * L) (len (t / L))) (by simp [EffectData.window, hx]) _ o2
      rw [at_window ((hf.effects e he).maxH x hx) (hc.inside _ o1) o2, o3] at this
      have w := width_window hv (hc.inside _ o1) o2
      unfold Sys.width at w
      rw [w, o3] at this
      exact this)
  refine ⟨τ, t1, fun c hcm => ?_, fun b hb h0 t _ => ?_, fun e he => ⟨fun t _ => ?_, (t4 e he).2⟩⟩
  · obtain ⟨oc, hoc, hm⟩ := forall₂_mem_left (system_inv h).1 hcm
    have hτ := ((system_solves h _).1 t1).2.1 oc hoc
    have htk := (hρ c hcm oc hm).2 _ (t2 c hcm oc hm)
    exact ⟨htk, comp_joins_starts hv hc (hp c hcm) (hl.comps c hcm) (hh c hcm) (hcl c hcm) hm hτ htk (segs c hcm)⟩
  · rw [(t3 b hb h0).1, (t3 b hb h0).2]
    exact ⟨rfl, rfl⟩
  · rw [(t4 e he).1]

/-- **C87** for systems in which starts cost nothing: no condition on the results of the segments is needed. -/
theorem C87_partial (hv : sys.Valid) (hpd : sys.prevDt.Nonneg) (hn : sys.n ≠ 0) (hf : s.Fits sys.n) (hp : ∀ c ∈ s.comps, c.Proper sys) (hl : s.Local)
    (h : systemModel sys s = .ok o) (hc : Cover sys.n L m len) {σ : Nat → Assignment} {st : Nat → SegStart} (hh : ∀ c ∈ s.comps, c.Handed L m σ st)
    (hs : ∀ k < m, ∃ ok, systemModel (sys.window (k * L) (len k)) (s.window (k * L) (len k) (st k)) = .ok ok ∧ ok.solver.Solves (σ k)) :
    ∃ τ, o.solver.Solves τ ∧ (∀ c ∈ s.comps, c.Takes sys.n L m σ τ) ∧
      (∀ b ∈ s.buses, b.excessPenalty ≠ none → ∀ t < sys.n, τ (b.label ++ "_" ++ "excess_input") t = σ (t / L) (b.label ++ "_" ++ "excess_input") (t % L) ∧
        τ (b.label ++ "_" ++ "excess_output") t = σ (t / L) (b.label ++ "_" ++ "excess_output") (t % L)) ∧
      ∀ e ∈ s.effects, (∀ t < sys.n, τ (opTSL e.label) t = σ (t / L) (opTSL e.label) (t % L)) ∧ τ (invSumL e.label) 0 = σ 0 (invSumL e.label) 0 := by
  obtain ⟨τ, t1, t2, t3, t4⟩ := C87_starts_partial hv hpd hn hf hp hl.uncoupled h hc hh (hl.starts.clear _ σ) hs
  exact ⟨τ, t1, fun c hcm => (t2 c hcm).1, t3, t4⟩

end Flix
