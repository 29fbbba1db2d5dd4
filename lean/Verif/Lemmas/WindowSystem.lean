import Verif.Lemmas.WindowComp
import Verif.Props.CompleteSystem

/-! # Solutions of the segments put one after the other, for components and effects -/

namespace Flix

variable {sys : Sys} {L m : Nat} {len : Nat → Nat}

/-- Static conditions on the declarations of a component. -/
def Comp.Proper (sys : Sys) : Comp → Prop
  | .plain c => c.Proper sys
  | .converter c => c.comp.Proper sys ∧ (∀ fs ∈ c.factors, ∀ q ∈ fs, q.2.Fits sys.n) ∧ ∀ r ∈ c.segments, ∀ q ∈ r.2, q.1.Fits sys.n ∧ q.2.Fits sys.n
  | .storage s => s.Proper sys
  | .transmission t => t.Proper sys

/-- No declaration couples distant steps, and no size is decided. -/
def Comp.Local : Comp → Prop
  | .plain c => c.Local
  | .converter c => c.comp.Local
  | .storage s => s.Local
  | .transmission t => t.Local

/-- The values in `τ` are those of the segments, each for its first `L` steps. -/
structure Comp.Takes (n L m : Nat) (c : Comp) (σ : Nat → Assignment) (τ : Assignment) : Prop where
  rate : ∀ f ∈ c.flows, ∀ t < n, τ (rateL c.label f.label) t = σ (t / L) (rateL c.label f.label) (t % L)
  flowOn : ∀ f ∈ c.flows, f.onOff ≠ none → ∀ t < n, τ (stateL (flowFull c.label f.label)) t = σ (t / L) (stateL (flowFull c.label f.label)) (t % L)
  on : c.onOff ≠ none → ∀ t < n, τ (stateL c.label) t = σ (t / L) (stateL c.label) (t % L)
  charge : ∀ s, c = .storage s → ∀ t ≤ n, τ (chargeStateL s.label) t = σ (contentOwner L m t) (chargeStateL s.label) (t - contentOwner L m t * L)

theorem comp_takes (hc : Cover sys.n L m len) {c : CompData} {st : Nat → SegStart} {σ : Nat → Assignment} {τ : Assignment} {p : Nat → CompPlan}
    (hp : ∀ k < m, (p k).Realized (c.window (k * L) (len k) (st k)) (σ k)) (hj : (CompPlan.join L p).Realized c τ) :
    (∀ f ∈ c.inputs ++ c.outputs, ∀ t < sys.n, τ (rateL c.label f.label) t = σ (t / L) (rateL c.label f.label) (t % L)) ∧
    (∀ f ∈ c.inputs ++ c.outputs, f.onOff ≠ none → ∀ t < sys.n, τ (stateL (flowFull c.label f.label)) t = σ (t / L) (stateL (flowFull c.label f.label)) (t % L)) ∧
    (c.onOff ≠ none → ∀ t < sys.n, τ (stateL c.label) t = σ (t / L) (stateL c.label) (t % L)) := by
  have mem : ∀ f ∈ c.inputs ++ c.outputs, ∀ k, f.window (k * L) (len k) ((st k).rate c.label f.label) ∈
      (c.window (k * L) (len k) (st k)).inputs ++ (c.window (k * L) (len k) (st k)).outputs := by
    intro f hf k
    rw [window_flows]
    exact List.mem_map.2 ⟨f, hf, rfl⟩
  have decl : ∀ f : FlowData, f.onOff ≠ none → (c.declared f).onOff ≠ none := by
    intro f ho
    unfold CompData.declared
    cases hq : f.onOff with
    | none => exact absurd hq ho
    | some q => exact fun h => by cases h
  refine ⟨fun f hf t ht => ?_, fun f hf ho t ht => ?_, fun ho t ht => ?_⟩ <;> obtain ⟨o1, o2, o3⟩ := hc.owner ht
  · have e := (hp _ o1).rate _ (mem f hf _)
    rw [hj.rate f hf]
    exact (congrFun e (t % L)).symm
  · have e := (hp _ o1).flowOn _ (mem f hf _) (by
      rw [declared_window, flow_window_onOff]
      simpa using decl f ho)
    rw [hj.flowOn f hf (decl f ho)]
    exact (congrFun e (t % L)).symm
  · have e := (hp _ o1).on (by simpa [CompData.window] using ho)
    rw [hj.on ho]
    exact (congrFun e (t % L)).symm

theorem trans_mem {t : TransData} (cfg : Cfg) {f : FlowData} (hf : f ∈ t.plain.inputs ++ t.plain.outputs) :
    ∃ g ∈ (t.comp cfg).inputs ++ (t.comp cfg).outputs, g.label = f.label ∧ (f.onOff ≠ none → g.onOff ≠ none) := by
  have fill : ∀ f : FlowData, (t.fill f).label = f.label ∧ (f.onOff ≠ none → (t.fill f).onOff ≠ none) := by
    intro f
    rw [fill_eq]
    refine ⟨rfl, fun ho => ?_⟩
    cases hq : f.onOff with
    | none => exact absurd hq ho
    | some q => intro h; simp only [hq] at h; cases h
  have fill2 : ∀ f : FlowData, (t.fillIn2 cfg f).label = f.label ∧ (t.fillIn2 cfg f).onOff = f.onOff := by
    intro f
    unfold TransData.fillIn2
    split <;> exact ⟨rfl, rfl⟩
  simp only [TransData.plain, List.mem_append, List.mem_cons, Option.mem_toList] at hf
  simp only [TransData.comp, List.mem_append, List.mem_cons, Option.mem_toList, Option.map_eq_some_iff]
  rcases hf with (rfl | h) | (rfl | h)
  · exact ⟨_, .inl (.inl rfl), fill _⟩
  · exact ⟨_, .inl (.inr ⟨f, h, rfl⟩), by rw [(fill2 _).1]; exact (fill f).1, by rw [(fill2 _).2]; exact (fill f).2⟩
  · exact ⟨_, .inr (.inl rfl), fill _⟩
  · exact ⟨_, .inr (.inr ⟨f, h, rfl⟩), fill f⟩

/-- The plan of a transmission gives rates and states of the declared flows. -/
theorem trans_realized {t : TransData} {cfg : Cfg} {p : CompPlan} {τ : Assignment} (h : p.Realized (t.comp cfg) τ) :
    (∀ f ∈ t.plain.inputs ++ t.plain.outputs, τ (rateL t.label f.label) = (p.flow f.label).r) ∧
    (∀ f ∈ t.plain.inputs ++ t.plain.outputs, f.onOff ≠ none → τ (stateL (flowFull t.label f.label)) = (p.flow f.label).b) ∧
    (t.onOff ≠ none → τ (stateL t.label) = p.on) := by
  refine ⟨fun f hf => ?_, fun f hf ho => ?_, h.on⟩
  · obtain ⟨g, hg, hl, _⟩ := trans_mem cfg hf
    have := h.rate g hg
    rwa [hl] at this
  · obtain ⟨g, hg, hl, hgo⟩ := trans_mem cfg hf
    have := h.flowOn g hg (by
      have := hgo ho
      unfold CompData.declared
      cases hq : g.onOff with
      | none => exact absurd hq this
      | some q => exact fun h => by cases h)
    rwa [hl] at this

/-- The start values: those of the user for the first segment, then the values of the segment before. -/
structure Comp.Handed (L m : Nat) (σ : Nat → Assignment) (st : Nat → SegStart) (c : Comp) : Prop where
  rate0 : ∀ f ∈ c.flows, (st 0).rate c.label f.label = f.previousFlowRate
  charge0 : ∀ s, c = .storage s → (st 0).charge s.label = s.initial
  rate : ∀ k, k + 1 < m → ∀ f ∈ c.flows, (st (k + 1)).rate c.label f.label = some (.s (σ k (rateL c.label f.label) (L - 1)))
  charge : ∀ s, c = .storage s → ∀ k, k + 1 < m → (st (k + 1)).charge s.label = .num (σ k (chargeStateL s.label) L)

/-! ## The variables of a component include those of its flows and states -/

theorem converter_labels {c : ConvData} {o : CompOut} (h : converterModel sys c = .ok o) :
    ∃ o0, compModel sys c.comp = .ok o0 ∧ ∀ l ∈ o0.tree.labels, l ∈ o.tree.labels := by
  unfold converterModel at h
  peel h with o0, h0
  refine ⟨o0, h0, fun l hl => ?_⟩
  by_cases hf : (!c.factors.isEmpty) = true
  · rw [if_pos hf] at h
    simp only [except_pure, Except.ok.injEq] at h
    subst h
    rw [CompOut.tree, labels_node] at hl ⊢
    exact hl
  · rw [if_neg hf] at h
    peel h with pts, hpts
    peel h with tree, htree
    simp only [except_pure, Except.ok.injEq] at h
    subst h
    rw [CompOut.tree, labels_node] at hl ⊢
    rcases List.mem_append.1 hl with h | h
    · exact List.mem_append_left _ h
    · refine List.mem_append_right _ ?_
      rw [List.flatMap_append]
      exact List.mem_append_left _ h

theorem storage_labels {s : StorageData} {o : StorageOut} (h : storageModel sys s = .ok o) :
    ∃ o0, compModel sys s.comp = .ok o0 ∧ (∀ l ∈ o0.tree.labels, l ∈ o.comp.tree.labels) ∧ o.chargeState.label ∈ o.comp.tree.labels := by
  unfold storageModel at h
  peel h with o0, h0
  peel h with ab, hab
  obtain ⟨a, b⟩ := ab
  simp only at h
  peel h with c, hc
  peel h with nd, hndv
  peel h with cCharge, hcc
  peel h with inv, hinv'
  peel h with cIF, hif
  simp only [except_pure, Except.ok.injEq] at h
  subst h
  refine ⟨o0, h0, fun l hl => ?_, ?_⟩
  · rw [CompOut.tree, labels_node] at hl ⊢
    simp only [List.map_append, List.flatMap_append, List.mem_append] at hl ⊢
    tauto
  · rw [CompOut.tree, labels_node]
    simp

theorem trans_joined_labels {t : TransData} {o : TransOut} (h : transmissionModel sys t = .ok o) :
    ∃ o0, compModel sys (t.comp sys.cfg) = .ok o0 ∧ ∀ l ∈ o0.tree.labels, l ∈ o.comp.tree.labels := by
  unfold transmissionModel at h
  peel h with o0, h0
  peel h with q, hq
  obtain ⟨i1, i2, o1, o2⟩ := q
  simp only at h
  peel h with c1, h1
  peel h with c2, h2
  simp only [except_pure, Except.ok.injEq] at h
  subst h
  refine ⟨o0, h0, fun l hl => ?_⟩
  rw [CompOut.tree, labels_node] at hl ⊢
  exact hl

theorem model_join (hv : sys.Valid) (hpd : sys.prevDt.Nonneg) (hn : sys.n ≠ 0) (hc : Cover sys.n L m len) {c : Comp} {oc : CompOut} (hp : c.Proper sys) (hl : c.Local)
    (h : c.model sys = .ok oc) (hnd : oc.tree.labels.Nodup) {σ : Nat → Assignment} {st : Nat → SegStart} (hh : c.Handed L m σ st)
    (hs : ∀ k < m, ∃ ok, (c.window (k * L) (len k) (st k)).model (sys.window (k * L) (len k)) = .ok ok ∧ ok.tree.Solves (σ k)) :
    ∃ τ, oc.tree.Solves τ ∧ ∀ τ' : Assignment, (∀ l ∈ oc.tree.labels, τ' l = τ l) → c.Takes sys.n L m σ τ' := by
  have hvk : ∀ k < m, (sys.window (k * L) (len k)).Valid := fun k hk => valid_window hv (hc.inside k hk)
  cases c with
  | plain c =>
    have hp : c.Proper sys := hp
    have hl : c.Local := hl
    have hex : ∀ k, ∃ p : CompPlan, k < m → p.Allows (sys.window (k * L) (len k)) (c.window (k * L) (len k) (st k)) ∧ p.Realized (c.window (k * L) (len k) (st k)) (σ k) := by
      intro k
      by_cases hk : k < m
      · obtain ⟨ok, h1, h2⟩ := hs k hk
        obtain ⟨p, hh⟩ := C82_plain_sound (hvk k hk) (comp_window_proper hp hl (hc.inside k hk)) h1 h2
        exact ⟨p, fun _ => hh⟩
      · exact ⟨⟨fun _ => ⟨fun _ => 0, fun _ => 0, 0, 0, fun _ => 0⟩, fun _ => 0⟩, fun h => absurd h hk⟩
    choose p hpk using hex
    obtain ⟨τ, t1, t2⟩ := C82_plain_partial hv hp.fits h hpd hnd (comp_join hv hc hp hl hh.rate0 fun k hk => (hpk k hk).1)
    refine ⟨τ, t1, fun τ' hag => ?_⟩
    obtain ⟨u1, u2, u3⟩ := comp_takes hc (fun k hk => (hpk k hk).2) ((comp_agree h hag).2 _ t2)
    exact ⟨u1, u2, u3, fun s hs => by cases hs⟩
  | converter c =>
    obtain ⟨hp, hff, hsf⟩ : c.comp.Proper sys ∧ (∀ fs ∈ c.factors, ∀ q ∈ fs, q.2.Fits sys.n) ∧ ∀ r ∈ c.segments, ∀ q ∈ r.2, q.1.Fits sys.n ∧ q.2.Fits sys.n := hp
    have hl : c.comp.Local := hl
    have hwp := fun k hk => comp_window_proper (st := st k) hp hl (hc.inside k hk)
    have dflt : CompPlan := ⟨fun _ => ⟨fun _ => 0, fun _ => 0, 0, 0, fun _ => 0⟩, fun _ => 0⟩
    have rj : ∀ (p : Nat → CompPlan) (t : Nat), t < sys.n → ∀ x, ((CompPlan.join L p).flow x).r (t / L * L + t % L) = ((p (t / L)).flow x).r (t % L) := by
      intro p t ht x
      rw [(hc.owner ht).2.2]
      rfl
    by_cases hne : c.factors = []
    · have hex : ∀ k, ∃ p : CompPlan, k < m → p.Allows (sys.window (k * L) (len k)) (c.comp.window (k * L) (len k) (st k)) ∧
          (∀ t < len k, ((c.comp.window (k * L) (len k) (st k)).onOff ≠ none ∧ p.on t = 0) ∨
            p.OnCurve ((c.comp.window (k * L) (len k) (st k)).inputs ++ (c.comp.window (k * L) (len k) (st k)).outputs) (c.window (k * L) (len k) (st k)).segments t) ∧
          p.Realized (c.comp.window (k * L) (len k) (st k)) (σ k) := by
        intro k
        by_cases hk : k < m
        · obtain ⟨ok, h1, h2⟩ := hs k hk
          obtain ⟨p, hh⟩ := C82_segments_sound (hvk k hk) (hc.nonempty k hk).ne' (c := c.window (k * L) (len k) (st k)) (hwp k hk) h1 (by simp [ConvData.window, hne]) (by
            intro r hr q hq
            obtain ⟨r', hr', rfl⟩ := List.mem_map.1 hr
            obtain ⟨q', hq', rfl⟩ := List.mem_map.1 hq
            exact ⟨fits_window (hsf r' hr' q' hq').1 (hc.inside k hk), fits_window (hsf r' hr' q' hq').2 (hc.inside k hk)⟩) h2
          exact ⟨p, fun _ => hh⟩
        · exact ⟨dflt, fun h => absurd h hk⟩
      choose p hpk using hex
      obtain ⟨τ, t1, t2⟩ := C82_segments_partial hv hn hp.fits h hpd hnd hne hsf (comp_join hv hc hp hl hh.rate0 fun k hk => (hpk k hk).1) (by
        intro t ht
        obtain ⟨o1, o2, o3⟩ := hc.owner ht
        rcases (hpk _ o1).2.1 _ o2 with ⟨w1, w2⟩ | w
        · exact .inl ⟨by simpa [CompData.window] using w1, w2⟩
        · right
          rw [window_flows] at w
          have := curve_window hsf (hc.inside _ o1) o2 (p (t / L)) (CompPlan.join L p) (rj p t ht) w
          rwa [o3] at this)
      refine ⟨τ, t1, fun τ' hag => ?_⟩
      obtain ⟨o0, h0, hsub⟩ := converter_labels h
      obtain ⟨u1, u2, u3⟩ := comp_takes hc (fun k hk => (hpk k hk).2.2) ((comp_agree h0 fun l hl => hag l (hsub l hl)).2 _ t2)
      exact ⟨u1, u2, u3, fun s hs => by cases hs⟩
    · have hex : ∀ k, ∃ p : CompPlan, k < m → p.Allows (sys.window (k * L) (len k)) (c.comp.window (k * L) (len k) (st k)) ∧
          (∀ fs ∈ (c.window (k * L) (len k) (st k)).factors, ∀ t < len k, p.side (c.comp.window (k * L) (len k) (st k)).inputs fs t = p.side (c.comp.window (k * L) (len k) (st k)).outputs fs t) ∧
          p.Realized (c.comp.window (k * L) (len k) (st k)) (σ k) := by
        intro k
        by_cases hk : k < m
        · obtain ⟨ok, h1, h2⟩ := hs k hk
          obtain ⟨p, hh⟩ := C82_factors_sound (hvk k hk) (c := c.window (k * L) (len k) (st k)) (hwp k hk) h1 (by simpa [ConvData.window] using hne) (by
            intro fs hfs q hq
            obtain ⟨fs', hfs', rfl⟩ := List.mem_map.1 hfs
            obtain ⟨q', hq', rfl⟩ := List.mem_map.1 hq
            exact fits_window (hff fs' hfs' q' hq') (hc.inside k hk)) h2
          exact ⟨p, fun _ => hh⟩
        · exact ⟨dflt, fun h => absurd h hk⟩
      choose p hpk using hex
      obtain ⟨τ, t1, t2⟩ := C82_factors_partial hv hp.fits h hpd hnd hne hff (comp_join hv hc hp hl hh.rate0 fun k hk => (hpk k hk).1) (by
        intro fs hfs t ht
        obtain ⟨o1, o2, o3⟩ := hc.owner ht
        have := (hpk _ o1).2.1 _ (List.mem_map.2 ⟨fs, hfs, rfl⟩) _ o2
        have k1 := side_window (l := c.comp.inputs) (lab := c.comp.label) (st := st (t / L)) (hff fs hfs) (hc.inside _ o1) o2 (p (t / L)) (CompPlan.join L p) (rj p t ht)
        have k2 := side_window (l := c.comp.outputs) (lab := c.comp.label) (st := st (t / L)) (hff fs hfs) (hc.inside _ o1) o2 (p (t / L)) (CompPlan.join L p) (rj p t ht)
        rw [o3] at k1 k2
        rw [← k1, ← k2]
        exact this)
      refine ⟨τ, t1, fun τ' hag => ?_⟩
      obtain ⟨o0, h0, hsub⟩ := converter_labels h
      obtain ⟨u1, u2, u3⟩ := comp_takes hc (fun k hk => (hpk k hk).2.2) ((comp_agree h0 fun l hl => hag l (hsub l hl)).2 _ t2)
      exact ⟨u1, u2, u3, fun s hs => by cases hs⟩
  | storage s =>
    have hp : s.Proper sys := hp
    have hl : s.Local := hl
    obtain ⟨o', h', rfl⟩ := map_ok.1 h
    have hex : ∀ k, ∃ p : StoragePlan, k < m → p.Allows (sys.window (k * L) (len k)) (s.window (k * L) (len k) (st k)) ∧ p.flows.Realized (s.comp.window (k * L) (len k) (st k)) (σ k) ∧
        σ k (chargeStateL s.label) = p.content := by
      intro k
      by_cases hk : k < m
      · obtain ⟨ok, h1, h2⟩ := hs k hk
        obtain ⟨ok', h1', rfl⟩ := map_ok.1 h1
        obtain ⟨p, a1, a2, a3, _⟩ := C82_storage_sound (hvk k hk) (storage_window_proper hp hl (hc.inside k hk)) h1' h2
        exact ⟨p, fun _ => ⟨a1, a2, a3⟩⟩
      · exact ⟨⟨⟨fun _ => ⟨fun _ => 0, fun _ => 0, 0, 0, fun _ => 0⟩, fun _ => 0⟩, fun _ => 0, 0, 0, fun _ => 0⟩, fun h => absurd h hk⟩
    choose p hpk using hex
    obtain ⟨τ, t1, t2, t3, _⟩ := C82_storage_partial hv ⟨hp.comp.fits _ (by simp [StorageData.comp]), hp.comp.fits _ (by simp [StorageData.comp])⟩ hp.fits h' hpd hnd
      (storage_join hv hc hp hl hh.rate0 (hh.charge0 s rfl) (fun k hk => by rw [hh.charge s rfl k hk, (hpk k (by omega)).2.2]) fun k hk => (hpk k hk).1)
    refine ⟨τ, t1, fun τ' hag => ?_⟩
    obtain ⟨o0, h0, hsub, hch⟩ := storage_labels h'
    have hl3 : o'.chargeState.label = chargeStateL s.label := by
      obtain ⟨_, _, _, _, _, _, _, _, l3, _⟩ := storage_iff hv hp.fits h'
      exact l3
    rw [hl3] at hch
    obtain ⟨u1, u2, u3⟩ := comp_takes hc (fun k hk => (hpk k hk).2.1) ((comp_agree h0 fun l hl => hag l (hsub l hl)).2 _ t2)
    refine ⟨u1, u2, fun h => absurd rfl h, fun s' hs' t ht => ?_⟩
    cases hs'
    rw [hag _ hch, t3, (hpk _ (hc.content ht).1).2.2]
    rfl
  | transmission t =>
    have hp : t.Proper sys := hp
    have hl : t.Local := hl
    obtain ⟨o', h', rfl⟩ := map_ok.1 h
    have hex : ∀ k, ∃ p : CompPlan, k < m → p.Transmits (sys.window (k * L) (len k)) (t.window (k * L) (len k) (st k)) ∧
        p.Realized ((t.window (k * L) (len k) (st k)).comp sys.cfg) (σ k) := by
      intro k
      by_cases hk : k < m
      · obtain ⟨ok, h1, h2⟩ := hs k hk
        obtain ⟨ok', h1', rfl⟩ := map_ok.1 h1
        obtain ⟨p, hh⟩ := C82_transmission_sound (hvk k hk) (trans_window_proper hp hl (hc.inside k hk)) h1' h2
        exact ⟨p, fun _ => hh⟩
      · exact ⟨⟨fun _ => ⟨fun _ => 0, fun _ => 0, 0, 0, fun _ => 0⟩, fun _ => 0⟩, fun h => absurd h hk⟩
    choose p hpk using hex
    have hfit : ∀ f ∈ t.flows, f.Fits sys.n := by
      intro f hf
      refine hp.plain.fits f ?_
      simp only [TransData.flows, List.mem_cons, List.mem_append, Option.mem_toList] at hf
      simp only [TransData.plain, List.mem_cons, List.mem_append, Option.mem_toList]
      tauto
    obtain ⟨τ, t1, _, t2⟩ := C82_transmission_partial hv hp.big hfit hp.fits h' hpd hnd (trans_join hv hc hp hl hh.rate0 fun k hk => (hpk k hk).1)
    refine ⟨τ, t1, fun τ' hag => ?_⟩
    obtain ⟨o0, h0, hsub⟩ := trans_joined_labels h'
    obtain ⟨r1, r2, r3⟩ := trans_realized ((comp_agree h0 fun l hl => hag l (hsub l hl)).2 _ t2)
    have wr : ∀ k < m, _ := fun k hk => trans_realized (hpk k hk).2
    have mem : ∀ f ∈ t.plain.inputs ++ t.plain.outputs, ∀ k, f.window (k * L) (len k) ((st k).rate t.label f.label) ∈
        (t.window (k * L) (len k) (st k)).plain.inputs ++ (t.window (k * L) (len k) (st k)).plain.outputs := by
      intro f hf k
      rw [plain_window, window_flows]
      exact List.mem_map.2 ⟨f, hf, rfl⟩
    refine ⟨fun f hf i hi => ?_, fun f hf ho i hi => ?_, fun ho i hi => ?_, fun s hs => by cases hs⟩ <;> obtain ⟨o1, o2, o3⟩ := hc.owner hi
    · show τ' (rateL t.label f.label) i = _
      rw [r1 f hf]
      exact (congrFun ((wr _ o1).1 _ (mem f hf _)) (i % L)).symm
    · show τ' (stateL (flowFull t.label f.label)) i = _
      rw [r2 f hf ho]
      exact (congrFun ((wr _ o1).2.1 _ (mem f hf _) (by rw [flow_window_onOff]; simpa using ho)) (i % L)).symm
    · show τ' (stateL t.label) i = _
      rw [r3 ho]
      exact (congrFun ((wr _ o1).2.2 (by
        show t.onOff.map _ ≠ none
        have : t.onOff ≠ none := ho
        simpa using this)) (i % L)).symm

end Flix
