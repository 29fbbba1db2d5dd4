import Verif.Lemmas.LooserFlow
import Verif.Lemmas.WindowSystem

/-! # Looser declarations of components keep every solution -/

namespace Flix

variable {sys : Sys} {σ : Assignment}

theorem looser_default {n : Nat} : ({} : OnOffParams).Looser n {} := by
  constructor <;> first | rfl | (intro m hm; cases hm)

theorem flow_looser_states {big : ℚ} {n : Nat} {f f' : FlowData} (h : f.Looser big n f') {a b : Option OnOffParams} (hab : LooserStates n a b) :
    ({ f with onOff := a } : FlowData).Looser big n { f' with onOff := b } :=
  ⟨h.label, h.bus, h.previous, h.profile, h.low, h.high, hab, h.hoursMin, h.hoursMax, h.loadMin, h.loadMax, h.size⟩

theorem fillOnOff_looser {big : ℚ} {n : Nat} {c c' : CompData} (hc : c.onOff.isSome = c'.onOff.isSome) (hp : c'.prevent = c.prevent) {f f' : FlowData}
    (h : f.Looser big n f') : (fillOnOff c f).Looser big n (fillOnOff c' f') := by
  have e : decide (f'.label ∈ c'.prevent) = decide (f.label ∈ c.prevent) := by rw [hp, h.label]
  unfold fillOnOff
  rw [← hc, e]
  rcases h.states.split with ⟨e1, e2⟩ | ⟨q, q', e1, e2, e3⟩
  · rw [e1, e2]
    split
    · exact flow_looser_states h (a := some {}) (b := some {}) looser_default
    · exact h
  · rw [e1, e2]
    simpa using h

theorem fillOnOff_sensible {c : CompData} {f : FlowData} (h : f.Sensible sys.cfg sys.n) : (fillOnOff c f).Sensible sys.cfg sys.n := by
  unfold fillOnOff
  split
  · exact ⟨h.size, h.low, h.invest⟩
  · exact h

theorem fillOnOff_proper {c : CompData} {f : FlowData} (h : f.Proper sys.n) : (fillOnOff c f).Proper sys.n := by
  unfold fillOnOff
  split
  · refine ⟨fun q hq => ?_, h.2⟩
    cases hq
    intro m hm
    simp at hm
  · exact h

theorem LooserStates.some_iff {n : Nat} {a b : Option OnOffParams} (h : LooserStates n a b) : a.isSome = b.isSome := by
  rcases h.split with ⟨e1, e2⟩ | ⟨q, q', e1, e2, _⟩ <;> rw [e1, e2] <;> rfl

/-- Two flows next to each other. -/
def SamePair (p p' : FlowData × FlowOut) : Prop := p'.1.label = p.1.label ∧ SameFlow p.2 p'.2

theorem onOf_same {l l' : List (FlowData × FlowOut)} (h : List.Forall₂ SamePair l l') (x : String) : onOf l' x = onOf l x := by
  unfold onOf
  induction h with
  | nil => rfl
  | cons a _ ih =>
    rename_i p p' l l' _
    rw [List.find?_cons, List.find?_cons, a.1]
    cases hx : (p.1.label == x) with
    | false => exact ih
    | true =>
      have := a.2.on
      simp only
      cases h1 : p.2.onOff <;> cases h2 : p'.2.onOff <;> rw [h1, h2] at this <;> simp at this ⊢
      exact this

theorem compPrevent_same {c c' : CompData} {l l' : List (FlowData × FlowOut)} (h : List.Forall₂ SamePair l l') (hl : c'.label = c.label) (hp : c'.prevent = c.prevent) :
    compPrevent c' l' = compPrevent c l := by
  unfold compPrevent
  rw [hl, hp, show onOf l' = onOf l from funext (onOf_same h)]

/-- A component with looser declarations keeps every solution. -/
theorem comp_looser (hv : sys.Valid) (hpd : sys.prevDt.Nonneg) {c c' : CompData} {o o' : CompOut} (hp : c.Proper sys) (hp' : c'.Proper sys) (h : compModel sys c = .ok o)
    (h' : compModel sys c' = .ok o') (hl : c.Looser sys.cfg.big sys.n c') :
    List.Forall₂ SamePair o.inputs o'.inputs ∧ List.Forall₂ SamePair o.outputs o'.outputs ∧ ((o'.on.map fun x => x.on) = o.on.map fun x => x.on) ∧
      (o.tree.Solves σ → o'.tree.Solves σ) := by
  obtain ⟨r1, r2, r3, prev, r4, _⟩ := comp_inv h
  obtain ⟨r1', r2', r3', prev', r4', _⟩ := comp_inv h'
  have each : ∀ {fs fs' : List FlowData} {l l' : List (FlowData × FlowOut)}, (∀ f ∈ fs, f ∈ c.inputs ++ c.outputs) → (∀ f ∈ fs', f ∈ c'.inputs ++ c'.outputs) →
      List.Forall₂ (FlowData.Looser sys.cfg.big sys.n) fs fs' →
      List.Forall₂ (fun f q => q.1 = fillOnOff c f ∧ flowModel sys (flowFull c.label f.label) (fillOnOff c f) = .ok q.2) fs l →
      List.Forall₂ (fun f q => q.1 = fillOnOff c' f ∧ flowModel sys (flowFull c'.label f.label) (fillOnOff c' f) = .ok q.2) fs' l' →
      List.Forall₂ (fun p p' => SamePair p p' ∧ WiderVar sys.n (p.2.flowRate, p.1.absBounds sys.cfg) (p'.2.flowRate, p'.1.absBounds sys.cfg) ∧
        (p.2.tree.Solves σ → p'.2.tree.Solves σ)) l l' := by
    intro fs fs' l l' m m' hfs hl1 hl2
    induction hfs generalizing l l' with
    | nil => cases hl1; cases hl2; exact .nil
    | cons a _ ih =>
      cases hl1 with
      | cons b1 b2 =>
        cases hl2 with
        | cons d1 d2 =>
          refine .cons ?_ (ih (fun f hf => m f (List.mem_cons_of_mem _ hf)) (fun f hf => m' f (List.mem_cons_of_mem _ hf)) b2 d2)
          have z := fillOnOff_looser hl.states.some_iff hl.prevent a
          have d := d1.2
          rw [hl.label, a.label] at d
          have m1 := m _ List.mem_cons_self
          have m2 := m' _ List.mem_cons_self
          obtain ⟨y1, y2, y3⟩ := flow_looser (σ := σ) hv hpd (fillOnOff_fits (hp.fits _ m1)) (fillOnOff_fits (hp'.fits _ m2)) (fillOnOff_sensible (hp.sensible _ m1))
            (fillOnOff_sensible (hp'.sensible _ m2)) (fillOnOff_proper (hp'.proper _ m2)) b1.2 d z
          rw [d1.1, b1.1]
          exact ⟨⟨by rw [d1.1, b1.1]; exact z.label, y1⟩, y2, y3⟩
  have e1 := each (fun f hf => List.mem_append_left _ hf) (fun f hf => List.mem_append_left _ hf) hl.inputs r1 r1'
  have e2 := each (fun f hf => List.mem_append_right _ hf) (fun f hf => List.mem_append_right _ hf) hl.outputs r2 r2'
  have e3 := List.rel_append e1 e2
  change List.Forall₂ _ o.flows o'.flows at e3
  have hon : (o'.on.map fun x => x.on) = (o.on.map fun x => x.on) ∧ ((∀ oo, o.on = some oo → oo.tree.Solves σ) → ∀ oo, o'.on = some oo → oo.tree.Solves σ) := by
    unfold compOnOff at r3 r3'
    rcases hl.states.split with ⟨k1, k2⟩ | ⟨q, q', k1, k2, k3⟩
    · rw [k1] at r3
      rw [k2] at r3'
      simp only [Except.ok.injEq] at r3 r3'
      rw [← r3, ← r3']
      exact ⟨rfl, fun _ oo h => by cases h⟩
    · rw [k1] at r3
      rw [k2] at r3'
      obtain ⟨oo, j1, j2⟩ := map_ok.1 r3
      obtain ⟨oo', j1', j2'⟩ := map_ok.1 r3'
      have good : ∀ {c : CompData} {o : CompOut}, c.Proper sys → compModel sys c = .ok o → ∀ d ∈ o.flows.map (fun q => (q.2.flowRate, q.1.absBounds sys.cfg)),
          d.1.length = sys.n ∧ d.2.1.Fits sys.n ∧ d.2.2.Fits sys.n := by
        intro c o hp h d hd
        obtain ⟨p, hpm, rfl⟩ := List.mem_map.1 hd
        obtain ⟨f, hf, ea, eb⟩ := comp_flow_mem h p hpm
        obtain ⟨ha1, ha2⟩ := (hp.fits f hf).absBounds sys.cfg
        refine ⟨(flowRate_ok (flow_inv eb).1).2.1, ?_, ?_⟩
        · show (p.1.absBounds sys.cfg).1.Fits _
          rw [ea, fillOnOff_absBounds]; exact ha1
        · show (p.1.absBounds sys.cfg).2.Fits _
          rw [ea, fillOnOff_absBounds]; exact ha2
      rw [hl.label] at j1'
      have hw : List.Forall₂ (WiderVar sys.n) (o.flows.map fun q => (q.2.flowRate, q.1.absBounds sys.cfg)) (o'.flows.map fun q => (q.2.flowRate, q.1.absBounds sys.cfg)) := by
        rw [List.forall₂_map_left_iff, List.forall₂_map_right_iff]
        exact e3.imp fun _ _ h => h.2.1
      obtain ⟨z1, z2⟩ := onOff_looser (σ := σ) hv hpd (hp.onOff q k1).1 (hp'.onOff q' k2).1 (hp'.onOff q' k2).2 (good hp h) (good hp' h') j1 j1' k3 hw
      rw [← j2, ← j2']
      refine ⟨by simp [z1], fun hall x hx => ?_⟩
      cases hx
      exact z2 (hall oo rfl)
  refine ⟨e1.imp fun _ _ h => h.1, e2.imp fun _ _ h => h.1, hon.1, fun hs => ?_⟩
  obtain ⟨s1, s2, s3⟩ := (comp_solves h σ).2 hs
  refine (comp_solves h' σ).1 ⟨?_, hon.2 s2, ?_⟩
  · intro p' hp'
    obtain ⟨p, hp, k⟩ := forall₂_mem_right e3 hp'
    exact k.2.2 (s1 p hp)
  · rw [compPrevent_same (e3.imp fun _ _ h => h.1) hl.label hl.prevent]
    exact s3

theorem convSum_same {l l' : List (FlowData × FlowOut)} (h : List.Forall₂ SamePair l l') (fs : Factors) (t : Nat) : convSum σ l' fs t = convSum σ l fs t := by
  unfold convSum
  induction h with
  | nil => rfl
  | cons a _ ih => rw [List.map_cons, List.map_cons, List.sum_cons, List.sum_cons, ih, a.1, a.2.label]

theorem segmentPoints_same {segs : List (String × List (Num × Num))} {l l' : List (FlowData × FlowOut)} (h : List.Forall₂ SamePair l l')
    {ps ps' : List (Var × List (Num × Num))} (hp : segmentPoints l segs = .ok ps) (hp' : segmentPoints l' segs = .ok ps') :
    List.Forall₂ (fun p p' => p'.1.label = p.1.label ∧ p'.2 = p.2) ps ps' := by
  unfold segmentPoints at hp hp'
  rw [mapM_ok] at hp hp'
  induction h generalizing ps ps' with
  | nil => cases hp; cases hp'; exact .nil
  | cons a _ ih =>
    cases hp with
    | cons b1 b2 =>
      cases hp' with
      | cons d1 d2 =>
        refine .cons ?_ (ih b2 d2)
        rw [a.1] at d1
        split at b1
        · rename_i r hr
          rw [hr] at d1
          cases b1
          cases d1
          exact ⟨a.2.label, rfl⟩
        · cases b1

/-- The same for converters. -/
theorem converter_looser (hv : sys.Valid) (hpd : sys.prevDt.Nonneg) (hn : sys.n ≠ 0) {c c' : ConvData} {o o' : CompOut} (hp : (Comp.converter c).Proper sys) (hp' : (Comp.converter c').Proper sys)
    (h : converterModel sys c = .ok o) (h' : converterModel sys c' = .ok o') (hl : c.comp.Looser sys.cfg.big sys.n c'.comp) (hf : c'.factors = c.factors) (hsg : c'.segments = c.segments) :
    o.tree.Solves σ → o'.tree.Solves σ := by
  obtain ⟨p1, p2, p3⟩ := hp
  obtain ⟨p1', p2', p3'⟩ := hp'
  by_cases hne : c.factors = []
  · unfold converterModel at h h'
    peel h with o0, h0
    peel h' with o0', h0'
    rw [hne] at hf
    rw [if_neg (by simp [hne])] at h
    rw [if_neg (by simp [hf])] at h'
    peel h with pts, hpts
    peel h with tr, htr
    peel h' with pts', hpts'
    peel h' with tr', htr'
    simp only [except_pure, Except.ok.injEq] at h h'
    subst h h'
    obtain ⟨q1, q2, q3, q4⟩ := comp_looser (σ := σ) hv hpd p1 p1' h0 h0' hl
    have hsol : ∀ (o : CompOut) (t : MTree), (({ o with subs := o.subs ++ [t] } : CompOut).tree.Solves σ ↔ o.tree.Solves σ ∧ t.Solves σ) := by
      intro o t
      unfold CompOut.tree
      simp only [MTree.Solves]
      rw [solvesAll_append]
      simp only [MTree.SolvesAll, and_true]
      tauto
    rw [hsol, hsol]
    rintro ⟨s1, s2⟩
    refine ⟨q4 s1, ?_⟩
    rw [hsg] at hpts'
    have hps := segmentPoints_same (List.rel_append q1 q2) hpts hpts'
    have lens : ∀ {c : CompData} {o0 : CompOut} {pts : List (Var × List (Num × Num))} {segs : List (String × List (Num × Num))}, compModel sys c = .ok o0 → segmentPoints o0.flows segs = .ok pts →
        (∀ r ∈ segs, ∀ q ∈ r.2, q.1.Fits sys.n ∧ q.2.Fits sys.n) → (∀ q ∈ pts, q.1.length = sys.n) ∧ ∀ q ∈ pts, ∀ s ∈ q.2, s.1.Fits sys.n ∧ s.2.Fits sys.n := by
      intro c o0 pts segs h0 hp hs
      have := segmentPoints_ok h0 hp
      refine ⟨fun q hq => ?_, fun q hq => ?_⟩
      · obtain ⟨f, _, _, e, _⟩ := forall₂_mem_right this hq
        exact e
      · obtain ⟨f, _, _, _, r, e1, e2⟩ := forall₂_mem_right this hq
        rw [e2]
        exact hs r (List.mem_of_find?_eq_some e1)
    obtain ⟨l1, l2⟩ := lens h0 hpts p3
    obtain ⟨l1', l2'⟩ := lens h0' hpts' p3
    have onl : ∀ {c : CompData} {o : CompOut}, compModel sys c = .ok o → ∀ oo, o.on = some oo → oo.on.length = sys.n := by
      intro c o h oo ho
      obtain ⟨_, _, r, _⟩ := comp_inv h
      unfold compOnOff at r
      rw [ho] at r
      split at r
      · cases r
      · obtain ⟨x, hx, e⟩ := map_ok.1 r
        cases e
        exact (onOff_on_length hx).1
    have hout : ∀ {c : CompData} {o : CompOut}, compModel sys c = .ok o → ∀ x, (match o.on with | some on => Outside.use on.on | none => .no) = .use x → x.length = sys.n := by
      intro c o h x hx
      cases ho : o.on with
      | none => rw [ho] at hx; cases hx
      | some oo => rw [ho] at hx; cases hx; exact onl h oo ho
    have eo : (match o0'.on with | some on => Outside.use on.on | none => .no) = (match o0.on with | some on => Outside.use on.on | none => .no) := by
      cases h1 : o0.on <;> cases h2 : o0'.on <;> rw [h1, h2] at q3 <;> simp at q3 ⊢
      exact q3
    obtain ⟨nr, ⟨x, r, k1, k2⟩, _, hiff⟩ := multiple_iff l1 l2 hn (hout h0) htr
    obtain ⟨nr', ⟨x', r', k1', k2'⟩, _, hiff'⟩ := multiple_iff l1' l2' hn (hout h0') htr'
    have en : nr' = nr := by
      rw [k1, k1'] at hps
      cases hps with
      | cons a _ => rw [k2, k2', a.2]
    subst en
    obtain ⟨g1, g2⟩ := (hiff σ).1 s2
    rw [eo, hl.label] at hiff'
    exact (hiff' σ).2 ⟨segRows_congr hps (fun _ => rfl) g1, g2⟩
  · obtain ⟨o0, h0, _, _, _, _, hiff⟩ := converter_factors h hne p2
    obtain ⟨o0', h0', _, _, _, _, hiff'⟩ := converter_factors h' (by rw [hf]; exact hne) p2'
    obtain ⟨q1, q2, q3, q4⟩ := comp_looser (σ := σ) hv hpd p1 p1' h0 h0' hl
    intro hs
    obtain ⟨s1, s2⟩ := (hiff σ).1 hs
    refine (hiff' σ).2 ⟨q4 s1, ?_⟩
    rw [hf]
    intro fs hfs t ht
    rw [convSum_same q1, convSum_same q2]
    exact s2 fs hfs t ht

theorem storage_absBounds {s : StorageData} (t : Nat) : (∀ x, s.capacity = .num x → (s.absBounds sys.cfg).1.at t = s.relMinCharge.at t * x ∧ (s.absBounds sys.cfg).2.at t = s.relMaxCharge.at t * x) ∧
    ∀ q, s.capacity = .invest q → (s.absBounds sys.cfg).1.at t = s.relMinCharge.at t * q.minSize ∧ (s.absBounds sys.cfg).2.at t = s.relMaxCharge.at t * q.maxSize sys.cfg := by
  unfold StorageData.absBounds
  refine ⟨fun x hx => ?_, fun q hq => ?_⟩
  · rw [hx]; simp [at_mulr]
  · rw [hq]; simp [at_mulr]

/-- The same for storages. -/
theorem storage_looser (hv : sys.Valid) (hpd : sys.prevDt.Nonneg) {s s' : StorageData} {o o' : StorageOut} (hp : s.Proper sys) (hp' : s'.Proper sys)
    (hz : ∀ q, s.capacity = .invest q → 0 ≤ q.minimumSize) (hz' : ∀ q, s'.capacity = .invest q → 0 ≤ q.minimumSize)
    (h : storageModel sys s = .ok o) (h' : storageModel sys s' = .ok o') (hl : s.Looser sys.cfg.big sys.n s') : o.comp.tree.Solves σ → o'.comp.tree.Solves σ := by
  obtain ⟨o0, h0, _, _, a1, a2, _, _, a5, a6, a7, a8, _, _, hiff⟩ := storage_iff hv hp.fits h
  obtain ⟨o0', h0', _, _, a1', a2', _, _, a5', a6', a7', a8', _, _, hiff'⟩ := storage_iff hv hp'.fits h'
  have hc : s.comp.Looser sys.cfg.big sys.n s'.comp := by
    refine ⟨hl.label, .cons hl.charging .nil, .cons hl.discharging .nil, trivial, ?_⟩
    unfold StorageData.comp
    rw [hl.prevent, hl.charging.label, hl.discharging.label]
  obtain ⟨_, _, _, q4⟩ := comp_looser (σ := σ) hv hpd hp.comp hp'.comp h0 h0' hc
  intro hs
  obtain ⟨s1, s2, s3⟩ := (hiff σ).1 hs
  have l1 : o'.chargeState.label = o.chargeState.label := by rw [a5, a5', hl.label]
  have l2 : o'.nettoDischarge.label = o.nettoDischarge.label := by rw [a7, a7', hl.label]
  have l3 : o'.charge.flowRate.label = o.charge.flowRate.label := by rw [a1, a1', hl.label, hl.charging.label]
  have l4 : o'.discharge.flowRate.label = o.discharge.flowRate.label := by rw [a2, a2', hl.label, hl.discharging.label]
  have good : ∀ {s : StorageData}, s.Proper sys → (∀ q, s.capacity = .invest q → 0 ≤ q.minimumSize) → ∀ q, s.capacity = .invest q → q.GoodSizes sys.cfg :=
    fun hp hz q hq => ⟨(hp.capacity q hq).1, (hp.capacity q hq).2.1, hz q hq⟩
  have bounds : ∀ t < sys.n + 1, (s'.absBounds sys.cfg).1.at t ≤ (s.absBounds sys.cfg).1.at t ∧ (s.absBounds sys.cfg).2.at t ≤ (s'.absBounds sys.cfg).2.at t := by
    intro t ht
    rcases hl.capacity with ⟨S, S', e1, e2, e3⟩ | ⟨q, q', e1, e2, e3⟩
    · rw [((storage_absBounds t).1 S e1).1, ((storage_absBounds t).1 S e1).2, ((storage_absBounds t).1 S' e2).1, ((storage_absBounds t).1 S' e2).2]
      exact e3 t (by omega)
    · obtain ⟨g1, g2, g3, g4⟩ := looser_sizes e3 (good hp hz q e1) (good hp' hz' q' e2)
      rw [((storage_absBounds t).2 q e1).1, ((storage_absBounds t).2 q e1).2, ((storage_absBounds t).2 q' e2).1, ((storage_absBounds t).2 q' e2).2]
      exact ⟨le_trans (mul_le_mul_of_nonneg_right (hl.low t (by omega)) g2) (mul_le_mul_of_nonneg_left g1 (hp.rel t (by omega)).1),
        le_trans (mul_le_mul_of_nonneg_right (hl.high t (by omega)) g4) (mul_le_mul_of_nonneg_left g3 (hp'.rel t (by omega)).2)⟩
  refine (hiff' σ).2 ⟨q4 s1, ?_, ?_⟩
  · rw [l1, l2, l3, l4]
    refine ⟨fun t ht => le_trans (bounds t ht).1 (s2.lower t ht), fun t ht => le_trans (s2.upper t ht) (bounds t ht).2, s2.net, ?_, ⟨?_, ?_, ?_, ?_⟩⟩
    · rw [hl.relLoss, hl.etaCharge, hl.etaDischarge]; exact s2.step
    · rw [hl.initial]; exact s2.ends.start
    · rw [hl.initial]; exact s2.ends.last
    · rw [hl.initial]; exact fun hi => hl.maxFinal.keep (s2.ends.maxF hi)
    · rw [hl.initial]; exact fun hi => hl.minFinal.keep (s2.ends.minF hi)
  · intro iv' hiv'
    rw [hiv'] at a8'
    unfold storageInvest at a8 a8'
    rcases hl.capacity with ⟨S, S', e1, e2, e3⟩ | ⟨q, q', e1, e2, e3⟩
    · rw [e2] at a8'
      cases a8'
    · rw [e1] at a8
      rw [e2] at a8'
      obtain ⟨iv, j1, j2⟩ := map_ok.1 a8
      obtain ⟨iv2, j1', j2'⟩ := map_ok.1 a8'
      cases j2'
      rw [hl.label] at j1'
      refine (invest_looser a6 a6' l1 hp.fits.relMin hp.fits.relMax hp'.fits.relMin hp'.fits.relMax (by simp) (by simp) (by simp) j1 j1' e3 (good hp hz q e1)
        (good hp' hz' q' e2) (.inl rfl) (by simp) ?_ ?_ ?_ ?_ ?_ (s3 iv j2.symm)).2.2
      · intro t ht; exact hl.low t (by omega)
      · intro t ht; exact hl.high t (by omega)
      · intro t ht; exact ⟨(hp'.rel t (by omega)).1, (hp.rel t (by omega)).2⟩
      · intro hc; exact absurd rfl hc
      · intro c hc; cases hc

theorem trans_comp_proper {t : TransData} (hp : t.Proper sys) : (t.comp sys.cfg).Proper sys := by
  have hpl := hp.plain
  have hmem : ∀ f ∈ t.flows, f ∈ t.plain.inputs ++ t.plain.outputs := by
    intro f hf
    simp only [TransData.flows, List.mem_cons, List.mem_append, Option.mem_toList] at hf
    simp only [TransData.plain, List.mem_cons, List.mem_append, Option.mem_toList]
    tauto
  have hfit : ∀ f ∈ t.flows, f.Fits sys.n := fun f hf => hpl.fits f (hmem f hf)
  have m1 : t.in1 ∈ t.flows := by simp [TransData.flows]
  have m2 : t.out1 ∈ t.flows := by simp [TransData.flows]
  have m3 : ∀ f, t.in2 = some f → f ∈ t.flows := fun f hf => by simp [TransData.flows, hf]
  have m4 : ∀ f, t.out2 = some f → f ∈ t.flows := fun f hf => by simp [TransData.flows, hf]
  have hfp : ∀ f ∈ t.flows, (t.fill f).Sensible sys.cfg sys.n ∧ (t.fill f).Proper sys.n := fun f hf =>
    fill_proper (hpl.sensible f (hmem f hf)) (hpl.proper f (hmem f hf))
  have hmap : ((t.comp sys.cfg).inputs ++ (t.comp sys.cfg).outputs).map (fun f => f.label) = (t.plain.inputs ++ t.plain.outputs).map fun f => f.label := by
    cases h2 : t.in2 <;> cases h3 : t.out2 <;> simp [TransData.comp, TransData.plain, h2, h3, fill_label, fillIn2_label]
  have heach : ∀ f ∈ (t.comp sys.cfg).inputs ++ (t.comp sys.cfg).outputs, f.Sensible sys.cfg sys.n ∧ f.Proper sys.n := by
    intro f hf
    simp only [TransData.comp, List.mem_append, List.mem_cons, Option.mem_toList, Option.map_eq_some_iff] at hf
    rcases hf with (rfl | ⟨g, hg, rfl⟩) | (rfl | ⟨g, hg, rfl⟩)
    · exact hfp _ m1
    · exact fillIn2_proper hp.big (hpl.sensible _ (hmem _ m1)) (hfp g (m3 g hg)).1 (hfp g (m3 g hg)).2
    · exact hfp _ m2
    · exact hfp _ (m4 g hg)
  exact ⟨by rw [hmap]; exact hpl.labels, comp_fits hfit, fun f hf => (heach f hf).1, fun f hf => (heach f hf).2, hpl.onOff⟩

theorem fill_looser {big : ℚ} {n : Nat} {t t' : TransData} (ha : t'.absLosses = t.absLosses) {f f' : FlowData} (h : f.Looser big n f') : (t.fill f).Looser big n (t'.fill f') := by
  unfold TransData.fill
  rw [ha]
  cases t.absLosses with
  | none => exact h
  | some a =>
    simp only
    rcases h.states.split with ⟨e1, e2⟩ | ⟨q, q', e1, e2, e3⟩
    · rw [e1, e2]
      split
      · exact flow_looser_states h (a := some {}) (b := some {}) looser_default
      · exact h
    · rw [e1, e2]
      simpa using h

theorem given_not_invest {big S : ℚ} {a : SizeArg} (h : a.given big = some S) : ∀ q, a ≠ .invest q := by
  rintro q rfl
  cases h

theorem fillIn2_looser {t t' : TransData} (hs : t.in1.Sensible sys.cfg sys.n) (hs' : t'.in1.Sensible sys.cfg sys.n) (h1 : LooserSize sys.cfg.big sys.n t.in1 t'.in1) {f f' : FlowData}
    (h : f.Looser sys.cfg.big sys.n f') : (t.fillIn2 sys.cfg f).Looser sys.cfg.big sys.n (t'.fillIn2 sys.cfg f') := by
  rcases h1 with ⟨S, S', e1, e2, _⟩ | ⟨q, q', e1, e2, e3⟩
  · rw [fillIn2_keep (.inl (given_not_invest e1)), fillIn2_keep (.inl (given_not_invest e2))]
    exact h
  · rcases h.size with ⟨S, S', k1, k2, _⟩ | ⟨r, r', k1, k2, _⟩
    · rw [fillIn2_new e1 (given_not_invest k1), fillIn2_new e2 (given_not_invest k2)]
      have g := looser_sizes e3 (hs.invest q e1) (hs'.invest q' e2)
      refine ⟨h.label, h.bus, h.previous, h.profile, h.low, h.high, h.states, h.hoursMin, h.hoursMax, h.loadMin, h.loadMax, .inr ⟨_, _, rfl, rfl, rfl, rfl, rfl, le_rfl, ?_⟩⟩
      exact g.2.2.1
    · rw [fillIn2_keep (.inr ⟨r, k1⟩), fillIn2_keep (.inr ⟨r', k2⟩)]
      exact h

theorem LooserOption.split {big : ℚ} {n : Nat} {a b : Option FlowData} (h : LooserOption big n a b) : (a = none ∧ b = none) ∨ ∃ f f', a = some f ∧ b = some f' ∧ f.Looser big n f' := by
  cases a <;> cases b
  · exact .inl ⟨rfl, rfl⟩
  · cases h
  · cases h
  · exact .inr ⟨_, _, rfl, rfl, h⟩

theorem flow_size_label {el : String} {f : FlowData} {o : FlowOut} (h : flowModel sys el f = .ok o) {a : InvestOut} (ha : o.invest = some a) :
    a.size.label = el ++ "__" ++ "Investment" ++ "_" ++ "size" := by
  obtain ⟨_, _, i3, _⟩ := flow_inv h
  rw [ha] at i3
  obtain ⟨q, _, hm⟩ := flowInvest_some i3
  obtain ⟨_, _, _, _, k, _⟩ := invest_inv hm
  unfold sizeVar at k
  split at k <;> rw [(mkVar_ok k).1]

theorem dirRow_same {t t' : TransData} (hr : t'.relLosses = t.relLosses) (ha : t'.absLosses = t.absLosses) {i i' u u' : FlowOut} (hi : SameFlow i i') (hu : SameFlow u u')
    (h : DirRow sys.n t σ i u) : DirRow sys.n t' σ i' u' := by
  intro k hk
  have e1 : t'.relAt k = t.relAt k := by unfold TransData.relAt; rw [hr]
  have e2 : t'.absAt k = t.absAt k := by unfold TransData.absAt; rw [ha]
  have e3 : (i'.onOff.map fun x => σ x.on.label k) = i.onOff.map fun x => σ x.on.label k := by
    have := congrArg (Option.map fun x : Var => σ x.label k) hi.on
    simpa [Option.map_map, Function.comp_def] using this
  rw [hu.label, hi.label, e1, e2, e3]
  exact h k hk

/-- The same for transmissions. -/
theorem trans_looser (hv : sys.Valid) (hpd : sys.prevDt.Nonneg) {t t' : TransData} {o o' : TransOut} (hp : t.Proper sys) (hp' : t'.Proper sys) (h : transmissionModel sys t = .ok o)
    (h' : transmissionModel sys t' = .ok o') (hl : t.Looser sys.cfg.big sys.n t') : o.comp.tree.Solves σ → o'.comp.tree.Solves σ := by
  obtain ⟨o0, h0, _, _, _, _, ⟨_, a1⟩, ⟨_, a2⟩, a3, a3', a4, a4', _, a5, hiff⟩ := trans_iff hp.fits h
  obtain ⟨o0', h0', _, _, _, _, ⟨_, b1⟩, ⟨_, b2⟩, b3, b3', b4, b4', _, b5, hiff'⟩ := trans_iff hp'.fits h'
  have hcp := trans_comp_proper hp
  have hcp' := trans_comp_proper hp'
  have hin1 : t.in1 ∈ t.plain.inputs ++ t.plain.outputs := by simp [TransData.plain]
  have hin1' : t'.in1 ∈ t'.plain.inputs ++ t'.plain.outputs := by simp [TransData.plain]
  have fill := fun {f f'} => fill_looser (big := sys.cfg.big) (n := sys.n) (f := f) (f' := f') hl.absLosses
  have fill2 := fun {f f'} => fillIn2_looser (f := f) (f' := f') (hp.plain.sensible _ hin1) (hp'.plain.sensible _ hin1') hl.in1.size
  have hc : (t.comp sys.cfg).Looser sys.cfg.big sys.n (t'.comp sys.cfg) := by
    refine ⟨hl.label, ?_, ?_, hl.states, ?_⟩
    · refine .cons (fill hl.in1) ?_
      rcases hl.in2.split with ⟨e1, e2⟩ | ⟨f, f', e1, e2, e3⟩ <;> rw [e1, e2]
      · exact .nil
      · exact .cons (fill2 (fill e3)) .nil
    · refine .cons (fill hl.out1) ?_
      rcases hl.out2.split with ⟨e1, e2⟩ | ⟨f, f', e1, e2, e3⟩ <;> rw [e1, e2]
      · exact .nil
      · exact .cons (fill e3) .nil
    · unfold TransData.comp
      simp only
      rcases hl.in2.split with ⟨e1, e2⟩ | ⟨f, f', e1, e2, e3⟩ <;> rw [e1, e2]
      simp only
      rw [hl.prevent, hl.in1.label, e3.label]
  obtain ⟨_, _, _, q4⟩ := comp_looser (σ := σ) hv hpd hcp hcp' h0 h0' hc
  have flow : ∀ {g g' : FlowData} {u u' : FlowOut}, g ∈ (t.comp sys.cfg).inputs ++ (t.comp sys.cfg).outputs → g' ∈ (t'.comp sys.cfg).inputs ++ (t'.comp sys.cfg).outputs →
      g.Looser sys.cfg.big sys.n g' → TransFlow sys t g u → TransFlow sys t' g' u' → SameFlow u u' ∧ ∀ a a', u.invest = some a → u'.invest = some a' → a'.size.label = a.size.label := by
    intro g g' u u' m m' hg k k'
    unfold TransFlow at k k'
    rw [hl.label, hg.label] at k'
    refine ⟨(flow_looser (σ := σ) hv hpd (fillOnOff_fits (hcp.fits _ m)) (fillOnOff_fits (hcp'.fits _ m')) (fillOnOff_sensible (hcp.sensible _ m))
            (fillOnOff_sensible (hcp'.sensible _ m')) (fillOnOff_proper (hcp'.proper _ m')) k k' (fillOnOff_looser hc.states.some_iff hc.prevent hg)).1, fun a a' ha ha' => ?_⟩
    rw [flow_size_label k ha, flow_size_label k' ha']
  have s1 := flow (by simp [TransData.comp]) (by simp [TransData.comp]) (fill hl.in1) a1 b1
  have s2 := flow (by simp [TransData.comp]) (by simp [TransData.comp]) (fill hl.out1) a2 b2
  intro hs
  obtain ⟨g1, g2, g3, g4⟩ := (hiff σ).1 hs
  refine (hiff' σ).2 ⟨q4 g1, dirRow_same hl.relLosses hl.absLosses s1.1 s2.1 g2, ?_, ?_⟩
  · intro i2' u2' hi hu
    rcases hl.in2.split with ⟨e1, e2⟩ | ⟨f, f', e1, e2, e3⟩
    · rw [b3' e2] at hi; cases hi
    · rcases hl.out2.split with ⟨k1, k2⟩ | ⟨d, d', k1, k2, k3⟩
      · rw [b4' k2] at hu; cases hu
      · obtain ⟨i2, z1, _, z2⟩ := a3 f e1
        obtain ⟨i2x, z1', _, z2'⟩ := b3 f' e2
        obtain ⟨u2, y1, _, y2⟩ := a4 d k1
        obtain ⟨u2x, y1', _, y2'⟩ := b4 d' k2
        rw [hi] at z1'; cases z1'
        rw [hu] at y1'; cases y1'
        exact dirRow_same hl.relLosses hl.absLosses (flow (by simp [TransData.comp, e1]) (by simp [TransData.comp, e2]) (fill2 (fill e3)) z2 z2').1
          (flow (by simp [TransData.comp, k1]) (by simp [TransData.comp, k2]) (fill k3) y2 y2').1 (g3 i2 u2 z1 y1)
  · intro i2' q' a' b' hi hq' ha' hb'
    rcases hl.in2.split with ⟨e1, e2⟩ | ⟨f, f', e1, e2, e3⟩
    · rw [b3' e2] at hi; cases hi
    · obtain ⟨i2, z1, _, z2⟩ := a3 f e1
      obtain ⟨i2x, z1', _, z2'⟩ := b3 f' e2
      rw [hi] at z1'; cases z1'
      rcases hl.in1.size with ⟨S, S', k1, k2, _⟩ | ⟨q, r, k1, k2, _⟩
      · exact absurd hq' (given_not_invest k2 q')
      · obtain ⟨_, _, _, w⟩ := a5 i2 z1
        obtain ⟨a, b, w1, w2⟩ := w q k1
        rw [s1.2 a a' w1 ha', (flow (by simp [TransData.comp, e1]) (by simp [TransData.comp, e2]) (fill2 (fill e3)) z2 z2').2 b b' w2 hb']
        exact g4 i2 q a b z1 k1 w1 w2

/-- The smallest capacity of a storage is not negative. -/
def Comp.CapacityNonneg : Comp → Prop
  | .storage s => ∀ q, s.capacity = .invest q → 0 ≤ q.minimumSize
  | _ => True

/-- A component of any kind with looser declarations keeps every solution. -/
theorem anyComp_looser (hv : sys.Valid) (hpd : sys.prevDt.Nonneg) (hn : sys.n ≠ 0) {c c' : Comp} {o o' : CompOut} (hp : c.Proper sys) (hp' : c'.Proper sys) (hz : c.CapacityNonneg)
    (hz' : c'.CapacityNonneg) (h : c.model sys = .ok o) (h' : c'.model sys = .ok o') (hl : c.Looser sys.cfg.big sys.n c') : o.tree.Solves σ → o'.tree.Solves σ := by
  cases c <;> cases c' <;> simp only [Comp.Looser] at hl
  · exact (comp_looser hv hpd hp hp' h h' hl).2.2.2
  · exact converter_looser hv hpd hn hp hp' h h' hl.1 hl.2.1 hl.2.2
  · obtain ⟨a, j, e⟩ := map_ok.1 h
    obtain ⟨a', j', e'⟩ := map_ok.1 h'
    rw [← e, ← e']
    exact storage_looser hv hpd hp hp' hz hz' j j' hl
  · obtain ⟨a, j, e⟩ := map_ok.1 h
    obtain ⟨a', j', e'⟩ := map_ok.1 h'
    rw [← e, ← e']
    exact trans_looser hv hpd hp hp' j j' hl

end Flix
