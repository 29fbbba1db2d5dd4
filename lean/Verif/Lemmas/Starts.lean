import Verif.Lemmas.LooserComp

/-!
# Starts

In every solution of the model of a component the start variables are determined by the states and by what was known before the horizon.
-/

namespace Flix

variable {sys : Sys} {σ : Assignment}

/-- Label of the start variable of a flow or component. -/
def startL (el : String) : String := el ++ "__OnOff" ++ "_" ++ "switchOn"

/-- The start variable is 1 exactly at the starts. -/
def StartsRight (n : Nat) (σ : Assignment) (el : String) (hist : List ℚ) : Prop :=
  ∃ last, hist.getLast? = some last ∧ ∀ t < n, σ (startL el) t = if Starts (σ (stateL el)) last t then 1 else 0

/-- Starts and states of a flow. -/
structure FlowHistory (sys : Sys) (σ : Assignment) (comp : String) (f : FlowData) : Prop where
  starts : f.onOff ≠ none → StartsRight sys.n σ (flowFull comp f.label) (flowHistory sys.cfg.eps f.previousFlowRate)
  state : f.onOff ≠ none → ∀ t < sys.n, (σ (stateL (flowFull comp f.label)) t = 0 ∧ σ (rateL comp f.label) t = 0) ∨
    (σ (stateL (flowFull comp f.label)) t = 1 ∧ sys.cfg.eps ≤ σ (rateL comp f.label) t)

/-- The same with the lower limit of a flow of a given size. -/
structure FlowStarts (sys : Sys) (σ : Assignment) (comp : String) (f : FlowData) : Prop extends FlowHistory sys σ comp f where
  least : f.onOff ≠ none → ∀ x, f.size = .num x → x ≠ 0 → ∀ t < sys.n, σ (rateL comp f.label) t = 0 ∨ f.lowRel t * x ≤ σ (rateL comp f.label) t

/-- The same for a component; the code joins the values of its flows before the horizon by `np.array`. -/
structure CompStarts (sys : Sys) (σ : Assignment) (c : Comp) : Prop where
  flows : ∀ f ∈ c.flows, FlowHistory sys σ c.label f
  least : (∀ f ∈ c.flows, ∀ q, f.size ≠ .invest q) → ∀ f ∈ c.flows, f.onOff ≠ none ∨ c.onOff ≠ none → ∀ x, f.size = .num x → x ≠ 0 →
    ∀ t < sys.n, σ (rateL c.label f.label) t = 0 ∨ f.lowRel t * x ≤ σ (rateL c.label f.label) t
  starts : c.onOff ≠ none → ∃ hist, prevOnOfList sys.cfg.eps (c.flows.filterMap (·.previousFlowRate)) = .ok hist ∧ StartsRight sys.n σ c.label hist
  state : c.onOff ≠ none → ∀ t < sys.n, (σ (stateL c.label) t = 0 ∧ ∀ f ∈ c.flows, σ (rateL c.label f.label) t = 0) ∨
    (σ (stateL c.label) t = 1 ∧ ∃ f ∈ c.flows, σ (rateL c.label f.label) t ≠ 0)

theorem onOff_starts (hv : sys.Valid) {el : String} {q : OnOffParams} {ds : List (Var × Num × Num)} {o : OnOffOut} (hq : q.Fits sys.n)
    (hds : ∀ d ∈ ds, d.1.length = sys.n ∧ d.2.1.Fits sys.n ∧ d.2.2.Fits sys.n) (h : onOffModel sys el q ds = .ok o) (hs : o.tree.Solves σ) :
    ∃ hist, previousOnValues sys.cfg.eps (ds.map (·.1)) = .ok hist ∧ StartsRight sys.n σ el hist := by
  obtain ⟨a, b, c, hist, last, e1, -, -, h1, h2, h3, -⟩ := C12_starts hv hq hds h hs
  obtain ⟨l1, -, -, -, -, -, -, -, a', -, -, e1', -, -, l2, -⟩ := onOff_parts h
  rw [e1] at e1'
  cases e1'
  refine ⟨hist, h1, last, h2, fun t ht => ?_⟩
  have hl : o.on.label = stateL el := l1
  have hl2 : a.label = startL el := l2
  obtain ⟨k1, k2⟩ := h3 t ht
  rw [hl, hl2] at k1
  rw [hl2] at k2
  by_cases hc : Starts (σ (stateL el)) last t
  · rw [if_pos hc]
    exact k1.2 hc
  · rw [if_neg hc]
    exact k2.resolve_right fun e => hc (k1.1 e)

theorem flow_starts (hv : sys.Valid) {c : String} {f : FlowData} {o : FlowOut} (hf : f.Fits sys.n) (h : flowModel sys (flowFull c f.label) f = .ok o) (hs : o.tree.Solves σ) :
    FlowStarts sys σ c f := by
  have hr := (flow_iff hv hf h σ).1 hs
  obtain ⟨h1, -⟩ := flow_inv h
  obtain ⟨hl, hlen, _, _, hprevr, _⟩ := flowRate_ok h1
  obtain ⟨ha1, ha2⟩ := hf.absBounds sys.cfg
  refine ⟨⟨fun hne => ?_, fun hne t ht => ?_⟩, fun hne x hx hx0 t ht => ?_⟩
  all_goals
    obtain ⟨q, hq⟩ := Option.ne_none_iff_exists'.1 hne
    obtain ⟨oo, ho, hm, _, hst⟩ := flow_state hv hf h hq hs
    have hds : ∀ d ∈ [(o.flowRate, f.absBounds sys.cfg)], d.1.length = sys.n ∧ d.2.1.Fits sys.n ∧ d.2.2.Fits sys.n := by
      simpa using ⟨hlen, ha1, ha2⟩
  · obtain ⟨h2n, _⟩ := onOff_iff hv (hf.onOff q hq) hds hm
    obtain ⟨hist, k1, k2⟩ := onOff_starts hv (hf.onOff q hq) hds hm (hr.onOff oo ho)
    have hs1 := C14_single_partial (eps := sys.cfg.eps) (d := o.flowRate) (by omega)
    simp only [List.map_cons, List.map_nil] at k1
    rw [hs1, hprevr, if_pos (by omega)] at k1
    cases k1
    exact k2
  · have hll : oo.on.label = stateL (flowFull c f.label) := (onOff_on_length hm).2.1
    have hr2 : o.flowRate.label = rateL c f.label := hl
    have := hst t ht
    rw [hll, hr2] at this
    rcases this with k | k
    · exact .inl k
    · exact .inr ⟨k.1, k.2.1⟩
  · have hr2 : o.flowRate.label = rateL c f.label := hl
    have := hst t ht
    rw [hr2] at this
    rcases this with k | k
    · exact .inl k.2
    · right
      have := k.2.2.1
      unfold FlowData.absBounds FlowData.effSize at this
      rw [hx] at this
      simp only [pyOr, if_neg hx0] at this
      rw [at_map hf.relBounds.1 ht, (relBounds_at t).1] at this
      exact this

theorem FlowHistory.of_same {c : String} {f g : FlowData} (hl : g.label = f.label) (hp : g.previousFlowRate = f.previousFlowRate) (ho : f.onOff ≠ none → g.onOff ≠ none)
    (h : FlowHistory sys σ c g) : FlowHistory sys σ c f := by
  obtain ⟨a, b⟩ := h
  rw [hl] at a b
  rw [hp] at a
  exact ⟨fun hne => a (ho hne), fun hne => b (ho hne)⟩

theorem comp_starts (hv : sys.Valid) {c : CompData} {o : CompOut} (hp : c.Proper sys) (h : compModel sys c = .ok o) (hs : o.tree.Solves σ) : CompStarts sys σ (.plain c) := by
  obtain ⟨h1, h2, h3, _⟩ := comp_inv h
  obtain ⟨s1, s2, _⟩ := (comp_solves h σ).2 hs
  have hall := List.rel_append h1 h2
  change List.Forall₂ _ (c.inputs ++ c.outputs) o.flows at hall
  have each : ∀ f ∈ c.inputs ++ c.outputs, FlowStarts sys σ c.label (fillOnOff c f) := by
    intro f hf
    obtain ⟨q, hq, _, e2⟩ := forall₂_mem_left hall hf
    rw [← fillOnOff_label c f] at e2
    exact flow_starts hv (fillOnOff_fits (hp.fits f hf)) e2 (s1 q hq)
  refine ⟨fun f hf => ?_, fun _ f hf hne x hx hx0 t ht => ?_, fun hne => ?_, fun hne t ht => ?_⟩
  · refine (each f hf).toFlowHistory.of_same (fillOnOff_label c f) ?_ ?_
    · unfold fillOnOff
      split <;> rfl
    · intro hne hn
      unfold fillOnOff at hn
      split at hn
      · cases hn
      · exact hne hn
  · have e1 : (fillOnOff c f).size = f.size := by unfold fillOnOff; split <;> rfl
    have e2 : (fillOnOff c f).lowRel t = f.lowRel t := by unfold fillOnOff; split <;> rfl
    have e3 : (fillOnOff c f).onOff ≠ none := by
      intro hn
      unfold fillOnOff at hn
      split at hn
      · cases hn
      · rename_i hq
        rcases hne with hne | hne
        · exact hne hn
        · have hne : c.onOff ≠ none := hne
          simp [hn, hne] at hq
    have := (each f hf).least e3 x (by rw [e1, hx]) hx0 t ht
    rw [fillOnOff_label, e2] at this
    exact this
  · have hne : c.onOff ≠ none := hne
    obtain ⟨q, hq⟩ := Option.ne_none_iff_exists'.1 hne
    have qf := (hp.onOff q hq).1
    unfold compOnOff at h3
    rw [hq] at h3
    obtain ⟨oo, hoo, hoe⟩ := map_ok.1 h3
    have hds : ∀ d ∈ o.flows.map (fun q => (q.2.flowRate, q.1.absBounds sys.cfg)), d.1.length = sys.n ∧ d.2.1.Fits sys.n ∧ d.2.2.Fits sys.n := by
      intro d hd
      obtain ⟨u, hu, rfl⟩ := List.mem_map.1 hd
      obtain ⟨f, hf, h1, h2⟩ := forall₂_mem_right hall hu
      rw [h1]
      exact ⟨(flowRate_ok (flow_inv h2).1).2.1, (fillOnOff_fits (hp.fits f hf) : (fillOnOff c f).Fits sys.n).absBounds sys.cfg⟩
    obtain ⟨h2n, _⟩ := onOff_iff hv qf hds hoo
    obtain ⟨hist, k1, k2⟩ := onOff_starts hv qf hds hoo (s2 oo hoe.symm)
    rw [comp_history h h2n] at k1
    exact ⟨hist, k1, k2⟩
  · have hne : c.onOff ≠ none := hne
    obtain ⟨a1, a2⟩ := comp_sound hv hp h hs
    have := a1.runs.state hne t ht
    have e1 := a2.on hne
    have e2 := fun f (hf : f ∈ c.inputs ++ c.outputs) => congrFun (a2.rate f hf) t
    rcases this with k | k
    · left
      refine ⟨by rw [show stateL (Comp.plain c).label = stateL c.label from rfl, e1]; exact k.1, fun f hf => ?_⟩
      exact (e2 f hf).trans (k.2 f hf)
    · right
      refine ⟨by rw [show stateL (Comp.plain c).label = stateL c.label from rfl, e1]; exact k.1, ?_⟩
      by_contra hnone
      push Not at hnone
      have hk := k.2
      rw [List.map_congr_left (g := fun _ => (0 : ℚ)) fun f hf => (e2 f hf).symm.trans (hnone f hf)] at hk
      simp at hk
      exact absurd hk (not_le.2 hv.heps)

/-- Starts and states in every solution of the model of a component. -/
theorem anyComp_starts (hv : sys.Valid) {c : Comp} {o : CompOut} (hp : c.Proper sys) (h : c.model sys = .ok o) (hs : o.tree.Solves σ) : CompStarts sys σ c := by
  cases c with
  | plain c => exact comp_starts hv hp h hs
  | converter c =>
    simp only [Comp.model, converterModel] at h
    peel h with o0, h0
    have k : o0.tree.Solves σ := by
      split at h
      · simp only [except_pure, Except.ok.injEq] at h
        subst h
        simp only [CompOut.tree, MTree.Solves] at hs ⊢
        exact ⟨hs.1, fun r hr => hs.2.1 r (List.mem_append_left _ hr), hs.2.2⟩
      · peel h with pts, h1
        peel h with t, h2
        simp only [except_pure, Except.ok.injEq] at h
        subst h
        simp only [CompOut.tree, MTree.Solves, solvesAll_append] at hs ⊢
        exact ⟨hs.1, hs.2.1, hs.2.2.1⟩
    have k := comp_starts hv hp.1 h0 k
    exact ⟨k.flows, k.least, k.starts, k.state⟩
  | storage s =>
    simp only [Comp.model] at h
    obtain ⟨so, h', rfl⟩ := map_ok.1 h
    clear h
    rename' h' => h
    unfold storageModel at h
    peel h with o0, h0
    peel h with ab, hab
    obtain ⟨a, b⟩ := ab
    simp only at h
    peel h with c, hc
    peel h with nd, hnd
    peel h with cCharge, hcc
    peel h with inv, hinv
    peel h with cIF, hif
    simp only [except_pure, Except.ok.injEq] at h
    subst h
    simp only [CompOut.tree, MTree.Solves, solvesAll_append, List.mem_append] at hs
    have k := comp_starts hv hp.comp h0 (by
      simp only [CompOut.tree, MTree.Solves]
      exact ⟨fun x hx => hs.1 x (.inl hx), fun r hr => hs.2.1 r (.inl (.inl hr)), hs.2.2.1⟩)
    exact ⟨k.flows, k.least, fun hne => absurd rfl hne, fun hne => absurd rfl hne⟩
  | transmission t =>
    simp only [Comp.model] at h
    obtain ⟨so, h', rfl⟩ := map_ok.1 h
    clear h
    rename' h' => h
    unfold transmissionModel at h
    peel h with o0, h0
    peel h with q, hq
    obtain ⟨i1, i2, o1, o2⟩ := q
    simp only at h
    peel h with c1, h1
    peel h with c2, h2
    simp only [except_pure, Except.ok.injEq] at h
    subst h
    have k := comp_starts hv (trans_comp_proper hp) h0 (by
      simp only [CompOut.tree, MTree.Solves, List.mem_append] at hs ⊢
      exact ⟨hs.1, fun r hr => hs.2.1 r (.inl (.inl hr)), hs.2.2⟩)
    have p1 : ∀ f, (t.fill f).previousFlowRate = f.previousFlowRate ∧ (t.fill f).label = f.label := by
      intro f
      rw [fill_eq]
      exact ⟨rfl, rfl⟩
    have p2 : ∀ f, (t.fillIn2 sys.cfg f).previousFlowRate = f.previousFlowRate ∧ (t.fillIn2 sys.cfg f).label = f.label := by
      intro f
      unfold TransData.fillIn2
      split <;> exact ⟨rfl, rfl⟩
    have same : ∀ {f g : FlowData}, SameCost f g → g.previousFlowRate = f.previousFlowRate → FlowHistory sys σ t.label g → FlowHistory sys σ t.label f := by
      intro f g hfg hpr hg
      refine hg.of_same hfg.label hpr ?_
      rintro hne hn
      rcases hfg.onOff with e | ⟨e, _⟩
      · exact hne (by rw [← e, hn])
      · exact hne e
    have hprev : (Comp.plain (t.comp sys.cfg)).flows.filterMap (·.previousFlowRate) = (Comp.transmission t).flows.filterMap (·.previousFlowRate) := by
      simp only [Comp.flows, Comp.inputs, Comp.outputs, TransData.comp]
      cases t.in2 <;> cases t.out2 <;> simp [List.filterMap_cons, p1, p2]
    have hrates : ∀ f ∈ (Comp.transmission t).flows, ∃ g ∈ (Comp.plain (t.comp sys.cfg)).flows, g.label = f.label := by
      intro f hf
      obtain ⟨g, hg, hl, -⟩ := trans_mem (t := t) sys.cfg hf
      exact ⟨g, hg, hl⟩
    refine ⟨fun f hf => ?_, fun hz f hf hne x hx hx0 i hi => ?_, fun hne => by rw [← hprev]; exact k.starts hne, fun hne i hi => ?_⟩
    · have fl : ∀ g ∈ (t.comp sys.cfg).inputs ++ (t.comp sys.cfg).outputs, FlowHistory sys σ t.label g := k.flows
      simp only [TransData.comp, List.mem_append, List.mem_cons, Option.mem_toList, Option.map_eq_some_iff] at fl
      simp only [Comp.flows, Comp.inputs, Comp.outputs, List.mem_append, List.mem_cons, Option.mem_toList] at hf
      rcases hf with (rfl | hf) | (rfl | hf)
      · exact same (sameCost_fill t _) (p1 _).1 (fl _ (.inl (.inl rfl)))
      · exact same ((sameCost_fill t _).trans (sameCost_fillIn2 sys.cfg t _)) ((p2 _).1.trans (p1 _).1) (fl _ (.inl (.inr ⟨f, hf, rfl⟩)))
      · exact same (sameCost_fill t _) (p1 _).1 (fl _ (.inr (.inl rfl)))
      · exact same (sameCost_fill t _) (p1 _).1 (fl _ (.inr (.inr ⟨f, hf, rfl⟩)))
    · have keep : ∀ f, (∀ q, f.size ≠ .invest q) → t.fillIn2 sys.cfg f = f := by
        intro f hfz
        unfold TransData.fillIn2
        have hz1 := hz t.in1 (by simp [Comp.flows, Comp.inputs])
        split
        · rfl
        · rename_i hq _
          exact absurd hq (hz1 _)
        · rfl
      have hsz : ∀ f, (t.fill f).size = f.size ∧ (t.fill f).lowRel i = f.lowRel i ∧ (f.onOff ≠ none → (t.fill f).onOff ≠ none) := by
        intro f
        rw [fill_eq]
        refine ⟨rfl, rfl, fun h h0 => h ?_⟩
        cases hfo : f.onOff with
        | none => rfl
        | some q => rw [hfo] at h0; cases h0
      have all : ∀ f ∈ (Comp.transmission t).flows, t.fill f ∈ (Comp.plain (t.comp sys.cfg)).flows := by
        intro f hf
        simp only [Comp.flows, Comp.inputs, Comp.outputs, TransData.comp, List.mem_append, List.mem_cons, Option.mem_toList, Option.map_eq_some_iff] at hf ⊢
        rcases hf with (rfl | hf) | (rfl | hf)
        · exact .inl (.inl rfl)
        · refine .inl (.inr ⟨f, hf, keep _ ?_⟩)
          rw [(hsz f).1]
          exact hz f (by simp [Comp.flows, Comp.inputs, hf])
        · exact .inr (.inl rfl)
        · exact .inr (.inr ⟨f, hf, rfl⟩)
      have hz' : ∀ g ∈ (Comp.plain (t.comp sys.cfg)).flows, ∀ q, g.size ≠ .invest q := by
        intro g hg
        simp only [Comp.flows, Comp.inputs, Comp.outputs, TransData.comp, List.mem_append, List.mem_cons, Option.mem_toList, Option.map_eq_some_iff] at hg
        rcases hg with (rfl | ⟨f, hf, rfl⟩) | (rfl | ⟨f, hf, rfl⟩)
        · rw [(hsz _).1]; exact hz _ (by simp [Comp.flows, Comp.inputs])
        · have := hz f (by simp [Comp.flows, Comp.inputs, hf])
          rw [keep _ (by rw [(hsz f).1]; exact this), (hsz f).1]
          exact this
        · rw [(hsz _).1]; exact hz _ (by simp [Comp.flows, Comp.outputs])
        · rw [(hsz _).1]; exact hz f (by simp [Comp.flows, Comp.outputs, hf])
      have := k.least hz' (t.fill f) (all f hf) (hne.imp (hsz f).2.2 id) x (by rw [(hsz f).1, hx]) hx0 i hi
      rw [(p1 f).2, (hsz f).2.1] at this
      exact this
    · rcases k.state hne i hi with a | a
      · refine .inl ⟨a.1, fun f hf => ?_⟩
        obtain ⟨g, hg, hl⟩ := hrates f hf
        have := a.2 g hg
        rw [hl] at this
        exact this
      · refine .inr ⟨a.1, ?_⟩
        obtain ⟨g, hg, hg0⟩ := a.2
        have back : ∃ f ∈ (Comp.transmission t).flows, f.label = g.label := by
          simp only [Comp.flows, Comp.inputs, Comp.outputs, TransData.comp, List.mem_append, List.mem_cons, Option.mem_toList, Option.map_eq_some_iff] at hg ⊢
          rcases hg with (rfl | ⟨f, hf, rfl⟩) | (rfl | ⟨f, hf, rfl⟩)
          · exact ⟨_, .inl (.inl rfl), ((p1 _).2).symm⟩
          · exact ⟨f, .inl (.inr hf), ((p2 _).2.trans (p1 _).2).symm⟩
          · exact ⟨_, .inr (.inl rfl), ((p1 _).2).symm⟩
          · exact ⟨f, .inr (.inr hf), ((p1 _).2).symm⟩
        obtain ⟨f, hf, hl⟩ := back
        exact ⟨f, hf, by rw [hl]; exact hg0⟩

end Flix
