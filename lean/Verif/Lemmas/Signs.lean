import Verif.Lemmas.LooserComp
import Verif.Lemmas.Bounded

/-!
# Signs

Everything a component pays for is not negative: flow rates, states, starts, sizes and decisions to invest.
-/

namespace Flix

variable {sys : Sys} {σ : Assignment}

/-- Rates, states, sizes and decisions of a flow are not negative. -/
structure FlowSigns (n : Nat) (σ : Assignment) (comp : String) (f : FlowData) : Prop where
  rate : ∀ t < n, 0 ≤ σ (rateL comp f.label) t
  states : f.onOff ≠ none → ∀ t < n, 0 ≤ σ (comp ++ "__" ++ f.label ++ "__OnOff" ++ "_" ++ "switchOn") t ∧ 0 ≤ σ (comp ++ "__" ++ f.label ++ "__OnOff" ++ "_" ++ "on") t
  size : ∀ q, f.size = .invest q → 0 ≤ σ (comp ++ "__" ++ f.label ++ "__" ++ "Investment" ++ "_" ++ "size") 0 ∧ 0 ≤ decision σ (comp ++ "__" ++ f.label) q ∧ decision σ (comp ++ "__" ++ f.label) q ≤ 1

/-- The same for a component. -/
structure CompSigns (n : Nat) (σ : Assignment) (c : Comp) : Prop where
  flows : ∀ f ∈ c.flows, FlowSigns n σ c.label f
  states : c.onOff ≠ none → ∀ t < n, 0 ≤ σ (c.label ++ "__OnOff" ++ "_" ++ "switchOn") t ∧ 0 ≤ σ (c.label ++ "__OnOff" ++ "_" ++ "on") t
  capacity : ∀ s q, c = .storage s → s.capacity = .invest q → 0 ≤ σ (c.label ++ "__" ++ "Investment" ++ "_" ++ "size") 0 ∧ 0 ≤ decision σ c.label q ∧ decision σ c.label q ≤ 1

theorem bin_signs {vs : List Var} {cs : List ConReq} {ss : List MTree} {x : Var} (hx : x ∈ vs) (hf : x.fixedValue = none) (hl : x.lb = none) (hu : x.ub = none)
    (hb : x.isBinary = true) (hs : (MTree.node vs cs ss).Solves σ) : ∀ i < x.length, 0 ≤ σ x.label i ∧ σ x.label i ≤ 1 := by
  intro i hi
  rw [MTree.Solves] at hs
  rcases (bin_var_iff hf hl hu hb).1 (hs.1 x hx) i hi with e | e <;> rw [e] <;> norm_num

theorem onOff_signs {el : String} {q : OnOffParams} {ds : List (Var × Num × Num)} {o : OnOffOut} (h : onOffModel sys el q ds = .ok o) (hs : o.tree.Solves σ) :
    ∀ t < sys.n, 0 ≤ σ (el ++ "__OnOff" ++ "_" ++ "switchOn") t ∧ 0 ≤ σ (el ++ "__OnOff" ++ "_" ++ "on") t := by
  obtain ⟨prevOn, cOn, off, dOn, dOff, swOn, swOff, nr, cSw, _, hon, _, _, _, _, _, hsw, _, _, _, _, _, _, _, _, _, hvars, _⟩ := onOff_inv h
  intro t ht
  have a := bin_signs (x := swOn) (by rw [hvars]; simp) (by rw [hsw]) (by rw [hsw]) (by rw [hsw]) (by rw [hsw]) hs t (by rw [hsw]; exact ht)
  have b := bin_signs (x := o.on) (by rw [hvars]; simp) (by rw [hon]) (by rw [hon]) (by rw [hon]) (by rw [hon]) hs t (by rw [hon]; exact ht)
  rw [hsw] at a
  rw [hon] at b
  exact ⟨a.1, b.1⟩

theorem invest_signs {cfg : Cfg} {el : String} {q : InvestParams} {x : Var} {a b : Num} {p : Option Num} {on : Option Var} {o : InvestOut} (h : investModel cfg el q x a b p on = .ok o)
    (hz : q.GoodSizes cfg) (hs : o.tree.Solves σ) : 0 ≤ σ (el ++ "__" ++ "Investment" ++ "_" ++ "size") 0 ∧ 0 ≤ decision σ el q ∧ decision σ el q ≤ 1 := by
  obtain ⟨s1, s2, s3, s4, hsize, hinv, hvars, _⟩ := invest_inv h
  obtain ⟨hlab, hlen, hiff⟩ := sizeVar_iff hsize
  have hmin : 0 ≤ q.minSize := by
    rw [minSize_eq hz.1]
    cases hv : q.fixedSize with
    | none => exact hz.2.2
    | some v => exact hz.2.1.2.1 v hv
  constructor
  · have hs' := hs
    rw [InvestOut.tree, MTree.Solves] at hs'
    obtain ⟨k1, k2, _⟩ := (hiff σ).1 (hs'.1 _ (by rw [hvars]; simp))
    rw [hlab] at k1 k2
    by_cases hc : pyTruthy q.fixedSize = true ∧ q.optional = false
    · obtain ⟨v, e1, e2⟩ := pyTruthy_iff.1 hc.1
      rw [k1 v e1 e2 hc.2]
      exact hz.2.1.2.1 v e1
    · have := k2 hc
      split at this
      · exact this
      · exact le_trans hmin this
  · unfold decision
    split
    · rename_i ho
      unfold investedVar at hinv
      rw [if_pos ho] at hinv
      obtain ⟨i, hi, hi'⟩ := map_ok.1 hinv
      have hm := (mkVar_ok hi).1
      have := bin_signs (x := i) (by rw [hvars, ← hi']; simp) (by rw [hm]) (by rw [hm]) (by rw [hm]) (by rw [hm]) hs 0 (by rw [hm]; norm_num)
      rw [hm] at this
      exact this
    · norm_num

theorem lower_nonneg {f : FlowData} (hs : f.Sensible sys.cfg sys.n) {t : Nat} (ht : t < sys.n) : 0 ≤ (f.absBounds sys.cfg).1.at t := by
  have h1 := (relBounds_at (f := f) t).1
  have hl := (hs.low t ht).1
  rw [← h1] at hl
  unfold FlowData.absBounds FlowData.effSize
  cases hz : f.size with
  | unset =>
    simp only [at_mulr]
    exact mul_nonneg hl hs.size.2
  | num x =>
    have := hs.size.1 x hz
    simp only [at_mulr, pyOr, if_neg this.ne']
    exact mul_nonneg hl this.le
  | invest q =>
    obtain ⟨z1, z2, z3⟩ := hs.invest q hz
    simp only
    cases hq : q.fixedSize with
    | some v =>
      simp only [at_mulr]
      exact mul_nonneg hl (z2.2.1 v hq)
    | none =>
      simp only [at_mulr]
      refine mul_nonneg hl ?_
      rw [minSize_eq z1, hq]
      exact z3

theorem flow_signs (hv : sys.Valid) {c : String} {f : FlowData} {o : FlowOut} (hf : f.Fits sys.n) (hz : f.Sensible sys.cfg sys.n) (h : flowModel sys (flowFull c f.label) f = .ok o)
    (hs : o.tree.Solves σ) : FlowSigns sys.n σ c f := by
  have rows := (flow_iff hv hf h σ).1 hs
  obtain ⟨h1, hoo, hinv, _, htree, _⟩ := flow_inv h
  obtain ⟨hlab, _⟩ := flowRate_ok h1
  rw [htree, MTree.Solves, solvesAll_iff] at hs
  refine ⟨fun t ht => ?_, fun hne t ht => ?_, fun q hq => ?_⟩
  · have hr : rateL c f.label = o.flowRate.label := by rw [hlab]; rfl
    rw [hr]
    by_cases hn : f.onOff = none
    · exact le_trans (lower_nonneg hz ht) (rows.lower hn t ht)
    · exact rows.nonneg hn t ht
  · cases ho : o.onOff with
    | none => rw [ho] at hoo; exact absurd (flowOnOff_none hoo) hne
    | some oo =>
      rw [ho] at hoo
      obtain ⟨q, _, hm⟩ := flowOnOff_some hoo
      exact onOff_signs hm (hs.2.2 oo.tree (by simp [ho])) t ht
  · cases ho : o.invest with
    | none => rw [ho] at hinv; exact absurd hq (flowInvest_none hinv q)
    | some i =>
      rw [ho] at hinv
      obtain ⟨q', hq', hm⟩ := flowInvest_some hinv
      rw [hq] at hq'
      cases hq'
      exact invest_signs hm (hz.invest q hq) (hs.2.2 i.tree (by simp [ho]))

theorem FlowSigns.of_same {n : Nat} {c : String} {f g : FlowData} (hl : g.label = f.label) (ho : f.onOff ≠ none → g.onOff ≠ none) (hz : ∀ q, f.size = .invest q → g.size = .invest q) (h : FlowSigns n σ c g) :
    FlowSigns n σ c f := by
  obtain ⟨a, b, d⟩ := h
  rw [hl] at a b d
  exact ⟨a, fun hne => b (ho hne), fun q hq => d q (hz q hq)⟩

theorem comp_signs (hv : sys.Valid) {c : CompData} {o : CompOut} (hp : c.Proper sys) (h : compModel sys c = .ok o) (hs : o.tree.Solves σ) : CompSigns sys.n σ (.plain c) := by
  obtain ⟨h1, h2, h3, _⟩ := comp_inv h
  obtain ⟨s1, s2, _⟩ := (comp_solves h σ).2 hs
  refine ⟨fun f hf => ?_, fun hne t ht => ?_, fun s q hc => by cases hc⟩
  · obtain ⟨q, hq, _, e2⟩ := forall₂_mem_left (List.rel_append h1 h2) hf
    rw [← fillOnOff_label c f] at e2
    refine (flow_signs hv (fillOnOff_fits (hp.fits f hf)) (fillOnOff_sensible (hp.sensible f hf)) e2 (s1 q hq)).of_same (fillOnOff_label c f) ?_ ?_
    · intro hne hn
      unfold fillOnOff at hn
      split at hn
      · cases hn
      · exact hne hn
    · intro r hr
      unfold fillOnOff
      split <;> exact hr
  · have hne : c.onOff ≠ none := hne
    unfold compOnOff at h3
    cases hq : c.onOff with
    | none => exact absurd hq hne
    | some q =>
      rw [hq] at h3
      obtain ⟨oo, hm, e⟩ := map_ok.1 h3
      exact onOff_signs hm (s2 oo e.symm) t ht

/-- What a component pays for is not negative. -/
theorem anyComp_signs (hv : sys.Valid) {c : Comp} {o : CompOut} (hp : c.Proper sys) (hz : c.CapacityNonneg) (h : c.model sys = .ok o) (hs : o.tree.Solves σ) : CompSigns sys.n σ c := by
  cases c with
  | plain c => exact comp_signs hv hp h hs
  | converter c =>
    simp only [Comp.model, converterModel] at h
    peel h with o0, h0
    have k : o0.tree.Solves σ := by
      split at h
      · simp only [except_pure, Except.ok.injEq] at h
        subst h
        simp only [CompOut.tree, MTree.Solves] at hs ⊢
        exact ⟨hs.1, fun r hr => hs.2.1 r (List.mem_append_left _ hr), hs.2.2⟩
      · peel h with pts, h1
        peel h with t, h2
        simp only [except_pure, Except.ok.injEq] at h
        subst h
        simp only [CompOut.tree, MTree.Solves, solvesAll_append] at hs ⊢
        exact ⟨hs.1, hs.2.1, hs.2.2.1⟩
    have k := comp_signs hv hp.1 h0 k
    exact ⟨k.flows, k.states, fun s q hc => by cases hc⟩
  | storage s =>
    simp only [Comp.model] at h
    obtain ⟨so, h', rfl⟩ := map_ok.1 h
    clear h
    rename' h' => h
    unfold storageModel at h
    peel h with o0, h0
    peel h with ab, hab
    obtain ⟨a, b⟩ := ab
    simp only at h
    peel h with c, hc
    peel h with nd, hnd
    peel h with cCharge, hcc
    peel h with inv, hinv
    peel h with cIF, hif
    simp only [except_pure, Except.ok.injEq] at h
    subst h
    simp only [CompOut.tree, MTree.Solves, solvesAll_append, List.mem_append] at hs
    have k := comp_signs hv hp.comp h0 (by
      simp only [CompOut.tree, MTree.Solves]
      exact ⟨fun x hx => hs.1 x (.inl hx), fun r hr => hs.2.1 r (.inl (.inl hr)), hs.2.2.1⟩)
    refine ⟨k.flows, fun hne => absurd rfl hne, fun s' q e hq => ?_⟩
    cases e
    unfold storageInvest at hinv
    rw [hq] at hinv
    obtain ⟨i, hi, hi'⟩ := map_ok.1 hinv
    have g := hp.capacity q hq
    have k2 := hs.2.2.2
    rw [← hi', solvesAll_iff] at k2
    exact invest_signs hi ⟨g.1, g.2.1, hz q hq⟩ (k2 i.tree (by simp))
  | transmission t =>
    simp only [Comp.model] at h
    obtain ⟨so, h', rfl⟩ := map_ok.1 h
    clear h
    rename' h' => h
    unfold transmissionModel at h
    peel h with o0, h0
    peel h with q, hq
    obtain ⟨i1, i2, o1, o2⟩ := q
    simp only at h
    peel h with c1, h1
    peel h with c2, h2
    simp only [except_pure, Except.ok.injEq] at h
    subst h
    have k := comp_signs hv (trans_comp_proper hp) h0 (by
      simp only [CompOut.tree, MTree.Solves, List.mem_append] at hs ⊢
      exact ⟨hs.1, fun r hr => hs.2.1 r (.inl (.inl hr)), hs.2.2⟩)
    have same : ∀ {f g : FlowData}, SameCost f g → FlowSigns sys.n σ t.label g → FlowSigns sys.n σ t.label f := by
      intro f g hfg hg
      refine hg.of_same hfg.label ?_ ?_
      · rintro hne hn
        rcases hfg.onOff with e | ⟨e, _⟩
        · exact hne (by rw [← e, hn])
        · exact hne e
      · intro r hr
        rcases hfg.size with e | ⟨e, _⟩
        · rw [e, hr]
        · exact absurd hr (e r)
    refine ⟨fun f hf => ?_, k.states, fun s q hc => by cases hc⟩
    have fl : ∀ g ∈ (t.comp sys.cfg).inputs ++ (t.comp sys.cfg).outputs, FlowSigns sys.n σ t.label g := k.flows
    simp only [TransData.comp, List.mem_append, List.mem_cons, Option.mem_toList, Option.map_eq_some_iff] at fl
    simp only [Comp.flows, Comp.inputs, Comp.outputs, List.mem_append, List.mem_cons, Option.mem_toList] at hf
    rcases hf with (rfl | hf) | (rfl | hf)
    · exact same (sameCost_fill t _) (fl _ (.inl (.inl rfl)))
    · exact same ((sameCost_fill t _).trans (sameCost_fillIn2 sys.cfg t _)) (fl _ (.inl (.inr ⟨f, hf, rfl⟩)))
    · exact same (sameCost_fill t _) (fl _ (.inr (.inl rfl)))
    · exact same (sameCost_fill t _) (fl _ (.inr (.inr ⟨f, hf, rfl⟩)))

end Flix
