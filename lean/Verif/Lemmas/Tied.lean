import Verif.Spec.Tied
import Verif.Lemmas.Closed

/-!
# Every constraint adds a variable to each of its rows
-/

namespace Flix

/-- The call adds a summand that is no sum over time. -/
def Op.Plain : Op → Prop
  | .summand _ _ _ a => a = false
  | .const _ => False

def ConReq.Talks (r : ConReq) : Prop := ∃ op ∈ r.ops, op.Plain

@[simp] theorem plain_sAll {x : Var} {f : Num} : (sAll x f).Plain ↔ True := by simp [sAll, Op.Plain]
@[simp] theorem plain_sIdx {x : Var} {f : Num} {i : List Nat} : (sIdx x f i).Plain ↔ True := by simp [sIdx, Op.Plain]
@[simp] theorem plain_sSum {x : Var} {f : Num} : (sSum x f).Plain ↔ False := by simp [sSum, Op.Plain]
@[simp] theorem plain_const {k : Num} : (Op.const k).Plain ↔ False := Iff.rfl
@[simp] theorem talks_mkEq {p l : String} {ops : List Op} : (mkEq p l ops).Talks ↔ ∃ op ∈ ops, op.Plain := Iff.rfl
@[simp] theorem talks_mkIneq {p l : String} {ops : List Op} : (mkIneq p l ops).Talks ↔ ∃ op ∈ ops, op.Plain := Iff.rfl

def MTree.Talks (t : MTree) : Prop := ∀ m ∈ t.nodes, ∀ r ∈ m.cons, r.Talks

theorem talks_node {vs : List Var} {cs : List ConReq} {ss : List MTree} :
    (MTree.node vs cs ss).Talks ↔ (∀ r ∈ cs, r.Talks) ∧ ∀ s ∈ ss, s.Talks := by
  simp only [MTree.Talks, within_nodes]
  constructor
  · intro h
    exact ⟨h _ (.refl _), fun s hs m hm => h m (.sub hs hm)⟩
  · rintro ⟨h1, h2⟩ m hm
    cases hm with
    | refl => exact h1
    | sub hs hw => exact h2 _ hs m hw

/-! ## On/off -/

theorem minDuration_talks {sys : Sys} {p lp : String} {dur b : Var} {prev : ℚ} {m : Option Num} {cs : List ConReq}
    (h : minDurationCons sys p lp dur b prev m = .ok cs) : ∀ r ∈ cs, r.Talks := by
  cases m with
  | none => simp only [minDurationCons, Except.ok.injEq] at h; subst h; simp
  | some m =>
    simp only [minDurationCons] at h
    peel h with m0, hm0
    simp only [except_pure, Except.ok.injEq] at h
    subst h
    intro r hr
    rcases List.mem_cons.1 hr with rfl | hr
    · simp
    · split at hr
      · simp at hr; subst hr; simp
      · simp at hr

theorem getDuration_talks {sys : Sys} {p l : String} {b : Var} {lo hi : Option Num} {r : Var × List ConReq}
    (h : getDuration sys p l b lo hi = .ok r) : ∀ c ∈ r.2, c.Talks := by
  unfold getDuration at h
  simp only at h
  peel h with prev, hp
  peel h with dur, hd
  peel h with dt0, ht
  peel h with c3, h3
  simp only [except_pure, Except.ok.injEq] at h
  subst h
  intro c hc
  simp only [List.mem_append, List.mem_cons, List.not_mem_nil, or_false] at hc
  rcases hc with ((rfl | rfl | rfl) | hc) | rfl
  · simp
  · simp
  · simp
  · exact minDuration_talks h3 c hc
  · simp

theorem onConstraints_talks {sys : Sys} {p : String} {on : Var} {defining : List (Var × Num × Num)} {cs : List ConReq}
    (h : onConstraints sys p on defining = .ok cs) : ∀ r ∈ cs, r.Talks := by
  unfold onConstraints at h
  split at h
  · cases h
  · simp only [Except.ok.injEq] at h
    subst h
    simp
  · peel h with am, ham
    simp only [Except.ok.injEq] at h
    subst h
    simp only [List.mem_cons, List.not_mem_nil, or_false, forall_eq_or_imp, forall_eq, talks_mkIneq, List.mem_append]
    exact ⟨⟨_, Or.inr rfl, by simp⟩, ⟨_, Or.inr rfl, by simp⟩⟩

theorem switch_talks {sys : Sys} {p : String} {on a b nr : Var} {cs : List ConReq}
    (h : switchConstraints sys p on a b nr = .ok cs) : ∀ r ∈ cs, r.Talks := by
  unfold switchConstraints at h
  simp only at h
  peel h with l, hl
  simp only [except_pure, Except.ok.injEq] at h
  subst h
  simp

theorem onOff_talks {sys : Sys} {el : String} {params : OnOffParams} {defining : List (Var × Num × Num)} {o : OnOffOut}
    (h : onOffModel sys el params defining = .ok o) : o.tree.Talks := by
  obtain ⟨prevOn, cOn, off, dOn, dOff, swOn, swOff, nr, cSw, _, _, _, hc, hoff, hdOn, hdOff, _, _, _, hsw, _, _, _, _, _, _, hvars, hcons,
    sh1, sh2, hsh1, hsh2, hsh⟩ := onOff_inv h
  rw [OnOffOut.tree, talks_node, hcons]
  refine ⟨?_, by simp⟩
  intro r hr
  simp only [List.mem_append, List.mem_cons, List.not_mem_nil, or_false] at hr
  rcases hr with ((((rfl | hr) | hr) | hr) | hr) | hr
  · simp
  · exact onConstraints_talks hc r hr
  · unfold offOpt at hoff
    split at hoff
    · obtain ⟨q, hq, rfl⟩ := map_ok.1 hoff
      unfold offPart at hq
      simp only [mkVar_free, ok_bind, except_pure, Except.ok.injEq] at hq
      subst hq
      simp at hr
      subst hr
      simp
    · simp only [Except.ok.injEq] at hoff; subst hoff; simp at hr
  · unfold durationOnOpt at hdOn
    split at hdOn
    · obtain ⟨q, hq, rfl⟩ := map_ok.1 hdOn
      exact getDuration_talks hq r (by simpa using hr)
    · simp only [Except.ok.injEq] at hdOn; subst hdOn; simp at hr
  · unfold durationOffOpt at hdOff
    split at hdOff
    · cases ho : off with
      | none => rw [ho] at hdOff; simp at hdOff
      | some q0 =>
        rw [ho] at hdOff
        simp only [Option.map_some] at hdOff
        obtain ⟨q, hq, rfl⟩ := map_ok.1 hdOff
        exact getDuration_talks hq r (by simpa using hr)
    · simp only [Except.ok.injEq] at hdOff; subst hdOff; simp at hr
  · exact switch_talks hsw r hr

/-! ## Segments -/

theorem multiple_talks {el : String} {L : Nat} {points : List (Var × List (Num × Num))} {out : Outside} {tree : MTree}
    (h : multipleSegments el L points out = .ok tree) (ho : out ≠ .no ∨ ∀ q ∈ points, q.2 ≠ []) : tree.Talks := by
  obtain ⟨nr, ⟨q, rest, rfl, rfl⟩, _, vs, ops, hout, rfl⟩ := multiple_inv h
  rw [talks_node]
  constructor
  · intro r hr
    rcases List.mem_append.1 hr with hr | hr
    · obtain ⟨q, hq, rfl⟩ := List.mem_map.1 hr
      simp
    · simp only [List.mem_cons, List.not_mem_nil, or_false] at hr
      subst hr
      rw [talks_mkEq]
      rcases ho with ho | ho
      · cases out with
        | no => exact absurd rfl ho
        | create =>
          simp only [outsidePart] at hout
          peel hout with x, hx
          simp only [except_pure, Except.ok.injEq, Prod.mk.injEq] at hout
          obtain ⟨rfl, rfl⟩ := hout
          exact ⟨_, List.mem_append_right _ (List.mem_singleton_self _), by simp⟩
        | use x =>
          simp only [outsidePart, Except.ok.injEq, Prod.mk.injEq] at hout
          obtain ⟨_, rfl⟩ := hout
          exact ⟨_, List.mem_append_right _ (List.mem_singleton_self _), by simp⟩
      · have := List.length_pos_iff.2 (ho q (by simp))
        exact ⟨_, List.mem_append_left _ (List.mem_map.2 ⟨0, List.mem_range.2 this, rfl⟩), by simp⟩
  · intro s hs
    obtain ⟨i, hi, rfl⟩ := List.mem_map.1 hs
    rw [segTree, talks_node]
    simp

theorem segSharesTied {el : String} {x : Var} {xs : List (ℚ × ℚ)} {shares : List (String × List (ℚ × ℚ))} {out : Outside}
    {o : Out} (h : segmentedShares el x xs shares out = .ok o) (ho : out ≠ .no ∨ ∀ e ∈ shares, e.2 ≠ []) : o.tree.Talks := by
  have hlen : ∀ e rest, shares = e :: rest → xs.length = e.2.length := by
    rintro e rest rfl
    unfold segmentedShares at h
    simp only at h
    split at h
    · cases h
    · rename_i hx; simpa using hx
  obtain ⟨hne, segs, hs, ht, hsh⟩ := segmentedShares_inv h
  rw [ht, talks_node]
  refine ⟨by simp, ?_⟩
  intro s hs'
  simp at hs'
  subst hs'
  refine multiple_talks hs (ho.imp_right fun ho => ?_)
  intro q hq
  unfold segSharePoints at hq
  rcases List.mem_append.1 hq with hq | hq
  · obtain ⟨e, he, rfl⟩ := List.mem_map.1 hq
    simpa [numSegs] using ho e he
  · simp at hq
    subst hq
    cases shares with
    | nil => exact absurd rfl hne
    | cons e rest =>
      have h1 := hlen e rest rfl
      have h2 := ho e (by simp)
      rintro h3
      apply h2
      rw [← List.length_eq_zero_iff, ← h1]
      simpa [numSegs] using h3

/-! ## Investments and flows -/

theorem invest_talks {cfg : Cfg} {el : String} {q : InvestParams} {x : Var} {relMin relMax : Num} {profile : Option Num}
    {on : Option Var} {o : InvestOut} (h : investModel cfg el q x relMin relMax profile on = .ok o) (hq : q.Tied) : o.tree.Talks := by
  obtain ⟨s1, s2, s3, s4, hsize, hinv, hvars, hcons, h1, h2, h3, h4, hsh⟩ := invest_inv h
  rw [InvestOut.tree, talks_node, hcons]
  constructor
  · intro r hr
    rcases List.mem_append.1 hr with hr | hr
    · cases hi : o.isInvested with
      | none => rw [hi] at hr; simp at hr
      | some y =>
        rw [hi] at hr
        simp only [optionalCons] at hr
        split at hr <;> simp only [List.mem_cons, List.not_mem_nil, or_false] at hr
        · subst hr; simp
        · rcases hr with rfl | rfl <;> simp
    · unfold definingCons at hr
      cases profile with
      | some f => simp at hr; subst hr; simp
      | none =>
        cases on with
        | none =>
          simp at hr
          rcases hr with rfl | rfl <;> simp
        | some y =>
          simp at hr
          rcases hr with rfl | rfl <;> simp
  · unfold investSegments at h4
    split at h4
    · simp only [Except.ok.injEq, Prod.mk.injEq] at h4
      rw [← h4.1]; simp
    · rename_i xs es hseg
      peel h4 with so, hso
      simp only [except_pure, Except.ok.injEq, Prod.mk.injEq] at h4
      rw [← h4.1]
      have := segSharesTied hso (by
        rcases hq xs es hseg with ho | ho
        · left
          unfold investedVar at hinv
          rw [if_pos ho] at hinv
          obtain ⟨y, _, hy⟩ := map_ok.1 hinv
          rw [← hy]
          simp
        · exact Or.inr ho)
      simpa using this

theorem flow_talks {sys : Sys} {el : String} {f : FlowData} {o : FlowOut} (h : flowModel sys el f = .ok o) (hf : f.Tied) : o.tree.Talks := by
  obtain ⟨_, hoo, hinv, _, htree, sh, hsh, hshares⟩ := flow_inv h
  rw [htree, talks_node]
  constructor
  · intro r hr
    rcases List.mem_cons.1 hr with rfl | hr
    · simp
    · unfold loadFactorCons at hr
      rcases List.mem_append.1 hr with hr | hr
      · cases hm : f.loadFactorMax with
        | none => rw [hm] at hr; simp at hr
        | some lf =>
          rw [hm] at hr
          simp only [List.mem_cons, List.not_mem_nil, or_false] at hr
          subst hr
          simp
      · cases hm : f.loadFactorMin with
        | none => rw [hm] at hr; simp at hr
        | some lf =>
          rw [hm] at hr
          simp only [List.mem_cons, List.not_mem_nil, or_false] at hr
          subst hr
          simp
  · intro s hs
    rcases List.mem_append.1 hs with hs | hs
    · cases hoo' : o.onOff with
      | none => rw [hoo'] at hs; simp at hs
      | some oo =>
        rw [hoo'] at hs hoo
        simp at hs; subst hs
        unfold flowOnOff at hoo
        split at hoo
        · cases hoo
        · obtain ⟨q, hq, hq'⟩ := map_ok.1 hoo
          cases hq'
          exact onOff_talks hq
    · cases hii : o.invest with
      | none => rw [hii] at hs; simp at hs
      | some i =>
        rw [hii] at hs hinv
        simp at hs; subst hs
        unfold flowInvest at hinv
        split at hinv
        · cases hinv
        · rename_i q hqq
          obtain ⟨q', hq, hq'⟩ := map_ok.1 hinv
          cases hq'
          refine invest_talks hq (hf _ ?_)
          unfold FlowData.effSize at hqq
          split at hqq
          · cases hqq
          · cases hqq
          · cases hqq; assumption

/-! ## Components -/

theorem fill_tied {c : CompData} {f : FlowData} (h : f.Tied) : (fillOnOff c f).Tied := by
  unfold FlowData.Tied at h ⊢
  have : (fillOnOff c f).size = f.size := by
    unfold fillOnOff
    split <;> (try split) <;> rfl
  rwa [this]

theorem comp_talks {sys : Sys} {c : CompData} {o : CompOut} (h : compModel sys c = .ok o) (hf : ∀ f ∈ c.inputs ++ c.outputs, f.Tied) :
    (∀ r ∈ o.cons, r.Talks) ∧ ∀ s ∈ o.subs, s.Talks := by
  obtain ⟨h1, h2, h3, prev, h4, hvars, hcons, hsubs, hshares⟩ := comp_inv h
  refine ⟨by rw [hcons]; simp, ?_⟩
  rw [hsubs]
  intro s hs
  simp only [List.mem_append, List.mem_map] at hs
  rcases hs with (⟨q, hq, rfl⟩ | hs) | hs
  · unfold CompOut.flows at hq
    rcases List.mem_append.1 hq with hq | hq
    · obtain ⟨f, hff, _, hh⟩ := forall₂_mem_right h1 hq
      exact flow_talks hh (fill_tied (hf f (List.mem_append_left _ hff)))
    · obtain ⟨f, hff, _, hh⟩ := forall₂_mem_right h2 hq
      exact flow_talks hh (fill_tied (hf f (List.mem_append_right _ hff)))
  · cases hoo : o.on with
    | none => rw [hoo] at hs; simp at hs
    | some oo =>
      rw [hoo] at hs h3
      simp at hs; subst hs
      unfold compOnOff at h3
      split at h3
      · cases h3
      · obtain ⟨q, hq, hq'⟩ := map_ok.1 h3
        cases hq'
        exact onOff_talks hq
  · unfold compPrevent at h4
    split at h4
    · simp only [Except.ok.injEq] at h4; subst h4; simp at hs
    · peel h4 with ons, hons
      peel h4 with t, ht
      simp only [except_pure, Except.ok.injEq] at h4
      subst h4
      simp at hs
      subst hs
      unfold preventSimultaneous at ht
      split at ht
      · cases ht
      · rename_i hlen
        split at ht
        · simp only [Except.ok.injEq] at ht
          subst ht
          rw [talks_node]
          refine ⟨?_, by simp⟩
          simp only [List.mem_cons, List.not_mem_nil, or_false, forall_eq, talks_mkIneq]
          cases ons with
          | nil => simp at hlen
          | cons x xs => exact ⟨sAll x (.s 1), by simp, by simp⟩
        · cases ht

theorem converter_talks {sys : Sys} {c : ConvData} {o : CompOut} (h : converterModel sys c = .ok o)
    (hf : ∀ f ∈ c.comp.inputs ++ c.comp.outputs, f.Tied) (hc : c.Tied) : o.tree.Talks := by
  unfold converterModel at h
  peel h with o0, h0
  obtain ⟨a, b⟩ := comp_talks h0 hf
  obtain ⟨f1, f2⟩ := comp_flowOf h0
  split at h
  · simp only [except_pure, Except.ok.injEq] at h
    subst h
    rw [CompOut.tree, talks_node]
    refine ⟨?_, b⟩
    intro r hr
    rcases List.mem_append.1 hr with hr | hr
    · exact a r hr
    · rw [List.mem_mapIdx] at hr
      obtain ⟨i, hi, rfl⟩ := hr
      rw [talks_mkEq]
      obtain ⟨q, hq, f, hf', hl⟩ := hc.factors (c.factors[i]) (List.getElem_mem hi)
      have hget : ∃ v, (c.factors[i]).get f.label = some v := by
        unfold Factors.get
        cases hfind : (c.factors[i]).find? fun q => q.1 == f.label with
        | some v => exact ⟨v.2, rfl⟩
        | none =>
          rw [List.find?_eq_none] at hfind
          exact absurd (by simp [hl]) (hfind q hq)
      obtain ⟨v, hv⟩ := hget
      unfold conversionOps
      rcases List.mem_append.1 hf' with hf' | hf'
      · obtain ⟨p, hp, hof⟩ := forall₂_mem_left f1 hf'
        refine ⟨sAll p.2.flowRate v, ?_, by simp⟩
        refine List.mem_append_left _ (List.mem_append_left _ (List.mem_filterMap.2 ⟨p, hp, ?_⟩))
        rw [hof.2.1, hv]; rfl
      · obtain ⟨p, hp, hof⟩ := forall₂_mem_left f2 hf'
        refine ⟨sAll p.2.flowRate (v.map (-1 * ·)), ?_, by simp⟩
        refine List.mem_append_left _ (List.mem_append_right _ (List.mem_filterMap.2 ⟨p, hp, ?_⟩))
        rw [hof.2.1, hv]; rfl
  · rename_i hnil
    peel h with pts, h1
    peel h with t, h2
    simp only [except_pure, Except.ok.injEq] at h
    subst h
    rw [CompOut.tree, talks_node]
    refine ⟨a, ?_⟩
    intro s hs
    rcases List.mem_append.1 hs with hs | hs
    · exact b s hs
    · simp only [List.mem_cons, List.not_mem_nil, or_false] at hs
      subst hs
      refine multiple_talks h2 ?_
      rcases hc.segments (by simpa using hnil) with ho | ho
      · left
        obtain ⟨_, _, h3, _⟩ := comp_inv h0
        unfold compOnOff at h3
        split at h3
        · rename_i hh; exact absurd hh ho
        · obtain ⟨y, _, hy⟩ := map_ok.1 h3
          rw [← hy]
          simp
      · right
        intro q hq
        unfold segmentPoints at h1
        obtain ⟨q', hq', hh⟩ := forall₂_mem_right (mapM_ok.1 h1) hq
        split at hh
        · rename_i r hr
          cases hh
          exact ho r (List.mem_of_find?_eq_some hr)
        · cases hh

theorem storage_talks {sys : Sys} {s : StorageData} {o : StorageOut} (h : storageModel sys s = .ok o) (h1 : s.charging.Tied) (h2 : s.discharging.Tied)
    (hq : ∀ q, s.capacity = .invest q → q.Tied) : o.comp.tree.Talks := by
  unfold storageModel at h
  peel h with o0, h0
  peel h with ab, hab
  obtain ⟨a, b⟩ := ab
  simp only at h
  peel h with c, hc
  peel h with nd, hnd
  peel h with cCharge, hcc
  peel h with inv, hinv
  peel h with cIF, hif
  simp only [except_pure, Except.ok.injEq] at h
  subst h
  obtain ⟨k1, k2⟩ := comp_talks h0 (by
    intro f hf
    simp only [StorageData.comp, List.cons_append, List.nil_append, List.mem_cons, List.not_mem_nil, or_false] at hf
    rcases hf with rfl | rfl
    · exact h1
    · exact h2)
  have hfin : ∀ r ∈ finalCons sys s c, r.Talks := by
    intro r hr
    unfold finalCons at hr
    rcases List.mem_append.1 hr with hr | hr
    · cases hm : s.maxFinal <;> rw [hm] at hr <;> simp at hr
      subst hr; simp
    · cases hm : s.minFinal <;> rw [hm] at hr <;> simp at hr
      subst hr; simp
  rw [CompOut.tree, talks_node]
  constructor
  · intro r hr
    simp only [List.mem_append, List.mem_cons, List.not_mem_nil, or_false] at hr
    rcases hr with (hr | rfl | rfl) | hr
    · exact k1 r hr
    · simp
    · unfold chargeCon at hcc
      simp only at hcc
      peel hcc with l, _
      peel hcc with f1, _
      peel hcc with i1, _
      peel hcc with f2, _
      simp only [except_pure, Except.ok.injEq] at hcc
      subst hcc
      simp
    · unfold initialFinalCons at hif
      split at hif
      · simp only [Except.ok.injEq] at hif; subst hif; simp at hr
      · simp only [Except.ok.injEq] at hif; subst hif
        rcases List.mem_cons.1 hr with rfl | hr
        · simp
        · exact hfin r hr
      · split at hif
        · cases hif
        · simp only [Except.ok.injEq] at hif; subst hif
          rcases List.mem_cons.1 hr with rfl | hr
          · simp
          · exact hfin r hr
      · cases hif
  · intro t ht
    rcases List.mem_append.1 ht with ht | ht
    · exact k2 t ht
    · cases hii : inv with
      | none => rw [hii] at ht; simp at ht
      | some i =>
        rw [hii] at ht hinv
        simp at ht; subst ht
        unfold storageInvest at hinv
        split at hinv
        · cases hinv
        · rename_i q hqq
          obtain ⟨q', hq1, hq2⟩ := map_ok.1 hinv
          cases hq2
          exact invest_talks hq1 (hq _ hqq)

theorem transCon_talks {t : TransData} {name : String} {i o : FlowOut} {r : ConReq} (h : transCon t name i o = .ok r) : r.Talks := by
  unfold transCon at h
  peel h with extra, he
  simp only [except_pure, Except.ok.injEq] at h
  subst h
  simp

theorem Tfill_tied {t : TransData} {f : FlowData} (h : f.Tied) : (t.fill f).Tied := by
  unfold FlowData.Tied at h ⊢
  have : (t.fill f).size = f.size := by
    unfold TransData.fill
    split <;> (try split) <;> rfl
  rwa [this]

theorem Tfill2_tied {cfg : Cfg} {t : TransData} {f : FlowData} (h : f.Tied) : (t.fillIn2 cfg f).Tied := by
  unfold TransData.fillIn2
  split
  · exact h
  · intro q hq xs es hs
    simp only [SizeArg.invest.injEq] at hq
    subst hq
    cases hs
  · exact h

theorem trans_talks {sys : Sys} {t : TransData} {o : TransOut} (h : transmissionModel sys t = .ok o)
    (hf : ∀ f ∈ (t.in1 :: t.in2.toList) ++ t.out1 :: t.out2.toList, f.Tied) : o.comp.tree.Talks := by
  unfold transmissionModel at h
  peel h with o0, h0
  peel h with q, hq
  obtain ⟨i1, i2, o1, o2⟩ := q
  simp only at h
  peel h with c1, h1
  peel h with c2, h2
  simp only [except_pure, Except.ok.injEq] at h
  subst h
  obtain ⟨k1, k2⟩ := comp_talks h0 (by
    intro f hf'
    simp only [TransData.comp, List.cons_append, List.mem_cons, List.mem_append, Option.mem_toList, Option.mem_def, Option.map_eq_some_iff] at hf'
    rcases hf' with rfl | ⟨g, hg, rfl⟩ | rfl | ⟨g, hg, rfl⟩
    · exact Tfill_tied (hf _ (by simp))
    · exact Tfill2_tied (Tfill_tied (hf _ (by simp [hg])))
    · exact Tfill_tied (hf _ (by simp))
    · exact Tfill_tied (hf _ (by simp [hg])))
  rw [CompOut.tree, talks_node]
  refine ⟨?_, k2⟩
  intro r hr
  simp only [List.mem_append, List.mem_cons, List.not_mem_nil, or_false] at hr
  rcases hr with (hr | rfl) | hr
  · exact k1 r hr
  · exact transCon_talks h1
  · unfold transSecond at h2
    split at h2
    · simp only [Except.ok.injEq] at h2; subst h2; simp at hr
    · split at h2
      · cases h2
      · peel h2 with c, hc
        have hcr := transCon_talks hc
        split at h2
        · split at h2
          · simp only [except_pure, Except.ok.injEq] at h2
            subst h2
            simp only [List.mem_cons, List.not_mem_nil, or_false] at hr
            rcases hr with rfl | rfl
            · exact hcr
            · simp
          · cases h2
        · simp only [except_pure, Except.ok.injEq] at h2
          subst h2
          simp only [List.mem_cons, List.not_mem_nil, or_false] at hr
          subst hr
          exact hcr

theorem model_talks {sys : Sys} {c : Comp} {o : CompOut} (h : c.model sys = .ok o) (hc : c.Tied) : o.tree.Talks := by
  obtain ⟨h1, h2, h3⟩ := hc
  cases c with
  | plain c => rw [CompOut.tree, talks_node]; exact comp_talks h h1
  | converter c => exact converter_talks h h1 (h2 c rfl)
  | storage s =>
    obtain ⟨so, hso, rfl⟩ := map_ok.1 (show (·.comp) <$> storageModel sys s = .ok o from h)
    exact storage_talks hso (h1 _ (by simp [Comp.flows, Comp.inputs])) (h1 _ (by simp [Comp.flows, Comp.outputs])) (fun q => h3 s q rfl)
  | transmission t =>
    obtain ⟨tr, hto, rfl⟩ := map_ok.1 (show (·.comp) <$> transmissionModel sys t = .ok o from h)
    exact trans_talks hto h1

/-! ## Buses and effects -/

theorem bus_talks {sys : Sys} {b : BusData} {ins outs : List Var} {o : BusOut} (h : busModel sys b ins outs = .ok o)
    (hb : b.excessPenalty ≠ none ∨ ins ++ outs ≠ []) : o.tree.Talks := by
  unfold busModel at h
  split at h
  · rename_i hp
    simp only [Except.ok.injEq] at h
    subst h
    rcases hb with hb | hb
    · exact absurd hp hb
    simp only [talks_node, List.mem_cons, List.not_mem_nil, or_false, forall_eq, talks_mkEq, false_implies, implies_true, and_true]
    obtain ⟨x, hx⟩ := List.exists_mem_of_ne_nil _ hb
    rcases List.mem_append.1 hx with hx | hx
    · exact ⟨_, List.mem_append_left _ (List.mem_map.2 ⟨x, hx, rfl⟩), by simp⟩
    · exact ⟨_, List.mem_append_right _ (List.mem_map.2 ⟨x, hx, rfl⟩), by simp⟩
  · peel h with f, hf
    peel h with ein, he
    peel h with eout, heo
    simp only [except_pure, Except.ok.injEq] at h
    subst h
    simp only [talks_node, List.mem_cons, List.not_mem_nil, or_false, forall_eq, talks_mkEq, false_implies, implies_true, and_true]
    exact ⟨sAll ein (.s 1), by simp, by simp⟩

theorem samTree_talks {d : SamData} {vs : SamVars} {calls : List Share} {tree : MTree} (h : samTree d vs calls = .ok tree) : tree.Talks := by
  unfold samTree at h
  simp only at h
  peel h with shares, hsh
  have hs : ∀ s ∈ shares.map (·.2.2), s.Talks := by
    intro s hs
    obtain ⟨q, hq, rfl⟩ := List.mem_map.1 hs
    obtain ⟨c, hc', hh⟩ := forall₂_mem_right (mapM_ok.1 hsh) hq
    peel hh with r, hr
    simp only [except_pure, Except.ok.injEq] at hh
    have := singleShare_eq hr
    subst this
    rw [← hh]
    simp [shareT, talks_node]
  split at h
  · cases h
  · split at h
    · simp only [Except.ok.injEq] at h
      subst h
      rw [talks_node]
      exact ⟨by simp, hs⟩
    · simp only [Except.ok.injEq] at h
      subst h
      rw [talks_node]
      exact ⟨by simp, hs⟩

theorem collection_talks {sys : Sys} {es : List EffectData} {calls : List ShareCall} {o : CollOut}
    (h : collectionModel sys es calls = .ok o) : o.tree.Talks := by
  obtain ⟨between, addressed, trees, pt, h1, h2, h3, h4, h5, h6, h7, ht⟩ := collection_inv h
  rw [ht, talks_node]
  refine ⟨by simp, ?_⟩
  intro s hs
  rcases List.mem_append.1 hs with hs | hs
  · obtain ⟨ev, hev', hh⟩ := forall₂_mem_right h6 hs
    unfold effectTree at hh
    peel hh with i, hi
    peel hh with op, hop
    peel hh with a, ha
    simp only [except_pure, Except.ok.injEq] at hh
    subst hh
    rw [talks_node]
    refine ⟨by simp, ?_⟩
    simp only [List.mem_cons, List.not_mem_nil, or_false, forall_eq_or_imp, forall_eq]
    exact ⟨samTree_talks hi, samTree_talks hop, samTree_talks ha⟩
  · simp at hs
    subst hs
    exact samTree_talks h7

/-! ## Rows -/

theorem expr_terms {sm : Summand} {i : Nat} {ts : List (ℚ × String × Nat)} (h : sm.expr i = .ok ts) (ha : sm.asSum = false) : ts ≠ [] := by
  unfold Summand.expr at h
  rw [if_neg (by simp [ha])] at h
  split at h
  · peel h with a, _
    peel h with b, _
    peel h with c, _
    simp only [except_pure, Except.ok.injEq] at h
    subst h; simp
  · split at h
    · peel h with a, _
      peel h with b, _
      peel h with c, _
      simp only [except_pure, Except.ok.injEq] at h
      subst h; simp
    · peel h with a, _
      peel h with b, _
      peel h with c, _
      simp only [except_pure, Except.ok.injEq] at h
      subst h; simp

theorem run_plain {c c' : Constraint} {op : Op} (h : op.run c = .ok c') :
    (∀ sm ∈ c.summands, sm ∈ c'.summands) ∧ (op.Plain → ∃ sm ∈ c'.summands, sm.asSum = false) := by
  cases op with
  | summand x f i a =>
    simp only [Op.run, Constraint.addSummand] at h
    peel h with sm, hsm
    peel h with len, hlen
    simp only [except_pure, Except.ok.injEq] at h
    subst h
    unfold mkSummand at hsm
    simp only at hsm
    peel hsm with l, hl
    peel hsm with fv, hfv
    simp only [except_pure, Except.ok.injEq] at hsm
    subst hsm
    refine ⟨fun sm hs => List.mem_append_left _ hs, fun ha => ⟨_, List.mem_append_right _ (List.mem_singleton_self _), ?_⟩⟩
    exact ha
  | const k =>
    simp only [Op.run, Constraint.addConstant] at h
    have : c'.summands = c.summands := by
      unfold Constraint.addConstantFull at h
      split at h
      · rename_i c1 hh
        cases h
        split at hh
        · simp at hh
        · split at hh
          · simp at hh
          · simp only [Prod.mk.injEq] at hh
            rw [← hh.1]
      · cases h
    rw [this]
    exact ⟨fun _ h => h, fun h => h.elim⟩

theorem runOps_plain {ops : List Op} : ∀ {c c' : Constraint}, runOps c ops = .ok c' → (∃ sm ∈ c.summands, sm.asSum = false) ∨ (∃ op ∈ ops, op.Plain) →
    ∃ sm ∈ c'.summands, sm.asSum = false := by
  induction ops with
  | nil => intro c c' h hc; simp only [runOps, Except.ok.injEq] at h; subst h; simpa using hc
  | cons op ops ih =>
    intro c c' h hc
    simp only [runOps] at h
    peel h with c1, h1
    obtain ⟨k1, k2⟩ := run_plain h1
    refine ih h ?_
    rcases hc with ⟨sm, hs, ha⟩ | ⟨op', ho, hp⟩
    · exact Or.inl ⟨sm, k1 sm hs, ha⟩
    · rcases List.mem_cons.1 ho with rfl | ho
      · exact Or.inl (k2 hp)
      · exact Or.inr ⟨op', ho, hp⟩

theorem talks_rows {r : ConReq} {c : Constraint} {rows : List Row} (h : r.build = .ok c) (ht : c.translate = .ok rows) (hr : r.Talks) :
    ∀ row ∈ rows, row.terms ≠ [] := by
  obtain ⟨sm, hs, ha⟩ := runOps_plain h (Or.inr hr)
  intro row hrow
  unfold Constraint.translate at ht
  peel ht with cv, hcv
  obtain ⟨i, _, hi⟩ := forall₂_mem_right (mapM_ok.1 ht) hrow
  peel hi with tss, htss
  peel hi with rhs, hrhs
  simp only [except_pure, Except.ok.injEq] at hi
  rw [← hi]
  obtain ⟨ts, hts, he⟩ := forall₂_mem_left (mapM_ok.1 htss) hs
  intro hnil
  exact expr_terms he ha (List.flatten_eq_nil_iff.1 hnil ts hts)

end Flix
