import Verif.Lemmas.Closed
import Verif.Props.Transmission
import Verif.Lemmas.SegShares

/-!
# Variables with a cost are bounded

Every variable that contributes to an effect (flow rates, sizes, on/off and investment decisions, segmented shares) is bounded in
all solutions of the model it belongs to.
-/

namespace Flix

/-- The variable is bounded in the solutions of the tree. -/
def Bdd (t : MTree) (x : Var) : Prop := ∃ B : ℚ, ∀ σ : Assignment, t.Solves σ → ∀ i < x.length, |σ x.label i| ≤ B

theorem Bdd.of {t u : MTree} (h : ∀ σ : Assignment, u.Solves σ → t.Solves σ) {x : Var} (hx : Bdd t x) : Bdd u x := by
  obtain ⟨B, hB⟩ := hx
  exact ⟨B, fun σ hs => hB σ (h σ hs)⟩

theorem Bdd.sub {vs : List Var} {cs : List ConReq} {ss : List MTree} {t : MTree} (ht : t ∈ ss) {x : Var} (hx : Bdd t x) : Bdd (.node vs cs ss) x := by
  refine hx.of fun σ hs => ?_
  rw [MTree.Solves, solvesAll_iff] at hs
  exact hs.2.2 t ht

theorem bdd_bin {vs : List Var} {cs : List ConReq} {ss : List MTree} {x : Var} (hx : x ∈ vs) (hf : x.fixedValue = none) (hl : x.lb = none) (hu : x.ub = none)
    (hb : x.isBinary = true) : Bdd (.node vs cs ss) x := by
  refine ⟨1, fun σ hs i hi => ?_⟩
  rw [MTree.Solves] at hs
  rcases (bin_var_iff hf hl hu hb).1 (hs.1 x hx) i hi with e | e <;> rw [e] <;> norm_num

theorem onOff_bdd {sys : Sys} {el : String} {q : OnOffParams} {ds : List (Var × Num × Num)} {o : OnOffOut} (h : onOffModel sys el q ds = .ok o) :
    ∀ c ∈ o.shares, c.Refs (Bdd o.tree) := by
  obtain ⟨prevOn, cOn, off, dOn, dOff, swOn, swOff, nr, cSw, _, hon, _, _, _, _, _, hsw, _, _, _, _, _, _, _, _, _, hvars, _,
    sh1, sh2, hsh1, hsh2, hsh⟩ := onOff_inv h
  have v1 : Bdd o.tree o.on := bdd_bin (by rw [hvars]; simp) (by rw [hon]) (by rw [hon]) (by rw [hon]) (by rw [hon])
  have v2 : Bdd o.tree swOn := bdd_bin (by rw [hvars]; simp) (by rw [hsw]) (by rw [hsw]) (by rw [hsw]) (by rw [hsw])
  rw [hsh]
  intro c hc
  rcases List.mem_append.1 hc with hc | hc
  · exact sharesTo_refs hsh1 (by rintro x ⟨⟩; exact v2) c hc
  · exact sharesTo_refs hsh2 (by rintro x ⟨⟩; exact v1) c hc

theorem segShares_bdd {el : String} {x : Var} {xs : List (ℚ × ℚ)} {shares : List (String × List (ℚ × ℚ))} {out : Outside} {o : Out} (hx : x.length = 1)
    (hout : ∀ y, out = .use y → y.length = 1) (hnc : out ≠ .create) (h : segmentedShares el x xs shares out = .ok o) : ∀ c ∈ o.shares, c.Refs (Bdd o.tree) := by
  obtain ⟨nr, _, _, hiff⟩ := segmentedShares_iff hx hout hnc h
  obtain ⟨_, segs, _, _, hsh⟩ := segmentedShares_inv h
  rw [hsh]
  intro c hc y hy
  obtain ⟨e, he, rfl⟩ := List.mem_map.1 hc
  simp only [segCall, Option.some.injEq] at hy
  subst hy
  refine ⟨∑ i ∈ Finset.range nr, (|((numSegs e.2).getD i seg0).1.at 0| + |((numSegs e.2).getD i seg0).2.at 0|), fun σ hs i hi => ?_⟩
  have hi0 : i = 0 := by simp only [segShareVar] at hi; omega
  subst hi0
  have rows := (hiff σ).1 hs
  rw [rows.lam (segShareVar el e.1, numSegs e.2) (List.mem_append_left _ (List.mem_map.2 ⟨e, he, rfl⟩)) 0 (by norm_num)]
  refine (Finset.abs_sum_le_sum_abs _ _).trans (Finset.sum_le_sum fun k hk => ?_)
  have r := rows.row k (Finset.mem_range.1 hk)
  have a := r.l0 0 (by norm_num)
  have b := r.l1 0 (by norm_num)
  refine (abs_add_le _ _).trans (add_le_add ?_ ?_)
  · rw [abs_mul, abs_of_nonneg a.1]
    exact mul_le_of_le_one_right (abs_nonneg _) a.2
  · rw [abs_mul, abs_of_nonneg b.1]
    exact mul_le_of_le_one_right (abs_nonneg _) b.2

theorem invest_bdd {cfg : Cfg} {el : String} {q : InvestParams} {x : Var} {relMin relMax : Num} {profile : Option Num}
    {on : Option Var} {o : InvestOut} (h : investModel cfg el q x relMin relMax profile on = .ok o) : ∀ c ∈ o.shares, c.Refs (Bdd o.tree) := by
  obtain ⟨s1, s2, s3, s4, hsize, hinv, hvars, _, h1, h2, h3, h4, hsh⟩ := invest_inv h
  obtain ⟨_, hlen, hiff⟩ := sizeVar_iff hsize
  have vs : Bdd o.tree o.size := by
    refine ⟨|q.fixedSize.getD 0| + |q.minSize| + |q.maxSize cfg|, fun σ hs i hi => ?_⟩
    have hi0 : i = 0 := by omega
    subst hi0
    rw [InvestOut.tree, MTree.Solves] at hs
    obtain ⟨a, b, c⟩ := (hiff σ).1 (hs.1 _ (by rw [hvars]; simp))
    have n1 := abs_nonneg (q.fixedSize.getD 0)
    have n2 := abs_nonneg q.minSize
    have n3 := abs_nonneg (q.maxSize cfg)
    by_cases hc : pyTruthy q.fixedSize = true ∧ q.optional = false
    · obtain ⟨v, hv, h0⟩ := pyTruthy_iff.1 hc.1
      rw [a v hv h0 hc.2, hv]
      simp only [Option.getD_some]
      linarith
    · have b := b hc
      have c := c hc
      have m1 := neg_abs_le q.minSize
      have m2 := le_abs_self (q.maxSize cfg)
      rw [abs_le]
      constructor
      · split at b <;> linarith
      · linarith
  have vi : ∀ y, o.isInvested = some y → y.length = 1 ∧ Bdd o.tree y := by
    intro y hy
    unfold investedVar at hinv
    split at hinv
    · obtain ⟨i, hi, hi'⟩ := map_ok.1 hinv
      rw [hy] at hi'
      cases hi'
      have hm := (mkVar_ok hi).1
      exact ⟨by rw [hm], bdd_bin (by rw [hvars, hy]; simp) (by rw [hm]) (by rw [hm]) (by rw [hm]) (by rw [hm])⟩
    · simp only [Except.ok.injEq] at hinv
      rw [← hinv] at hy
      cases hy
  have hseg : ∀ c ∈ s4, c.Refs (Bdd o.tree) := by
    unfold investSegments at h4
    split at h4
    · simp only [Except.ok.injEq, Prod.mk.injEq] at h4
      rw [← h4.2]
      simp
    · peel h4 with so, hso
      simp only [except_pure, Except.ok.injEq, Prod.mk.injEq] at h4
      obtain ⟨hh, rfl⟩ := h4
      intro c hc y hy
      refine Bdd.sub (t := so.tree) (by rw [← hh]; simp) (segShares_bdd hlen ?_ ?_ hso c hc y hy)
      · intro z hz
        cases hi : o.isInvested with
        | none => rw [hi] at hz; cases hz
        | some w => rw [hi] at hz; cases hz; exact (vi _ hi).1
      · cases o.isInvested <;> simp
  rw [hsh]
  intro c hc
  simp only [List.mem_append] at hc
  rcases hc with ((hc | hc) | hc) | hc
  · exact sharesTo_refs h1 (fun y hy => (vi y hy).2) c hc
  · unfold divestShares at h2
    split at h2
    · peel h2 with a, ha
      peel h2 with b, hb
      simp only [except_pure, Except.ok.injEq] at h2
      subst h2
      rcases List.mem_append.1 hc with hc | hc
      · exact sharesTo_refs ha (by simp) c hc
      · exact sharesTo_refs hb (fun y hy => (vi y hy).2) c hc
    · simp only [Except.ok.injEq] at h2; subst h2; simp at hc
  · exact sharesTo_refs h3 (by rintro y ⟨⟩; exact vs) c hc
  · exact hseg c hc

theorem flow_bdd {sys : Sys} (hv : sys.Valid) {el : String} {f : FlowData} {o : FlowOut} (hf : f.Fits sys.n) (h : flowModel sys el f = .ok o) :
    (∀ c ∈ o.shares, c.Refs (Bdd o.tree)) ∧ Bdd o.tree o.flowRate := by
  obtain ⟨h1, hoo, hinv, _, htree, sh, hsh, hshares⟩ := flow_inv h
  obtain ⟨_, hlen, _⟩ := flowRate_ok h1
  have vr : Bdd o.tree o.flowRate := by
    refine ⟨∑ t ∈ Finset.range sys.n, (|(f.absBounds sys.cfg).1.at t| + |(f.absBounds sys.cfg).2.at t|), fun σ hs t ht => ?_⟩
    rw [hlen] at ht
    refine le_trans ?_ (Finset.single_le_sum (f := fun t => |(f.absBounds sys.cfg).1.at t| + |(f.absBounds sys.cfg).2.at t|)
      (fun _ _ => by positivity) (Finset.mem_range.2 ht))
    have rows := (flow_iff hv hf h σ).1 hs
    have n1 := abs_nonneg ((f.absBounds sys.cfg).1.at t)
    have n2 := abs_nonneg ((f.absBounds sys.cfg).2.at t)
    have m1 := neg_abs_le ((f.absBounds sys.cfg).1.at t)
    have m2 := le_abs_self ((f.absBounds sys.cfg).2.at t)
    cases ho : o.onOff with
    | none =>
      rw [ho] at hoo
      have e := flowOnOff_none hoo
      have a := rows.lower e t ht
      have b := rows.upper e t ht
      rw [abs_le]
      constructor <;> linarith
    | some oo =>
      have hso := rows.onOff oo ho
      rw [ho] at hoo
      obtain ⟨q, hq, hm⟩ := flowOnOff_some hoo
      obtain ⟨ha1, ha2⟩ := hf.absBounds sys.cfg
      obtain ⟨_, prevOn, _, hiff⟩ := onOff_iff hv (hf.onOff q hq) (by simpa using ⟨hlen, ha1, ha2⟩) hm
      have r := (hiff σ).1 hso
      have k : σ o.flowRate.label t ≤ (f.absBounds sys.cfg).2.at t * σ oo.on.label t := (r.onRel t ht).2
      have z := rows.nonneg (by rw [hq]; simp) t ht
      rw [abs_of_nonneg z]
      rcases r.onBin t ht with e | e <;> rw [e] at k <;> linarith
  refine ⟨?_, vr⟩
  rw [hshares]
  intro c hc
  simp only [List.mem_append] at hc
  rcases hc with (hc | hc) | hc
  · cases ho : o.onOff with
    | none => rw [ho] at hc; simp at hc
    | some oo =>
      rw [ho] at hc hoo
      obtain ⟨q, _, hm⟩ := flowOnOff_some hoo
      intro y hy
      rw [htree]
      exact Bdd.sub (t := oo.tree) (by simp [ho]) (onOff_bdd hm c (by simpa using hc) y hy)
  · cases hi : o.invest with
    | none => rw [hi] at hc; simp at hc
    | some i =>
      rw [hi] at hc hinv
      obtain ⟨q, _, hm⟩ := flowInvest_some hinv
      intro y hy
      rw [htree]
      exact Bdd.sub (t := i.tree) (by simp [hi]) (invest_bdd hm c (by simpa using hc) y hy)
  · exact sharesTo_refs hsh (by rintro y ⟨⟩; exact vr) c hc

theorem comp_bdd {sys : Sys} (hv : sys.Valid) {c : CompData} {o : CompOut} (hf : ∀ f ∈ c.inputs ++ c.outputs, f.Fits sys.n) (h : compModel sys c = .ok o) :
    ∀ c ∈ o.shares, c.Refs (Bdd o.tree) := by
  obtain ⟨h1, h2, h3, prev, _, hvars, hcons, hsubs, hshares⟩ := comp_inv h
  rw [hshares]
  intro cc hc
  rcases List.mem_append.1 hc with hc | hc
  · rw [List.mem_flatten] at hc
    obtain ⟨l, hl, hc⟩ := hc
    obtain ⟨q, hq, rfl⟩ := List.mem_map.1 hl
    have : ∃ el f, f.Fits sys.n ∧ flowModel sys el f = .ok q.2 := by
      unfold CompOut.flows at hq
      rcases List.mem_append.1 hq with hq | hq
      · obtain ⟨f, hfm, _, hm⟩ := forall₂_mem_right h1 hq
        exact ⟨_, _, fillOnOff_fits (hf f (List.mem_append_left _ hfm)), hm⟩
      · obtain ⟨f, hfm, _, hm⟩ := forall₂_mem_right h2 hq
        exact ⟨_, _, fillOnOff_fits (hf f (List.mem_append_right _ hfm)), hm⟩
    obtain ⟨el, f, hff, hm⟩ := this
    intro y hy
    refine Bdd.sub (t := q.2.tree) ?_ ((flow_bdd hv hff hm).1 cc hc y hy)
    rw [hsubs, List.append_assoc]
    exact List.mem_append_left _ (List.mem_map.2 ⟨q, hq, rfl⟩)
  · cases hoo : o.on with
    | none => rw [hoo] at hc; simp at hc
    | some oo =>
      rw [hoo] at hc
      unfold compOnOff at h3
      split at h3
      · simp only [Except.ok.injEq] at h3; rw [← h3] at hoo; cases hoo
      · obtain ⟨q, hq, hq'⟩ := map_ok.1 h3
        rw [hoo] at hq'
        cases hq'
        intro y hy
        refine Bdd.sub (t := oo.tree) ?_ (onOff_bdd hq cc (by simpa using hc) y hy)
        rw [hsubs, hoo]
        simp

theorem model_bdd {sys : Sys} (hv : sys.Valid) {c : Comp} {o : CompOut} (hf : ∀ f ∈ c.flows, f.Fits sys.n) (h : c.model sys = .ok o) :
    ∀ c ∈ o.shares, c.Refs (Bdd o.tree) := by
  cases c with
  | plain c => exact comp_bdd hv hf h
  | converter c =>
    simp only [Comp.model, converterModel] at h
    peel h with o0, h0
    have k := comp_bdd hv hf h0
    split at h
    · simp only [except_pure, Except.ok.injEq] at h
      subst h
      intro cc hc y hy
      refine (k cc hc y hy).of fun σ hs => ?_
      simp only [CompOut.tree, MTree.Solves] at hs ⊢
      exact ⟨hs.1, fun r hr => hs.2.1 r (List.mem_append_left _ hr), hs.2.2⟩
    · peel h with pts, h1
      peel h with t, h2
      simp only [except_pure, Except.ok.injEq] at h
      subst h
      intro cc hc y hy
      refine (k cc hc y hy).of fun σ hs => ?_
      simp only [CompOut.tree, MTree.Solves, solvesAll_append] at hs ⊢
      exact ⟨hs.1, hs.2.1, hs.2.2.1⟩
  | storage s =>
    simp only [Comp.model] at h
    obtain ⟨so, h', rfl⟩ := map_ok.1 h
    clear h
    rename' h' => h
    unfold storageModel at h
    peel h with o0, h0
    peel h with ab, hab
    obtain ⟨a, b⟩ := ab
    simp only at h
    peel h with c, hc
    peel h with nd, hnd
    peel h with cCharge, hcc
    peel h with inv, hinv
    peel h with cIF, hif
    simp only [except_pure, Except.ok.injEq] at h
    subst h
    have k := comp_bdd hv (c := s.comp) hf h0
    intro cc hcc' y hy
    rcases List.mem_append.1 hcc' with hcc' | hcc'
    · refine (k cc hcc' y hy).of fun σ hs => ?_
      simp only [CompOut.tree, MTree.Solves, solvesAll_append, List.mem_append] at hs ⊢
      exact ⟨fun x hx => hs.1 x (.inl hx), fun r hr => hs.2.1 r (.inl (.inl hr)), hs.2.2.1⟩
    · cases hii : inv with
      | none => rw [hii] at hcc'; simp at hcc'
      | some i =>
        rw [hii] at hcc'
        unfold storageInvest at hinv
        split at hinv
        · simp only [Except.ok.injEq] at hinv; rw [← hinv] at hii; cases hii
        · obtain ⟨q, hq, hq'⟩ := map_ok.1 hinv
          rw [hii] at hq'
          cases hq'
          exact Bdd.sub (t := i.tree) (by simp) (invest_bdd hq cc (by simpa using hcc') y hy)
  | transmission t =>
    simp only [Comp.model] at h
    obtain ⟨so, h', rfl⟩ := map_ok.1 h
    clear h
    rename' h' => h
    unfold transmissionModel at h
    peel h with o0, h0
    peel h with q, hq
    obtain ⟨i1, i2, o1, o2⟩ := q
    simp only at h
    peel h with c1, h1
    peel h with c2, h2
    simp only [except_pure, Except.ok.injEq] at h
    subst h
    have k := comp_bdd hv (comp_fits (t := t) (cfg := sys.cfg) (by
      intro f hm
      refine hf f ?_
      simp only [TransData.flows, Comp.flows, Comp.inputs, Comp.outputs, List.mem_cons, List.mem_append] at hm ⊢
      tauto)) h0
    intro cc hc y hy
    refine (k cc hc y hy).of fun σ hs => ?_
    simp only [CompOut.tree, MTree.Solves, List.mem_append] at hs ⊢
    exact ⟨hs.1, fun r hr => hs.2.1 r (.inl (.inl hr)), hs.2.2⟩

end Flix
