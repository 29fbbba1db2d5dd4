import Verif.Lemmas.Report
import Verif.Lemmas.Keys6
import Std.Data.String.ToNat

/-!
# Nested results: the labels fit the models of flows, components and buses
-/

namespace Flix

/-! ## The parts of an element -/

theorem own_labels {vs : List Var} {cs : List ConReq} {ss : List MTree} (h : (MTree.node vs cs ss).labels.Nodup) :
    (vs.map (·.label)).Nodup := by
  rw [labels_node] at h
  exact (List.nodup_append.1 h).1

theorem sub_labels {vs : List Var} {cs : List ConReq} {ss : List MTree} (h : (MTree.node vs cs ss).labels.Nodup) {t : MTree} (ht : t ∈ ss) :
    t.labels.Nodup := by
  rw [labels_node] at h
  exact (List.nodup_flatMap.1 (List.nodup_append.1 h).2.1).1 t ht

theorem good_onOff {sys : Sys} {el : String} {q : OnOffParams} {d : List (Var × Num × Num)} {o : OnOffOut}
    (h : onOffModel sys el q d = .ok o) (hl : o.tree.labels.Nodup) : Good (onOffShape el) o.tree := by
  obtain ⟨prevOn, cOn, off, dOn, dOff, swOn, swOff, nr, cSw, -, hon, htot, hcOn, hoff, hdOn, hdOff, hsw1, hsw2, hnr, hsw, -, -, -, -, -, -, hvars, hcons, -⟩ := onOff_inv h
  obtain ⟨v1, c1, s1, s1', e1, e1'⟩ := off_keys hoff
  obtain ⟨v2, c2, s2, s2', e2, e2'⟩ := durOn_keys hdOn
  obtain ⟨v3, c3, s3, s3', e3, e3'⟩ := durOff_keys hdOff
  have lit : ∀ {l v : String} {vs : List String}, vs.Sublist [v] → l ∈ vs.map (el ++ ·) → ∀ s, v = "__OnOff_" ++ s →
      ∃ s, l = el ++ "__" ++ "OnOff" ++ "_" ++ s := by
    intro l v vs hsub hm s hv
    obtain ⟨w, hw, rfl⟩ := List.mem_map.1 hm
    have : w = v := by simpa using hsub.subset hw
    refine ⟨s, ?_⟩
    rw [this, hv, show ("__OnOff_" : String) = "__" ++ "OnOff" ++ "_" by decide +kernel]
    simp only [String.append_assoc]
  have one : ∀ {x : Var} {s : String}, x.label = ooP el ++ "_" ++ s → ∃ s, x.label = el ++ "__" ++ "OnOff" ++ "_" ++ s := by
    intro x s hx
    refine ⟨s, ?_⟩
    rw [hx, ooP, show ("__OnOff" : String) = "__" ++ "OnOff" by decide +kernel]
    simp only [String.append_assoc]
  unfold onOffShape OnOffOut.tree
  refine good_leaf (fun x hx => ?_) (own_labels hl)
  rw [hvars] at hx
  simp only [List.mem_append, List.mem_cons, List.not_mem_nil, or_false] at hx
  have mem : ∀ {y : Option Var}, x ∈ y.toList → x.label ∈ y.toList.map (·.label) := fun h => List.mem_map.2 ⟨x, h, rfl⟩
  rcases hx with (((( rfl | rfl) | hx) | hx) | hx) | rfl | rfl | rfl
  · exact one (by rw [hon])
  · exact one (by rw [htot])
  · exact lit s1 (e1 ▸ mem hx) "off" (by decide +kernel)
  · exact lit s2 (e2 ▸ mem hx) "consecutiveOnHours" (by decide +kernel)
  · exact lit s3 (e3 ▸ mem hx) "consecutiveOffHours" (by decide +kernel)
  · exact one (by rw [hsw1])
  · exact one (by rw [hsw2])
  · exact one (by rw [hnr])

theorem append_inj' {a b c : String} (h : a ++ b = a ++ c) : b = c := by
  apply String.toList_injective
  simpa using congrArg String.toList h

theorem segmentKey_ne_self (i : Nat) : "Segment_" ++ toString i ≠ "_self" := by
  intro h
  have := congrArg (fun s : String => s.toList.head?) h
  simp at this

theorem segmentKey_inj {i j : Nat} (h : "Segment_" ++ toString i = "Segment_" ++ toString j) : i = j := by
  have : toString i = toString j := append_inj' h
  exact Nat.repr_inj.1 this

theorem good_segments {el : String} {L : Nat} {points : List (Var × List (Num × Num))} {out : Outside} {tree : MTree}
    (h : multipleSegments el L points out = .ok tree) (hl : tree.labels.Nodup) : Good (.segments el) tree := by
  obtain ⟨nr, -, -, vs, ops, hout, rfl⟩ := multiple_inv h
  obtain ⟨h1, -⟩ := outside_ok hout
  have hvs : ∀ x ∈ vs, x.label = el ++ "__" ++ "MultipleSegments" ++ "_" ++ "outside_segments" := by
    intro x hx
    simp only at h1
    rw [h1] at hx
    cases out with
    | no => simp at hx
    | use y => simp at hx
    | create => simp [outsideVar] at hx; subst hx; rfl
  have hs : ((List.range nr).map (segTree el L)).mapIdx (segmentNode el) = (List.range nr).map fun i => segmentNode el i (segTree el L i) := by
    apply List.ext_getElem
    · simp
    · intro i h1 h2
      simp
  have hkeys : ((List.range nr).map fun i => segmentNode el i (segTree el L i)).map NTree.key = (List.range nr).map fun i => "Segment_" ++ toString i := by
    rw [List.map_map]
    rfl
  have hkn : ((List.range nr).map fun i => "Segment_" ++ toString i).Nodup :=
    List.Nodup.map (fun i j h => segmentKey_inj h) List.nodup_range
  have hself : "_self" ∉ (List.range nr).map fun i => "Segment_" ++ toString i := by
    intro hm
    obtain ⟨i, -, e⟩ := List.mem_map.1 hm
    exact segmentKey_ne_self i e
  have hsub : ∀ i < nr, (segTree el L i).labels.Nodup := fun i hi => sub_labels hl (List.mem_map.2 ⟨i, List.mem_range.2 hi, rfl⟩)
  have hseg : ∀ (i : Nat), ∀ x ∈ (segTree el L i).ownVars, ∃ s, x.label = (el ++ "__" ++ "Segment_" ++ toString i) ++ "_" ++ s := by
    intro i x hx
    simp only [segTree, MTree.ownVars, List.mem_cons, List.not_mem_nil, or_false] at hx
    rcases hx with rfl | rfl | rfl
    · exact ⟨"inSegment", rfl⟩
    · exact ⟨"lambda0", rfl⟩
    · exact ⟨"lambda1", rfl⟩
  constructor
  · rw [NShape.annotate, hs]
    refine .plain ?_ ?_
    · rw [hkeys]
      refine List.nodup_append.2 ⟨shorts_nodup (fun x hx => ⟨_, hvs x hx⟩) (own_labels hl), hkn, ?_⟩
      rintro a ha b hb rfl
      obtain ⟨x, hx, e⟩ := List.mem_map.1 ha
      obtain ⟨i, -, e'⟩ := List.mem_map.1 hb
      rw [shortLabel_of (hvs x hx)] at e
      have := congrArg (fun s : String => s.toList.head?) (e'.trans e.symm)
      simp at this
    · intro u hu
      obtain ⟨i, hi, rfl⟩ := List.mem_map.1 hu
      refine .plain ?_ (by simp)
      rw [List.map_nil, List.append_nil]
      exact shorts_nodup (hseg i) (own_labels (hsub i (List.mem_range.1 hi)))
  · intro m hm x hx
    rw [NShape.annotate, hs]
    rw [MTree.nodes, List.mem_cons] at hm
    rcases hm with rfl | hm
    · exact ⟨_, .own hx⟩
    · obtain ⟨t, ht, hm⟩ := mem_nodesAll.1 hm
      obtain ⟨i, hi, rfl⟩ := List.mem_map.1 ht
      have : m = segTree el L i := by simpa [segTree, MTree.nodes, MTree.nodesAll] using hm
      subst this
      exact ⟨_, .sub (List.mem_map.2 ⟨i, hi, rfl⟩) (.own (by simpa [segTree, MTree.ownVars, MTree.vars] using hx))⟩
  · rw [NShape.annotate, hs]
    refine .node ?_ ?_
    · rw [hkeys]
      exact List.nodup_cons.2 ⟨hself, hkn⟩
    · intro u hu
      obtain ⟨i, hi, rfl⟩ := List.mem_map.1 hu
      exact .node (by simp) (by simp)
  · intro m hm
    rw [NShape.annotate, hs]
    rw [MTree.nodes, List.mem_cons] at hm
    rcases hm with rfl | hm
    · exact ⟨_, _, .here _, rfl, rfl⟩
    · obtain ⟨t, ht, hm⟩ := mem_nodesAll.1 hm
      obtain ⟨i, hi, rfl⟩ := List.mem_map.1 ht
      have : m = segTree el L i := by simpa [segTree, MTree.nodes, MTree.nodesAll] using hm
      subst this
      exact ⟨_, _, .sub (List.mem_map.2 ⟨i, hi, rfl⟩) (.here _), rfl, rfl⟩

theorem good_invest {cfg : Cfg} {el : String} {q : InvestParams} {x : Var} {relMin relMax : Num} {profile : Option Num} {on : Option Var}
    {o : InvestOut} (h : investModel cfg el q x relMin relMax profile on = .ok o) (hl : o.tree.labels.Nodup) :
    Good (investShape el q) o.tree := by
  obtain ⟨s1, s2, s3, s4, h1, h2, h3, h4, -, -, -, h5, -⟩ := invest_inv h
  have hsz := sizeVar_label h1
  have hinv : ∀ y ∈ o.isInvested.toList, y.label = el ++ "__" ++ "Investment" ++ "_" ++ "isInvested" := by
    intro y hy
    unfold investedVar at h2
    split at h2
    · obtain ⟨z, hz, hz'⟩ := map_ok.1 h2
      rw [← hz'] at hy
      simp at hy
      subst hy
      rw [(mkVar_ok hz).1]
    · simp only [Except.ok.injEq] at h2
      rw [← h2] at hy
      simp at hy
  have hown : ∀ y ∈ o.vars, ∃ s, y.label = el ++ "__" ++ "Investment" ++ "_" ++ s ∧ s ∉ ["SegmentedShares"] := by
    intro y hy
    rw [h3] at hy
    rcases List.mem_cons.1 hy with rfl | hy
    · exact ⟨_, hsz, by decide +kernel⟩
    · exact ⟨_, hinv y hy, by decide +kernel⟩
  unfold InvestOut.tree at hl ⊢
  unfold investShape
  cases hq : q.effectsInSegments with
  | none =>
    simp only [investSegments, hq, Except.ok.injEq, Prod.mk.injEq] at h5
    rw [← h5.1] at hl ⊢
    exact good_leaf (fun y hy => (hown y hy).imp fun s h => h.1) (own_labels hl)
  | some r =>
    obtain ⟨xs, es⟩ := r
    simp only [investSegments, hq] at h5
    peel h5 with so, hso
    simp only [except_pure, Except.ok.injEq, Prod.mk.injEq] at h5
    rw [← h5.1] at hl ⊢
    obtain ⟨-, segs, hsegs, htree, -⟩ := segmentedShares_inv hso
    have hl' : so.tree.labels.Nodup := sub_labels hl (by simp)
    refine good_model (fun y hy => by simpa [NShape.key] using hown y hy) (own_labels hl)
      (show ["_self", "SegmentedShares"].Nodup by decide +kernel) (.cons ?_ .nil)
    rw [htree] at hl' ⊢
    refine good_model (fun y hy => ?_) (own_labels hl') (show ["_self", "MultipleSegments"].Nodup by decide +kernel) (.cons (good_segments hsegs (sub_labels hl' (by simp))) .nil)
    obtain ⟨e, he, rfl⟩ := List.mem_map.1 hy
    refine ⟨e.1 ++ "_segmented", by simp [segShareVar, segShareL, String.append_assoc], ?_⟩
    simp only [List.map_cons, List.map_nil, NShape.key, List.mem_singleton]
    intro h
    have := congrArg (fun s : String => s.toList.getLast?) h
    simp at this

theorem good_flow {sys : Sys} {comp : String} {f : FlowData} {o : FlowOut} (h : flowModel sys (flowFull comp f.label) f = .ok o)
    (hl : o.tree.labels.Nodup) : Good (flowShape sys.cfg comp f) o.tree := by
  obtain ⟨h1, h2, h3, h4, h5, -⟩ := flow_inv h
  have hr : o.flowRate.label = flowFull comp f.label ++ "_" ++ "flow_rate" := by
    unfold flowRateVar at h1
    cases hq : f.onOff <;> simp only [hq] at h1 <;> rw [(mkVar_ok h1).1]
  rw [h5] at hl ⊢
  unfold flowShape
  have g1 : List.Forall₂ Good (match f.onOff with | some _ => [onOffShape (flowFull comp f.label)] | none => [])
      (o.onOff.map OnOffOut.tree).toList := by
    cases ho : o.onOff with
    | none =>
      rw [ho] at h2
      rw [flowOnOff_none h2]
      exact .nil
    | some oo =>
      rw [ho] at h2
      obtain ⟨q, hq, hm⟩ := flowOnOff_some h2
      rw [hq]
      exact .cons (good_onOff hm (sub_labels hl (by simp [ho]))) .nil
  have g2 : List.Forall₂ Good (match f.effSize sys.cfg with | .invest q => [investShape (flowFull comp f.label) q] | .num _ => [])
      (o.invest.map InvestOut.tree).toList := by
    unfold flowInvest at h3
    cases hs : f.effSize sys.cfg with
    | num x =>
      simp only [hs, Except.ok.injEq] at h3
      rw [← h3]
      exact .nil
    | invest q =>
      simp only [hs] at h3
      obtain ⟨i, hi, hi'⟩ := map_ok.1 h3
      rw [← hi']
      exact .cons (good_invest hi (sub_labels hl (by simp [← hi']))) .nil
  have hk : (((match f.onOff with | some _ => [onOffShape (flowFull comp f.label)] | none => []) ++
      (match f.effSize sys.cfg with | .invest q => [investShape (flowFull comp f.label) q] | .num _ => [])).map NShape.key).Sublist
        ["OnOff", "Investment"] := by
    rw [List.map_append]
    refine List.Sublist.append (l₂ := ["OnOff"]) (r₂ := ["Investment"]) ?_ ?_
    · cases f.onOff with
      | none => simp
      | some _ => exact List.Sublist.refl _
    · cases f.effSize sys.cfg with
      | num _ => simp
      | invest q => exact List.Sublist.refl _
  refine good_model (fun y hy => ?_) (own_labels hl) ((hk.cons_cons "_self").nodup (by decide +kernel)) (List.rel_append g1 g2)
  simp only [List.mem_cons, List.not_mem_nil, or_false] at hy
  rcases hy with rfl | rfl
  · exact ⟨_, hr, fun hm => absurd (hk.subset hm) (by decide +kernel)⟩
  · exact ⟨"sumFlowHours", by rw [h4], fun hm => absurd (hk.subset hm) (by decide +kernel)⟩

end Flix
