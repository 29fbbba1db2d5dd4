import Verif.Lemmas.Keys2

namespace Flix

/-! ## Flows -/

/-- The names in a flow. -/
structure FlowData.Named (f : FlowData) : Prop where
  label : IsName f.label
  invest : ∀ q, f.size = .invest q → q.SegNames

theorem effSize_invest {cfg : Cfg} {f : FlowData} {q : InvestParams} (h : f.effSize cfg = .invest q) : f.size = .invest q := by
  unfold FlowData.effSize at h
  split at h
  · cases h
  · cases h
  · rename_i hq; cases h; exact hq

theorem flow_keys {sys : Sys} {c : String} {f : FlowData} {o : FlowOut} (hc : IsName c) (hf : f.Named) (h : flowModel sys (flowFull c f.label) f = .ok o) :
    KL vlabel (VIn (flowFull c f.label) [0, 1, 2, 6]) o.tree.labels ∧ KL clabel (CIn (flowFull c f.label) [0, 1, 2, 6]) o.tree.conLabels := by
  have hfull : ∃ c' f', IsName c' ∧ IsName f' ∧ flowFull c f.label = c' ++ "__" ++ f' := ⟨c, f.label, hc, hf.label, rfl⟩
  revert h hfull
  generalize flowFull c f.label = el
  intro h hfull
  have hel : IsFull el := Or.inr hfull
  obtain ⟨h1, h2, h3, h4, h5, -⟩ := flow_inv h
  have hr : o.flowRate.label = el ++ "_flow_rate" := by rw [(flowRate_ok h1).1, String.append_assoc]; rfl
  have hs : o.sumFlowHours.label = el ++ "_sumFlowHours" := by rw [h4]; show el ++ "_" ++ "sumFlowHours" = _; rw [String.append_assoc]; rfl
  have kon : KL vlabel (VIn el [1]) ((o.onOff.map OnOffOut.tree).toList.flatMap MTree.labels) ∧
      KL clabel (CIn el [1]) ((o.onOff.map OnOffOut.tree).toList.flatMap MTree.conLabels) := by
    unfold flowOnOff at h2
    cases hq : f.onOff with
    | none =>
      rw [hq] at h2
      rw [← Except.ok.inj h2]
      exact ⟨KL.nil, KL.nil⟩
    | some q =>
      rw [hq] at h2
      obtain ⟨oo, ho, ho'⟩ := map_ok.1 h2
      rw [← ho']
      have := onOff_keys hel ho
      simpa using this
  have kinv : KL vlabel (VIn el [2, 6]) ((o.invest.map InvestOut.tree).toList.flatMap MTree.labels) ∧
      KL clabel (CIn el [2, 6]) ((o.invest.map InvestOut.tree).toList.flatMap MTree.conLabels) := by
    unfold flowInvest at h3
    cases hq : f.effSize sys.cfg with
    | num x =>
      rw [hq] at h3
      rw [← Except.ok.inj h3]
      exact ⟨KL.nil, KL.nil⟩
    | invest q =>
      rw [hq] at h3
      obtain ⟨oo, ho, ho'⟩ := map_ok.1 h3
      rw [← ho']
      have := invest_keys hel (hf.invest q (effSize_invest hq)) hr (Or.inl ⟨rfl, hfull⟩) ho
      simpa using this
  rw [h5, labels_node, conLabels_node]
  simp only [List.flatMap_append]
  constructor
  · refine KL.append (P := VIn el [0]) (Q := VIn el [1, 2, 6]) ?_ ?_ (fun k h h' => h.apart h') (fun k h => h.mono) (fun k h => h.mono)
    · refine vplain hel ["_flow_rate", "_sumFlowHours"] (List.Sublist.refl _) ?_ (by decide +kernel) (by decide +kernel)
      simp [hr, hs]
    · exact KL.append kon.1 kinv.1 (fun k h h' => h.apart h') (fun k h => h.mono) (fun k h => h.mono)
  · refine KL.append (P := CIn el [0]) (Q := CIn el [1, 2, 6]) ?_ ?_ (fun k h h' => h.apart h') (fun k h => h.mono) (fun k h => h.mono)
    · have hl : ∃ ss : List String, ss.Sublist ["_load_factor_max", "_load_factor_min"] ∧
          (loadFactorCons sys el f o.sumFlowHours o.invest).map (·.label) = ss.map (el ++ ·) := by
        unfold loadFactorCons
        cases f.loadFactorMax with
        | none =>
          cases f.loadFactorMin with
          | none => exact ⟨[], List.nil_sublist _, rfl⟩
          | some b => exact ⟨["_load_factor_min"], by decide +kernel, by simp [mkIneq, String.append_assoc]⟩
        | some a =>
          cases f.loadFactorMin with
          | none => exact ⟨["_load_factor_max"], by decide +kernel, by simp [mkIneq, String.append_assoc]⟩
          | some b => exact ⟨["_load_factor_max", "_load_factor_min"], by decide +kernel, by simp [mkIneq, String.append_assoc]⟩
      obtain ⟨ss, hss, e⟩ := hl
      refine csub (["_sumFlowHours", "_load_factor_max", "_load_factor_min"].map CT.plain) (sub := ("_sumFlowHours" :: ss).map CT.plain) ((hss.cons_cons _).map _) ?_
        (by decide +kernel) ?_
      · rw [List.map_cons, e, List.map_map]
        simp [mkEq, clabel, CT.pre, CT.suf, String.append_assoc]
      · intro t ht
        obtain ⟨s, hs, rfl⟩ := List.mem_map.1 ht
        have key : ∀ s ∈ ["_sumFlowHours", "_load_factor_max", "_load_factor_min"], s ∈ plainConSufs ∧ s ≠ "_charge_state" ∧ (CT.plain s).cls ∈ [0] := by decide +kernel
        obtain ⟨k1, k2, k3⟩ := key s hs
        exact ⟨occurs_plain hel k1 k2, k3⟩
    · exact KL.append kon.2 kinv.2 (fun k h h' => h.apart h') (fun k h => h.mono) (fun k h => h.mono)

/-! ## Components -/

/-- The keys of a component with the flows `fl` and keys of its own of the classes `cs`. -/
def VC (c : String) (fl : List String) (cs : List Nat) (k : String × VT) : Prop := VIn c cs k ∨ ∃ f ∈ fl, VIn (flowFull c f) [0, 1, 2, 6] k
def CC (c : String) (fl : List String) (cs : List Nat) (k : String × CT) : Prop := CIn c cs k ∨ ∃ f ∈ fl, CIn (flowFull c f) [0, 1, 2, 6] k

theorem flowFull_ne (c f : String) : flowFull c f ≠ c := by
  intro h
  have := congrArg (fun s => s.toList.length) h
  simp [flowFull, String.toList_append] at this

theorem flowFull_inj {c f g : String} (h : flowFull c f = flowFull c g) : f = g := by
  unfold flowFull at h
  have := congrArg String.toList h
  simp only [String.toList_append] at this
  exact String.toList_inj.1 (List.append_cancel_left this)

theorem VC.mono {c : String} {fl : List String} {cs cs' : List Nat} {k : String × VT} (h : VC c fl cs k) (hs : cs ⊆ cs' := by decide) : VC c fl cs' k :=
  h.imp (fun h => h.mono hs) id
theorem CC.mono {c : String} {fl : List String} {cs cs' : List Nat} {k : String × CT} (h : CC c fl cs k) (hs : cs ⊆ cs' := by decide) : CC c fl cs' k :=
  h.imp (fun h => h.mono hs) id

theorem VC.apart {c : String} {fl : List String} {cs cs' : List Nat} {k : String × VT} (h : VC c fl cs k) (h' : VIn c cs' k)
    (hs : ∀ i ∈ cs, i ∉ cs' := by decide) : False := by
  rcases h with h | ⟨f, _, h⟩
  · exact h.apart h' hs
  · exact flowFull_ne c f (h.el.symm.trans h'.el)
theorem CC.apart {c : String} {fl : List String} {cs cs' : List Nat} {k : String × CT} (h : CC c fl cs k) (h' : CIn c cs' k)
    (hs : ∀ i ∈ cs, i ∉ cs' := by decide) : False := by
  rcases h with h | ⟨f, _, h⟩
  · exact h.apart h' hs
  · exact flowFull_ne c f (h.el.symm.trans h'.el)

/-- The names in a component. -/
structure CompData.Named (c : CompData) : Prop where
  label : IsName c.label
  flows : ∀ f ∈ c.inputs ++ c.outputs, f.Named
  distinct : ((c.inputs ++ c.outputs).map (·.label)).Nodup

theorem fill_named {c : CompData} {f : FlowData} (h : f.Named) : (fillOnOff c f).Named := by
  unfold fillOnOff
  split
  · exact ⟨h.label, h.invest⟩
  · exact h

theorem comp_treeLabels {sys : Sys} {c : CompData} {o : CompOut} (h : compModel sys c = .ok o) :
    o.flows.map (·.1.label) = (c.inputs ++ c.outputs).map (·.label) := by
  obtain ⟨h1, h2, _⟩ := comp_inv h
  have aux : ∀ {fs l}, List.Forall₂ (fun f (q : FlowData × FlowOut) => q.1 = fillOnOff c f ∧
      flowModel sys (flowFull c.label f.label) (fillOnOff c f) = .ok q.2) fs l → l.map (·.1.label) = fs.map (·.label) := by
    intro fs l hl
    induction hl with
    | nil => rfl
    | cons hd _ ih => rw [List.map_cons, List.map_cons, ih, hd.1, fillOnOff_label]
  unfold CompOut.flows
  rw [List.map_append, List.map_append, aux h1, aux h2]

theorem prevent_keys {c : CompData} {fs : List (FlowData × FlowOut)} {prev : List MTree} (hc : IsName c.label) (h : compPrevent c fs = .ok prev) :
    prev.flatMap MTree.labels = [] ∧ KL clabel (CIn c.label [4]) (prev.flatMap MTree.conLabels) := by
  unfold compPrevent at h
  split at h
  · cases h
    exact ⟨rfl, KL.nil⟩
  · peel h with ons, h1
    peel h with t, h2
    simp only [except_pure, Except.ok.injEq] at h
    subst h
    unfold preventSimultaneous at h2
    split at h2
    · cases h2
    · split at h2
      · cases h2
        simp only [List.flatMap_cons, List.flatMap_nil, List.append_nil]
        rw [labels_node, conLabels_node]
        refine ⟨rfl, ckl [.plain "__PreventSimultaneousUsage_prevent_simultaneous_use"] ?_ (by simp) ?_⟩
        · simp [mkIneq, clabel, CT.pre, CT.suf, String.append_assoc]
        · intro t ht
          rw [List.mem_singleton] at ht
          subst ht
          exact ⟨occurs_plain (Or.inl hc) (by decide +kernel) (by decide +kernel), by decide +kernel⟩
      · cases h2

theorem comp_keys {sys : Sys} {c : CompData} {o : CompOut} (hc : c.Named) (h : compModel sys c = .ok o) :
    KL vlabel (VC c.label ((c.inputs ++ c.outputs).map (·.label)) [1]) o.tree.labels ∧
    KL clabel (CC c.label ((c.inputs ++ c.outputs).map (·.label)) [1, 4]) o.tree.conLabels := by
  have hmem := comp_flow_mem h
  have hlab := comp_treeLabels h
  obtain ⟨-, -, hon, prev, hp, hv, hcs, hsub, -⟩ := comp_inv h
  have hpw : o.flows.Pairwise fun p q => flowFull c.label p.1.label ≠ flowFull c.label q.1.label := by
    have := hc.distinct
    rw [← hlab, List.Nodup, List.pairwise_map] at this
    exact this.imp fun hne he => hne (flowFull_inj he)
  have hfl : ∀ p ∈ o.flows, p.1.label ∈ (c.inputs ++ c.outputs).map (·.label) := by
    intro p hp
    rw [← hlab]
    exact List.mem_map_of_mem hp
  have hk : ∀ p ∈ o.flows, KL vlabel (VIn (flowFull c.label p.1.label) [0, 1, 2, 6]) p.2.tree.labels ∧
      KL clabel (CIn (flowFull c.label p.1.label) [0, 1, 2, 6]) p.2.tree.conLabels := by
    intro p hp
    obtain ⟨f, hf, e1, e2⟩ := hmem p hp
    have := flow_keys (c := c.label) (f := fillOnOff c f) (o := p.2) hc.label (fill_named (hc.flows f hf)) (by rw [fillOnOff_label]; exact e2)
    rw [e1]
    exact this
  have kon : KL vlabel (VIn c.label [1]) ((o.on.map OnOffOut.tree).toList.flatMap MTree.labels) ∧
      KL clabel (CIn c.label [1]) ((o.on.map OnOffOut.tree).toList.flatMap MTree.conLabels) := by
    unfold compOnOff at hon
    cases hq : c.onOff with
    | none =>
      rw [hq] at hon
      rw [← Except.ok.inj hon]
      exact ⟨KL.nil, KL.nil⟩
    | some q =>
      rw [hq] at hon
      obtain ⟨oo, ho, ho'⟩ := map_ok.1 hon
      rw [← ho']
      have := onOff_keys (Or.inl hc.label) ho
      simpa using this
  obtain ⟨hp1, hp2⟩ := prevent_keys hc.label hp
  unfold CompOut.tree
  rw [labels_node, conLabels_node, hv, hcs, hsub]
  simp only [List.map_nil, List.nil_append, List.flatMap_append, hp1, List.append_nil, List.flatMap_map]
  constructor
  · refine KL.append (KL.flatMap (fun p hp => (hk p hp).1) ?_) kon.1 ?_ ?_ (fun k h => Or.inl h)
    · exact hpw.imp fun hne k h h' => hne (h.el.symm.trans h'.el)
    · rintro k ⟨p, _, hk⟩ hk'
      exact flowFull_ne _ _ (hk.el.symm.trans hk'.el)
    · rintro k ⟨p, hp, hk⟩
      exact Or.inr ⟨_, hfl p hp, hk⟩
  · refine KL.append (P := CC c.label ((c.inputs ++ c.outputs).map (·.label)) [1]) (KL.append (KL.flatMap (fun p hp => (hk p hp).2) ?_) kon.2 ?_ ?_ (fun k h => Or.inl h))
      hp2 (fun k h h' => h.apart h') (fun k h => h.mono) (fun k h => Or.inl h.mono)
    · exact hpw.imp fun hne k h h' => hne (h.el.symm.trans h'.el)
    · rintro k ⟨p, _, hk⟩ hk'
      exact flowFull_ne _ _ (hk.el.symm.trans hk'.el)
    · rintro k ⟨p, hp, hk⟩
      exact Or.inr ⟨_, hfl p hp, hk⟩

end Flix
