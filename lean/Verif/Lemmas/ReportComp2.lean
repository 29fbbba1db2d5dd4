import Verif.Lemmas.ReportComp
import Verif.Spec.Report

/-!
# Nested results: the labels fit the models of components
-/

namespace Flix

theorem isName_ne_self {l : String} (h : IsName l) : l ≠ "_self" := by
  rintro rfl
  have := h.valid
  revert this
  decide +kernel

theorem comp_goods {sys : Sys} {c : CompData} {o : CompOut} (h : compModel sys c = .ok o) (hl : ∀ t ∈ o.subs, t.labels.Nodup) :
    List.Forall₂ Good (c.shapes sys.cfg) o.subs ∧ ((c.shapes sys.cfg).map NShape.key).Sublist
      ((c.inputs ++ c.outputs).map (·.label) ++ ["OnOff", "PreventSimultaneousUsage"]) := by
  obtain ⟨h1, h2, h3, prev, h4, -, -, h5, -⟩ := comp_inv h
  rw [h5] at hl ⊢
  unfold CompData.shapes
  refine ⟨?_, ?_⟩
  · refine List.rel_append (List.rel_append ?_ ?_) ?_
    · have hf : List.Forall₂ (fun f q => q.1 = fillOnOff c f ∧ flowModel sys (flowFull c.label f.label) (fillOnOff c f) = .ok q.2)
          (c.inputs ++ c.outputs) o.flows := List.rel_append h1 h2
      have hl' : ∀ q ∈ o.flows, q.2.tree.labels.Nodup := fun q hq => hl _ (by
        simp only [List.mem_append, List.mem_map]
        exact Or.inl (Or.inl ⟨q, hq, rfl⟩))
      clear hl h5 h4 h3 h2 h1
      generalize c.inputs ++ c.outputs = fs at hf ⊢
      generalize o.flows = qs at hf hl' ⊢
      induction hf with
      | nil => exact .nil
      | @cons f q fs qs hq _ ih =>
        refine .cons ?_ (ih fun q' hq' => hl' q' (List.mem_cons_of_mem _ hq'))
        refine good_flow ?_ (hl' q List.mem_cons_self)
        rw [fillOnOff_label]
        exact hq.2
    · unfold compOnOff at h3
      cases hq : c.onOff with
      | none =>
        simp only [hq, Except.ok.injEq] at h3
        rw [← h3]
        exact .nil
      | some q =>
        simp only [hq] at h3
        obtain ⟨oo, ho, ho'⟩ := map_ok.1 h3
        rw [← ho']
        exact .cons (good_onOff ho (hl _ (by simp [← ho']))) .nil
    · unfold compPrevent at h4
      split at h4
      · rename_i hp
        simp only [Except.ok.injEq] at h4
        rw [if_pos hp, ← h4]
        exact .nil
      · rename_i hp
        rw [if_neg hp]
        peel h4 with ons, ho
        peel h4 with t, ht
        simp only [except_pure, Except.ok.injEq] at h4
        subst h4
        refine .cons ?_ .nil
        unfold preventSimultaneous at ht
        split at ht
        · simp at ht
        · split at ht
          · simp only [Except.ok.injEq] at ht
            subst ht
            exact good_leaf (by simp) (by simp)
          · simp at ht
  · rw [List.map_append, List.map_append, List.append_assoc]
    refine List.Sublist.append ?_ ?_
    · rw [List.map_map]
      refine List.Sublist.trans (List.Sublist.refl _) (Eq.subst (motive := fun l => List.Sublist _ l) (List.map_congr_left fun f _ => ?_) (List.Sublist.refl _))
      simp [flowShape, NShape.key, fillOnOff_label]
    · refine List.Sublist.append (l₂ := ["OnOff"]) (r₂ := ["PreventSimultaneousUsage"]) ?_ ?_
      · cases c.onOff with
        | none => simp
        | some _ => exact List.Sublist.refl _
      · split
        · simp
        · exact List.Sublist.refl _

/-- The labels fit the model of a component. -/
theorem good_comp {sys : Sys} {c : Comp} {o : CompOut} (h : c.model sys = .ok o) (hn : ∀ f ∈ c.flows, IsName f.label)
    (hd : (c.flows.map (·.label)).Nodup) (hr : ∀ f ∈ c.flows, f.label ∉ reservedLabels) (hl : o.tree.labels.Nodup) :
    Good (c.shape sys.cfg) o.tree := by
  have hr' : ∀ l ∈ c.flows.map (·.label), l ∉ "_self" :: reservedLabels := by
    intro l hl
    obtain ⟨f, hf, rfl⟩ := List.mem_map.1 hl
    rw [List.mem_cons]
    rintro (e | e)
    · exact isName_ne_self (hn f hf) e
    · exact hr f hf e
  have hnodup : ∀ {ks ext : List String} {S : List String}, ks.Sublist (c.flows.map (·.label) ++ S) → (S ++ ext).Nodup → (S ++ ext) ⊆ reservedLabels →
      ("_self" :: (ks ++ ext)).Nodup := by
    intro ks ext S h1 h2 h3
    refine List.Nodup.sublist ((h1.append (List.Sublist.refl ext)).cons_cons "_self") ?_
    rw [List.append_assoc, List.nodup_cons]
    refine ⟨?_, List.nodup_append.2 ⟨hd, h2, ?_⟩⟩
    · intro hm
      rcases List.mem_append.1 hm with hm | hm
      · exact hr' _ hm (by simp)
      · exact absurd (h3 hm) (by decide +kernel)
    · rintro a ha b hb rfl
      exact hr' a ha (List.mem_cons_of_mem _ (h3 hb))
  unfold CompOut.tree at hl ⊢
  cases c with
  | plain d =>
    obtain ⟨g, hk⟩ := comp_goods (c := d) h fun t ht => sub_labels hl ht
    obtain ⟨-, -, -, -, -, hv, -, -, -⟩ := comp_inv (c := d) h
    rw [hv] at hl ⊢
    refine good_model (by simp) (by simp) ?_ g
    have := hnodup (ext := []) (S := ["OnOff", "PreventSimultaneousUsage"]) hk (by decide +kernel) (by decide +kernel)
    rwa [List.append_nil] at this
  | converter d =>
    simp only [Comp.model] at h
    unfold converterModel at h
    peel h with o0, h0
    obtain ⟨-, -, -, -, -, hv, -, -, -⟩ := comp_inv h0
    unfold Comp.shape
    split at h
    · rename_i hne
      simp only [except_pure, Except.ok.injEq] at h
      subst h
      simp only at hl ⊢
      obtain ⟨g, hk⟩ := comp_goods h0 fun t ht => sub_labels hl ht
      rw [hv]
      rw [if_neg (by simpa using hne), List.append_nil]
      refine good_model (by simp) (by simp) ?_ g
      have := hnodup (ext := []) (S := ["OnOff", "PreventSimultaneousUsage"]) hk (by decide +kernel) (by decide +kernel)
      rwa [List.append_nil] at this
    · rename_i hne
      peel h with pts, h1
      peel h with tree, h2
      simp only [except_pure, Except.ok.injEq] at h
      subst h
      simp only at hl ⊢
      obtain ⟨g, hk⟩ := comp_goods h0 fun t ht => sub_labels hl (List.mem_append_left _ ht)
      rw [hv]
      rw [if_pos (by simpa using hne)]
      refine good_model (by simp) (by simp) ?_
        (List.rel_append g (.cons (good_segments h2 (sub_labels hl (List.mem_append_right _ (by simp)))) .nil))
      rw [List.map_append]
      exact hnodup (ext := ["MultipleSegments"]) (S := ["OnOff", "PreventSimultaneousUsage"]) hk (by decide +kernel) (by decide +kernel)
  | storage st =>
    simp only [Comp.model] at h
    obtain ⟨so, hs, rfl⟩ := map_ok.1 h
    obtain ⟨o0, cs, nd, inv, cCharge, cIF, h0, e1, e2, hinv, -, -, hv, -, hsub⟩ := storage_inv_keys hs
    obtain ⟨-, -, -, -, -, hv0, -, -, -⟩ := comp_inv h0
    rw [hv, hv0, List.nil_append, hsub] at hl
    rw [hv, hv0, List.nil_append, hsub]
    obtain ⟨g, hk⟩ := comp_goods h0 fun t ht => sub_labels hl (List.mem_append_left _ ht)
    unfold Comp.shape
    have g2 : List.Forall₂ Good (match st.capacity with | .invest q => [investShape st.label q] | .num _ => []) (inv.map InvestOut.tree).toList := by
      unfold storageInvest at hinv
      cases hc : st.capacity with
      | num x =>
        simp only [hc, Except.ok.injEq] at hinv
        rw [← hinv]
        exact .nil
      | invest q =>
        simp only [hc] at hinv
        obtain ⟨i, hi, hi'⟩ := map_ok.1 hinv
        rw [← hi']
        exact .cons (good_invest hi (sub_labels hl (by simp [← hi']))) .nil
    have hk2 : ((match st.capacity with | .invest q => [investShape st.label q] | .num _ => ([] : List NShape)).map NShape.key).Sublist ["Investment"] := by
      cases st.capacity with
      | num x => simp
      | invest q => exact List.Sublist.refl _
    have hall := hnodup (ext := ["Investment"]) (S := ["OnOff", "PreventSimultaneousUsage"]) hk (by decide +kernel) (by decide +kernel)
    refine good_model (fun x hx => ?_) (own_labels hl) ?_ (List.rel_append g g2)
    · have hnot : ∀ s ∈ ["charge_state", "netto_discharge"],
          s ∉ (st.comp.shapes sys.cfg ++ (match st.capacity with | .invest q => [investShape st.label q] | .num _ => [])).map NShape.key := by
        intro s hs hm
        rw [List.map_append] at hm
        have hm' := (hk.append hk2).subset hm
        rw [List.append_assoc] at hm'
        rcases List.mem_append.1 hm' with hm' | hm'
        · refine hr' s hm' (List.mem_cons_of_mem _ ?_)
          exact (show ["charge_state", "netto_discharge"] ⊆ reservedLabels by decide +kernel) hs
        · exact (show ∀ s ∈ ["charge_state", "netto_discharge"], s ∉ ["OnOff", "PreventSimultaneousUsage"] ++ ["Investment"] by decide +kernel) s hs hm'
      simp only [List.mem_cons, List.not_mem_nil, or_false] at hx
      rcases hx with rfl | rfl
      · exact ⟨"charge_state", by rw [e1, String.append_assoc]; rfl, hnot _ (by simp)⟩
      · exact ⟨"netto_discharge", by rw [e2, String.append_assoc]; rfl, hnot _ (by simp)⟩
    · rw [List.map_append]
      exact ((((List.Sublist.refl _).append hk2).cons_cons "_self")).nodup hall
  | transmission t =>
    simp only [Comp.model] at h
    obtain ⟨tr, ht, rfl⟩ := map_ok.1 h
    unfold transmissionModel at ht
    peel ht with o0, h0
    peel ht with q, hq
    obtain ⟨i1, i2, o1, o2⟩ := q
    simp only at ht
    peel ht with c1, h1
    peel ht with c2, h2
    simp only [except_pure, Except.ok.injEq] at ht
    subst ht
    obtain ⟨-, -, -, -, -, hv, -, -, -⟩ := comp_inv h0
    simp only at hl ⊢
    obtain ⟨g, hk⟩ := comp_goods h0 fun t ht => sub_labels hl ht
    rw [hv]
    refine good_model (by simp) (by simp) ?_ g
    rw [trans_labels] at hk
    have := hnodup (ext := []) (S := ["OnOff", "PreventSimultaneousUsage"]) hk (by decide +kernel) (by decide +kernel)
    rwa [List.append_nil] at this

theorem good_bus {sys : Sys} {b : BusData} {i o : List Var} {r : BusOut} (h : busModel sys b i o = .ok r) (hl : r.tree.labels.Nodup) :
    Good b.shape r.tree := by
  unfold busModel at h
  simp only at h
  cases hp : b.excessPenalty with
  | none =>
    simp only [hp, Except.ok.injEq] at h
    subst h
    exact good_leaf (by simp) (by simp)
  | some pen =>
    simp only [hp] at h
    peel h with f, hf
    peel h with ein, h1
    peel h with eout, h2
    simp only [except_pure, Except.ok.injEq] at h
    subst h
    refine good_leaf (fun x hx => ?_) (own_labels hl)
    simp only [List.mem_cons, List.not_mem_nil, or_false] at hx
    rcases hx with rfl | rfl
    · exact ⟨_, by rw [(mkVar_ok h1).1]⟩
    · exact ⟨_, by rw [(mkVar_ok h2).1]⟩

end Flix
