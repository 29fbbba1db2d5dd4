import Verif.Lemmas.Keys4

namespace Flix

/-! ## Components of all kinds -/

/-- The names in a component of any kind. -/
structure Comp.Named (c : Comp) : Prop where
  label : IsName c.label
  flows : ∀ f ∈ c.flows, f.Named
  distinct : (c.flows.map (·.label)).Nodup
  capacity : ∀ s, c = .storage s → ∀ q, s.capacity = .invest q → q.SegNames

/-- Only storages have constraints of a charge state, and an initial one only if there is an initial charge state. -/
def StorOk (c : Comp) (k : String × CT) : Prop :=
  (k.2 = .plain "_charge_state" ∨ k.2 = .init) → k.1 = c.label ∧ ∃ s, c = .storage s ∧ (k.2 = .init → s.initial ≠ .none)

theorem storOk_of {c : Comp} {fl : List String} {cs : List Nat} {k : String × CT} (h : CC c.label fl cs k) (h3 : 3 ∉ cs) : StorOk c k := by
  intro hk
  have hcls : k.2.cls = 3 := by
    rcases hk with h | h <;> rw [h] <;> decide +kernel
  rcases h with h | ⟨f, _, h⟩
  · exact absurd (hcls ▸ h.cls) h3
  · have := h.cls
    rw [hcls] at this
    simp at this

theorem trans_labels (cfg : Cfg) (t : TransData) :
    ((t.comp cfg).inputs ++ (t.comp cfg).outputs).map (·.label) = (Comp.transmission t).flows.map (·.label) := by
  show (t.fill t.in1 :: (t.in2.map fun f => t.fillIn2 cfg (t.fill f)).toList ++ t.fill t.out1 :: (t.out2.map t.fill).toList).map (·.label) =
    ((t.in1 :: t.in2.toList) ++ t.out1 :: t.out2.toList).map (·.label)
  cases t.in2 <;> cases t.out2 <;> simp [Tfill_label, Tfill2_label]

theorem trans_named {cfg : Cfg} {t : TransData} (h : (Comp.transmission t).Named) : (t.comp cfg).Named := by
  have hf : ∀ f ∈ (t.in1 :: t.in2.toList) ++ t.out1 :: t.out2.toList, f.Named := h.flows
  refine ⟨h.label, ?_, by rw [trans_labels]; exact h.distinct⟩
  intro f hf'
  change f ∈ t.fill t.in1 :: (t.in2.map fun f => t.fillIn2 cfg (t.fill f)).toList ++ t.fill t.out1 :: (t.out2.map t.fill).toList at hf'
  simp only [List.mem_append, List.mem_cons, Option.mem_toList, Option.map_eq_some_iff] at hf' hf
  rcases hf' with (rfl | ⟨g, hg, rfl⟩) | rfl | ⟨g, hg, rfl⟩
  · exact Tfill_named (hf _ (Or.inl (Or.inl rfl)))
  · exact Tfill2_named (Tfill_named (hf _ (Or.inl (Or.inr hg))))
  · exact Tfill_named (hf _ (Or.inr (Or.inl rfl)))
  · exact Tfill_named (hf _ (Or.inr (Or.inr hg)))

theorem model_keys {sys : Sys} {c : Comp} {o : CompOut} (hc : c.Named) (h : c.model sys = .ok o) :
    KL vlabel (VC c.label (c.flows.map (·.label)) [1, 2, 3, 6]) o.tree.labels ∧
    KL clabel (fun k => CC c.label (c.flows.map (·.label)) [1, 2, 3, 4, 6, 8, 9] k ∧ StorOk c k) o.tree.conLabels := by
  cases c with
  | plain d =>
    obtain ⟨k1, k2⟩ := comp_keys (c := d) ⟨hc.label, hc.flows, hc.distinct⟩ h
    exact ⟨k1.mono fun k h => h.mono, k2.mono fun k h => ⟨h.mono, storOk_of (c := .plain d) h (by decide)⟩⟩
  | converter d =>
    obtain ⟨k1, k2⟩ := converter_keys (c := d) ⟨hc.label, hc.flows, hc.distinct⟩ h
    exact ⟨k1.mono fun k h => h.mono, k2.mono fun k h => ⟨h.mono, storOk_of (c := .converter d) h (by decide)⟩⟩
  | storage s =>
    obtain ⟨o', ho, rfl⟩ := map_ok.1 h
    obtain ⟨k1, k2⟩ := storage_keys (s := s) ⟨hc.label, hc.flows, hc.distinct⟩ (hc.capacity s rfl) ho
    refine ⟨k1.mono fun k h => h.mono, k2.mono fun k h => ⟨h.1.mono, fun hk => ?_⟩⟩
    have hcls : k.2.cls = 3 := by
      rcases hk with h | h <;> rw [h] <;> decide +kernel
    rcases h.1 with h' | ⟨f, _, h'⟩
    · exact ⟨h'.el, s, rfl, h.2 h'.el⟩
    · have := h'.cls
      rw [hcls] at this
      simp at this
  | transmission t =>
    obtain ⟨o', ho, rfl⟩ := map_ok.1 h
    obtain ⟨k1, k2⟩ := trans_keys (trans_named hc) ho
    rw [trans_labels] at k1 k2
    exact ⟨k1.mono fun k h => h.mono, k2.mono fun k h => ⟨h.mono, storOk_of (c := .transmission t) h (by decide)⟩⟩

/-! ## Buses -/

theorem bus_keys {sys : Sys} {b : BusData} {ins outs : List Var} {o : BusOut} (hb : IsName b.label) (h : busModel sys b ins outs = .ok o) :
    KL vlabel (VIn b.label [4]) o.tree.labels ∧ KL clabel (CIn b.label [5]) o.tree.conLabels := by
  have hel : IsFull b.label := Or.inl hb
  have hcon : ∀ {ls : List String}, ls = [b.label ++ "_" ++ "busBalance"] → KL clabel (CIn b.label [5]) ls := by
    intro ls hl
    refine ckl [.plain "_busBalance"] (by rw [hl]; simp [clabel, CT.pre, CT.suf, String.append_assoc]) (by simp) ?_
    intro t ht
    rw [List.mem_singleton] at ht
    subst ht
    exact ⟨occurs_plain hel (by decide +kernel) (by decide +kernel), by decide +kernel⟩
  unfold busModel at h
  simp only at h
  cases hp : b.excessPenalty with
  | none =>
    rw [hp] at h
    cases h
    simp only
    rw [labels_node, conLabels_node]
    exact ⟨KL.nil, hcon (by simp [mkEq])⟩
  | some pen =>
    rw [hp] at h
    simp only at h
    peel h with f, hf
    peel h with e1, h1
    peel h with e2, h2
    simp only [except_pure, Except.ok.injEq] at h
    subst h
    simp only
    rw [labels_node, conLabels_node]
    refine ⟨?_, hcon (by simp [mkEq])⟩
    refine vplain hel ["_excess_input", "_excess_output"] (List.Sublist.refl _) ?_ (by decide +kernel) (by decide +kernel)
    simp [(mkVar_ok h1).1, (mkVar_ok h2).1, String.append_assoc]

end Flix
