import Verif.Lemmas.FineParts

/-!
# Models without exceptions, part 3: transmissions, buses, all components
-/

namespace Flix

theorem keeps_on {c : CompData} {f : FlowData} (h : f.onOff ≠ none) : ∃ q, (fillOnOff c f).onOff = some q := by
  obtain ⟨q, hq⟩ := Option.ne_none_iff_exists'.1 h
  refine ⟨q, ?_⟩
  unfold fillOnOff
  rw [if_neg (by simp [hq])]
  exact hq

theorem Tfill_on {t : TransData} {f : FlowData} (h : f.onOff ≠ none) : (t.fill f).onOff ≠ none := by
  unfold TransData.fill
  cases t.absLosses with
  | none => exact h
  | some a =>
    simp only
    split
    · simp
    · exact h

theorem nonzero_any {n : Nat} {a : Num} (ha : a.Fits n) {k : Nat} (hk : k < n) (h : a.at k ≠ 0) : a.anyNonzero = true := by
  cases a with
  | s x => simpa [Num.anyNonzero, Num.at] using h
  | v xs =>
    have hl : xs.length = n := by
      rcases ha with h' | h'
      · simp [Num.isScalar] at h'
      · exact h'
    unfold Num.anyNonzero
    rw [List.any_eq_true]
    have hk' : k < xs.length := by omega
    rw [num_at_v hk'] at h
    exact ⟨xs[k], List.getElem_mem _, by simpa using h⟩

theorem Tfill2_on (cfg : Cfg) (t : TransData) (f : FlowData) : (t.fillIn2 cfg f).onOff = f.onOff := by
  unfold TransData.fillIn2
  split <;> rfl

theorem trans_good {sys : Sys} (hv : sys.Valid) (hn : 1 < sys.n) {t : TransData} (ht : t.Sane sys) :
    ∃ o, transmissionModel sys t = .ok o ∧ o.comp.tree.Fine := by
  obtain ⟨o, ho, hfine⟩ := comp_good hv hn (trans_comp_sensible ht)
  obtain ⟨g1, g2, _⟩ := comp_inv ho
  have hfn := fine_node.1 hfine
  -- inputs can be told on and off if there are absolute losses
  have hon : ∀ a, t.absLosses = some a → ∀ f, (f = t.in1 ∨ t.in2 = some f) → ∀ g, (g = t.fill f ∨ g = t.fillIn2 sys.cfg (t.fill f)) →
      ∃ q, (fillOnOff (t.comp sys.cfg) g).onOff = some q := by
    intro a ha f hf g hg
    rcases ht.abs a ha with ⟨k, hk, hk0⟩ | hc | hall
    · apply keeps_on
      have : (t.fill f).onOff ≠ none := by
        unfold TransData.fill
        rw [ha]
        simp only [nonzero_any (ht.fits.abs a ha) hk hk0, Bool.true_and]
        split
        · simp
        · rename_i h; intro e; rw [e] at h; simp at h
      rcases hg with rfl | rfl
      · exact this
      · rw [Tfill2_on]; exact this
    · exact fillOnOff_onOff _ _ (Or.inl hc)
    · apply keeps_on
      have hm : f ∈ t.in1 :: t.in2.toList := by
        rcases hf with rfl | hf
        · simp
        · simp [hf]
      have := Tfill_on (t := t) (hall f hm)
      rcases hg with rfl | rfl
      · exact this
      · rw [Tfill2_on]; exact this
  have heff : t.efficiency.Fits sys.n := by
    unfold TransData.efficiency
    cases hr : t.relLosses with
    | none => exact fits_s _ _
    | some r => simpa using ht.fits.rel r hr
  have hcon : ∀ (name : String) (i o : FlowOut), i.flowRate.length = sys.n → o.flowRate.length = sys.n →
      (∀ a, t.absLosses = some a → ∃ b, i.onOff = some b ∧ b.on.isBinary = true ∧ b.on.length = sys.n) → ∃ c, transCon t name i o = .ok c ∧ c.Fine := by
    intro name i o li lo hb
    unfold transCon absLossOps
    have base : ∀ extra : List Op, (∀ op ∈ extra, op.Good sys.n) →
        (mkEq t.label name ([sAll i.flowRate t.efficiency, sAll o.flowRate (.s (-1))] ++ extra)).Fine := by
      intro extra hex
      refine con_fine sys.n fun op hop => ?_
      simp only [mkEq, List.mem_append, List.mem_cons, List.not_mem_nil, or_false] at hop
      rcases hop with (rfl | rfl) | hop
      · exact good_sAll li heff
      · exact good_sAll lo (by simp)
      · exact hex op hop
    cases ha : t.absLosses with
    | none => exact ⟨_, rfl, base [] (by simp)⟩
    | some a =>
      obtain ⟨b, hb1, _, hb3⟩ := hb a ha
      simp only [FlowOut.onVar, hb1, ok_bind]
      refine ⟨_, rfl, base _ fun op hop => ?_⟩
      rw [List.mem_singleton.1 hop]
      exact good_sAll hb3 (by simpa using ht.fits.abs a ha)
  have hlen : ∀ {el : String} {f : FlowData} {q : FlowOut}, flowModel sys el f = .ok q → q.flowRate.length = sys.n :=
    fun h => (flowRate_ok (flow_inv h).1).2.1
  obtain ⟨q1, ins, r1, t1, i1⟩ := List.forall₂_cons_left_iff.1
    (show List.Forall₂ _ (t.fill t.in1 :: (t.in2.map fun f => t.fillIn2 sys.cfg (t.fill f)).toList) o.inputs from g1)
  obtain ⟨q2, outs, r2, t2, i2⟩ := List.forall₂_cons_left_iff.1
    (show List.Forall₂ _ (t.fill t.out1 :: (t.out2.map t.fill).toList) o.outputs from g2)
  have e1 : transFlows o = .ok (q1.2, ins.head?.map (·.2), q2.2, outs.head?.map (·.2)) := by
    unfold transFlows
    rw [i1, i2]
  obtain ⟨c1, e2, f2⟩ := hcon "direction_1" q1.2 q2.2 (hlen r1.2) (hlen r2.2) (by
    intro a ha
    obtain ⟨q, hq⟩ := hon a ha t.in1 (Or.inl rfl) _ (Or.inl rfl)
    exact flow_has_on r1.2 hq)
  obtain ⟨c2, e3, f3⟩ : ∃ c2, transSecond t q1.2 (ins.head?.map (·.2)) (outs.head?.map (·.2)) = .ok c2 ∧ ∀ r ∈ c2, r.Fine := by
    cases h2 : t.in2 with
    | none =>
      rw [h2] at t1
      have : ins = [] := List.forall₂_nil_left_iff.1 t1
      rw [this]
      exact ⟨[], rfl, by simp⟩
    | some fi =>
      obtain ⟨fo, ho2⟩ := Option.ne_none_iff_exists'.1 (ht.both (by rw [h2]; simp))
      rw [h2] at t1
      rw [ho2] at t2
      obtain ⟨q3, ins', r3, _, i3⟩ := List.forall₂_cons_left_iff.1 (show List.Forall₂ _ [t.fillIn2 sys.cfg (t.fill fi)] ins from t1)
      obtain ⟨q4, outs', r4, _, i4⟩ := List.forall₂_cons_left_iff.1 (show List.Forall₂ _ [t.fill fo] outs from t2)
      rw [i3, i4]
      obtain ⟨c, hc, hf⟩ := hcon "direction_2" q3.2 q4.2 (hlen r3.2) (hlen r4.2) (by
        intro a ha
        obtain ⟨q, hq⟩ := hon a ha fi (Or.inr h2) _ (Or.inr rfl)
        exact flow_has_on r3.2 hq)
      unfold transSecond
      simp only [List.head?_cons, Option.map_some, hc, ok_bind]
      cases hs : t.in1.size with
      | unset => exact ⟨_, rfl, by simpa using hf⟩
      | num x => exact ⟨_, rfl, by simpa using hf⟩
      | invest q =>
        have s1 : (fillOnOff (t.comp sys.cfg) (t.fill t.in1)).size = .invest q := by rw [(fillOnOff_size _ _).1, (fill_size _ _).1, hs]
        obtain ⟨a, ha, ham⟩ := flow_has_invest r1.2 s1
        have s2 : ∃ q', (fillOnOff (t.comp sys.cfg) (t.fillIn2 sys.cfg (t.fill fi))).size = .invest q' := by
          rw [(fillOnOff_size _ _).1]
          unfold TransData.fillIn2
          rw [hs]
          cases hs2 : (t.fill fi).size with
          | unset => exact ⟨_, rfl⟩
          | num x => exact ⟨_, rfl⟩
          | invest q' => exact ⟨q', hs2⟩
        obtain ⟨q', s2⟩ := s2
        obtain ⟨b, hb, hbm⟩ := flow_has_invest r3.2 s2
        simp only [ha, hb]
        refine ⟨_, rfl, fun r hr => ?_⟩
        simp only [List.mem_cons, List.not_mem_nil, or_false] at hr
        rcases hr with rfl | rfl
        · exact hf
        · have la := (sizeVar_iff (invest_inv ham).choose_spec.choose_spec.choose_spec.choose_spec.1).2.1
          have lb := (sizeVar_iff (invest_inv hbm).choose_spec.choose_spec.choose_spec.choose_spec.1).2.1
          refine con_fine 1 fun op hop => ?_
          simp only [mkEq, List.mem_cons, List.not_mem_nil, or_false] at hop
          rcases hop with rfl | rfl
          · exact good_sAll1 la (by simp)
          · exact good_sAll1 lb (by simp)
  unfold transmissionModel
  simp only [ho, ok_bind, e1, e2, e3]
  refine ⟨_, rfl, fine_node.2 ⟨hfn.1, fun r hr => ?_, hfn.2.2⟩⟩
  simp only [List.mem_append, List.mem_singleton] at hr
  rcases hr with (hr | rfl) | hr
  · exact hfn.2.1 r hr
  · exact f2
  · exact f3 r hr

/-- A component of any kind. -/
theorem model_good {sys : Sys} (hv : sys.Valid) (hn : 1 < sys.n) {c : Comp} (hc : c.Sane sys) : ∃ o, c.model sys = .ok o ∧ o.tree.Fine := by
  cases c with
  | plain c => exact comp_good hv hn hc
  | converter c => exact converter_good hv hn hc
  | storage s =>
    obtain ⟨o, ho, hf⟩ := storage_good hv hn hc
    exact ⟨o.comp, map_ok.2 ⟨o, ho, rfl⟩, hf⟩
  | transmission t =>
    obtain ⟨o, ho, hf⟩ := trans_good hv hn hc
    exact ⟨o.comp, map_ok.2 ⟨o, ho, rfl⟩, hf⟩

theorem bus_good {sys : Sys} (hv : sys.Valid) {b : BusData} {ins outs : List Var} (hb : ∀ pen, b.excessPenalty = some pen → pen.Fits sys.n)
    (hin : ∀ x ∈ ins, x.length = sys.n) (hout : ∀ x ∈ outs, x.length = sys.n) : ∃ o, busModel sys b ins outs = .ok o ∧ o.tree.Fine := by
  have hops : ∀ op ∈ ins.map (fun x => sAll x (.s 1)) ++ outs.map (fun x => sAll x (.s (-1))), op.Good sys.n := by
    intro op hop
    rw [List.mem_append, List.mem_map, List.mem_map] at hop
    rcases hop with ⟨x, hx, rfl⟩ | ⟨x, hx, rfl⟩
    · exact good_sAll (hin x hx) (by simp)
    · exact good_sAll (hout x hx) (by simp)
  unfold busModel
  cases hp : b.excessPenalty with
  | none =>
    refine ⟨_, rfl, fine_node.2 ⟨by simp, fun r hr => ?_, by simp⟩⟩
    rw [List.mem_singleton.1 hr]
    exact con_fine sys.n hops
  | some pen =>
    obtain ⟨f, hf, _⟩ := mul_good (dt_fits hv) (hb pen hp)
    simp only [hf, ok_bind, mkVar_free]
    refine ⟨_, rfl, fine_node.2 ⟨fun x hx => ?_, fun r hr => ?_, by simp⟩⟩
    · simp only [List.mem_cons, List.not_mem_nil, or_false] at hx
      rcases hx with rfl | rfl <;> exact var_fine (fitsBound_none _) (fitsBound_of (by simp)) (fitsBound_none _)
    · rw [List.mem_singleton.1 hr]
      refine con_fine sys.n fun op hop => ?_
      simp only [mkEq, List.mem_append, List.mem_cons, List.not_mem_nil, or_false] at hop
      rcases hop with hop | rfl | rfl
      · exact hops op (by simpa using hop)
      · exact good_sAll rfl (by simp)
      · exact good_sAll rfl (by simp)

end Flix
