import Verif.Lemmas.Keys3

namespace Flix

theorem comp_rate {sys : Sys} {c : CompData} {o : CompOut} (h : compModel sys c = .ok o) :
    ∀ p ∈ o.flows, p.2.flowRate.label = flowFull c.label p.1.label ++ "_flow_rate" := by
  intro p hp
  obtain ⟨f, hf, e1, e2⟩ := comp_flow_mem h p hp
  rw [(flowRate_ok (flow_inv e2).1).1, e1, fillOnOff_label, String.append_assoc]
  rfl

theorem converter_keys {sys : Sys} {c : ConvData} {o : CompOut} (hc : c.comp.Named) (h : converterModel sys c = .ok o) :
    KL vlabel (VC c.comp.label ((c.comp.inputs ++ c.comp.outputs).map (·.label)) [1, 6]) o.tree.labels ∧
    KL clabel (CC c.comp.label ((c.comp.inputs ++ c.comp.outputs).map (·.label)) [1, 4, 8, 6]) o.tree.conLabels := by
  unfold converterModel at h
  peel h with o0, h0
  obtain ⟨k1, k2⟩ := comp_keys hc h0
  have hlab := comp_treeLabels h0
  have hel : IsFull c.comp.label := Or.inl hc.label
  obtain ⟨-, -, -, prev, -, hv, hcs, -, -⟩ := comp_inv h0
  unfold CompOut.tree at k1 k2
  rw [labels_node, hv, List.map_nil, List.nil_append] at k1
  rw [conLabels_node, hcs, List.map_nil, List.nil_append] at k2
  split at h
  · simp only [except_pure, Except.ok.injEq] at h
    subst h
    unfold CompOut.tree
    rw [labels_node, conLabels_node, hv, hcs]
    simp only [List.map_nil, List.nil_append]
    refine ⟨k1.mono fun k h => h.mono, ?_⟩
    refine KL.append (P := CIn c.comp.label [8]) ?_ k2 (fun k h h' => h'.apart h) (fun k h => Or.inl h.mono) (fun k h => h.mono)
    refine ckl ((List.range c.factors.length).map CT.conv) ?_ (List.Nodup.map (fun a b h => by cases h; rfl) List.nodup_range) ?_
    · apply List.ext_getElem
      · simp
      · intro i h1 h2
        simp [mkEq, clabel, CT.pre, CT.suf, String.append_assoc]
        rw [lit2 (by decide +kernel : "_" ++ "conversion_" = "_conversion_")]
    · intro t ht
      obtain ⟨i, _, rfl⟩ := List.mem_map.1 ht
      exact ⟨trivial, List.mem_singleton.2 rfl⟩
  · peel h with pts, h1
    peel h with tree, h2
    simp only [except_pure, Except.ok.injEq] at h
    subst h
    unfold CompOut.tree
    rw [labels_node, conLabels_node, hv, hcs]
    simp only [List.map_nil, List.nil_append, List.flatMap_append, List.flatMap_cons, List.flatMap_nil, List.append_nil]
    have hp : pts.map (fun q => q.1.label) = o0.flows.map fun p => flowFull c.comp.label p.1.label ++ "_flow_rate" := by
      unfold segmentPoints at h1
      rw [mapM_ok] at h1
      have hr := comp_rate h0
      revert hr h1
      generalize o0.flows = fl
      intro h1 hr
      clear h2
      induction h1 with
      | nil => rfl
      | @cons p q l l' hd _ ih =>
        rw [List.map_cons, List.map_cons, ih fun p hp => hr p (by simp [hp])]
        congr 1
        rw [← hr p (by simp)]
        split at hd
        · cases hd; rfl
        · cases hd
    have hm := multiple_keys hel h2 (by cases o0.on <;> simp) (((c.comp.inputs ++ c.comp.outputs).map (·.label)).map CT.lam) ?_
      (hc.distinct.map fun a b h => by cases h; rfl) ?_
    · refine ⟨KL.append k1 hm.1 (fun k h h' => h.apart h') (fun k h => h.mono) (fun k h => Or.inl h.mono),
        KL.append k2 hm.2 (fun k h h' => h.apart h') (fun k h => h.mono) (fun k h => Or.inl h.mono)⟩
    · have e : pts.map (fun q => c.comp.label ++ "__MultipleSegments_lambda_" ++ q.1.label) =
          (pts.map fun q => q.1.label).map (c.comp.label ++ "__MultipleSegments_lambda_" ++ ·) := by rw [List.map_map]; rfl
      rw [e, hp, ← hlab, List.map_map, List.map_map, List.map_map]
      refine List.map_congr_left fun p _ => ?_
      simp only [Function.comp, clabel, CT.pre, CT.suf, flowFull, String.append_assoc]
    · intro t ht
      obtain ⟨l, hl, rfl⟩ := List.mem_map.1 ht
      obtain ⟨f, hf, rfl⟩ := List.mem_map.1 hl
      exact ⟨⟨hc.label, (hc.flows f hf).label⟩, .lam _⟩

/-- The keys of constraints of a storage. -/
def storageKeys : List CT := [.plain "_netto_discharge", .plain "_charge_state", .init, .plain "_eq_final_charge_state_max", .plain "_eq_charge_state_end_min"]

theorem storage_inv_keys {sys : Sys} {s : StorageData} {o : StorageOut} (h : storageModel sys s = .ok o) :
    ∃ o0 c nd inv cCharge cIF, compModel sys s.comp = .ok o0 ∧ c.label = s.label ++ "_charge_state" ∧ nd.label = s.label ++ "_netto_discharge" ∧
      storageInvest sys s c = .ok inv ∧ chargeCon sys s c o.charge.flowRate o.discharge.flowRate = .ok cCharge ∧ initialFinalCons sys s c = .ok cIF ∧
      o.comp.vars = o0.vars ++ [c, nd] ∧
      o.comp.cons = o0.cons ++ [mkEq s.label "netto_discharge" [sAll nd (.s 1), sAll o.charge.flowRate (.s 1), sAll o.discharge.flowRate (.s (-1))], cCharge] ++ cIF ∧
      o.comp.subs = o0.subs ++ (inv.map InvestOut.tree).toList := by
  unfold storageModel at h
  peel h with o0, h0
  peel h with ab, hab
  obtain ⟨a, b⟩ := ab
  simp only at h
  peel h with c, hc
  peel h with nd, hnd
  peel h with cCharge, hcc
  peel h with inv, hinv
  peel h with cIF, hif
  simp only [except_pure, Except.ok.injEq] at h
  subst h
  refine ⟨o0, c, nd, inv, cCharge, cIF, h0, ?_, ?_, hinv, hcc, hif, rfl, rfl, rfl⟩
  · rw [(mkVar_ok hc).1]; show s.label ++ "_" ++ "charge_state" = _; rw [String.append_assoc]; rfl
  · rw [(mkVar_ok hnd).1]; show s.label ++ "_" ++ "netto_discharge" = _; rw [String.append_assoc]; rfl

theorem finalCons_keys {sys : Sys} {s : StorageData} {c : Var} :
    ∃ ts : List CT, ts.Sublist [.plain "_eq_final_charge_state_max", .plain "_eq_charge_state_end_min"] ∧
      (finalCons sys s c).map (·.label) = ts.map fun t => clabel (s.label, t) := by
  unfold finalCons
  cases s.maxFinal with
  | none =>
    cases s.minFinal with
    | none => exact ⟨[], List.nil_sublist _, rfl⟩
    | some m => exact ⟨[.plain "_eq_charge_state_end_min"], by decide +kernel, by simp [mkIneq, clabel, CT.pre, CT.suf, String.append_assoc]⟩
  | some a =>
    cases s.minFinal with
    | none => exact ⟨[.plain "_eq_final_charge_state_max"], by decide +kernel, by simp [mkIneq, clabel, CT.pre, CT.suf, String.append_assoc]⟩
    | some m => exact ⟨_, List.Sublist.refl _, by simp [mkIneq, clabel, CT.pre, CT.suf, String.append_assoc]⟩

theorem initFinal_keys {sys : Sys} {s : StorageData} {c : Var} {cs : List ConReq} (h : initialFinalCons sys s c = .ok cs) :
    ∃ ts : List CT, ts.Sublist [.init, .plain "_eq_final_charge_state_max", .plain "_eq_charge_state_end_min"] ∧ (.init ∈ ts → s.initial ≠ .none) ∧
      cs.map (·.label) = ts.map fun t => clabel (s.label, t) := by
  obtain ⟨ts, h1, h2⟩ := finalCons_keys (sys := sys) (s := s) (c := c)
  have hi : s.label ++ "_" ++ "initial_charge_state" = clabel (s.label, .init) := by
    simp [clabel, CT.pre, CT.suf, String.append_assoc]
  unfold initialFinalCons at h
  cases hq : s.initial with
  | none =>
    rw [hq] at h
    cases h
    exact ⟨[], List.nil_sublist _, by simp, rfl⟩
  | num x =>
    rw [hq] at h
    cases h
    exact ⟨.init :: ts, h1.cons_cons _, fun _ => by simp, by simp [mkEq, hi, h2]⟩
  | lastValueOfSim =>
    rw [hq] at h
    simp only at h
    split at h
    · cases h
    · cases h
      exact ⟨.init :: ts, h1.cons_cons _, fun _ => by simp, by simp [mkEq, hi, h2]⟩
  | other =>
    rw [hq] at h
    cases h

/-- A constraint of the initial charge state only belongs to a storage that has one. -/
def InitOk (s : StorageData) (k : String × CT) : Prop := k.1 = s.label → k.2 = .init → s.initial ≠ .none

theorem storage_keys {sys : Sys} {s : StorageData} {o : StorageOut} (hc : s.comp.Named) (hq : ∀ q, s.capacity = .invest q → q.SegNames)
    (h : storageModel sys s = .ok o) :
    KL vlabel (VC s.label ([s.charging, s.discharging].map (·.label)) [1, 3, 2, 6]) o.comp.tree.labels ∧
    KL clabel (fun k => CC s.label ([s.charging, s.discharging].map (·.label)) [1, 4, 3, 2, 6] k ∧ InitOk s k) o.comp.tree.conLabels := by
  obtain ⟨o0, c, nd, inv, cCharge, cIF, h0, hcl, hnl, hinv, hcc, hif, hvars, hcons, hsubs⟩ := storage_inv_keys h
  obtain ⟨k1, k2⟩ := comp_keys hc h0
  have hname : IsName s.label := hc.label
  have hel : IsFull s.label := Or.inl hname
  obtain ⟨-, -, -, prev, -, hv, hcs, -, -⟩ := comp_inv h0
  unfold CompOut.tree at k1 k2
  rw [labels_node, hv, List.map_nil, List.nil_append] at k1
  rw [conLabels_node, hcs, List.map_nil, List.nil_append] at k2
  change KL vlabel (VC s.label ([s.charging, s.discharging].map (·.label)) [1]) _ at k1
  change KL clabel (CC s.label ([s.charging, s.discharging].map (·.label)) [1, 4]) _ at k2
  have kinv : KL vlabel (VIn s.label [2, 6]) ((inv.map InvestOut.tree).toList.flatMap MTree.labels) ∧
      KL clabel (CIn s.label [2, 6]) ((inv.map InvestOut.tree).toList.flatMap MTree.conLabels) := by
    unfold storageInvest at hinv
    cases hcap : s.capacity with
    | num x =>
      rw [hcap] at hinv
      rw [← Except.ok.inj hinv]
      exact ⟨KL.nil, KL.nil⟩
    | invest q =>
      rw [hcap] at hinv
      obtain ⟨oo, ho, ho'⟩ := map_ok.1 hinv
      rw [← ho']
      have := invest_keys hel (hq q hcap) hcl (Or.inr rfl) ho
      simpa using this
  unfold CompOut.tree
  rw [labels_node, conLabels_node, hvars, hcons, hsubs, hv, hcs]
  simp only [List.nil_append, List.flatMap_append]
  constructor
  · refine KL.append (P := VIn s.label [3]) ?_ (KL.append k1 kinv.1 (R := VC s.label ([s.charging, s.discharging].map (·.label)) [1, 2, 6])
      (fun k h h' => h.apart h') (fun k h => h.mono) (fun k h => Or.inl h.mono)) (fun k h h' => h'.apart h) (fun k h => Or.inl h.mono) (fun k h => h.mono)
    refine vplain hel ["_charge_state", "_netto_discharge"] (List.Sublist.refl _) ?_ (by decide +kernel) (by decide +kernel)
    simp [hcl, hnl]
  · have hno : ∀ k, CC s.label ([s.charging, s.discharging].map (·.label)) [1, 4, 2, 6] k → InitOk s k := by
      intro k hk h1 h2
      exfalso
      rcases hk with hk | ⟨f, _, hk⟩
      · have := hk.cls
        rw [h2] at this
        simp [CT.cls] at this
      · exact flowFull_ne _ _ (hk.el.symm.trans h1)
    have kk := KL.append k2 kinv.2 (R := CC s.label ([s.charging, s.discharging].map (·.label)) [1, 4, 2, 6])
      (fun k h h' => h.apart h') (fun k h => h.mono) (fun k h => Or.inl h.mono)
    obtain ⟨ts, hts, hin, e⟩ := initFinal_keys hif
    have ho : ∀ t ∈ storageKeys, t.Occurs s.label ∧ t.cls ∈ [3] := by
      intro t ht
      simp only [storageKeys, List.mem_cons, List.not_mem_nil, or_false] at ht
      rcases ht with rfl | rfl | rfl | rfl | rfl
      · exact ⟨occurs_plain hel (by decide +kernel) (by decide +kernel), by decide +kernel⟩
      · exact ⟨⟨hel, by decide +kernel, fun _ => hname⟩, by decide +kernel⟩
      · exact ⟨hname, by decide +kernel⟩
      · exact ⟨occurs_plain hel (by decide +kernel) (by decide +kernel), by decide +kernel⟩
      · exact ⟨occurs_plain hel (by decide +kernel) (by decide +kernel), by decide +kernel⟩
    have hchl : cCharge.label = s.label ++ "_charge_state" := by
      unfold chargeCon at hcc
      peel hcc with a, ha
      peel hcc with b, hb
      peel hcc with d, hd
      peel hcc with f, hf
      simp only [except_pure, Except.ok.injEq] at hcc
      rw [← hcc]
      show s.label ++ "_" ++ "charge_state" = _
      rw [String.append_assoc]; rfl
    have hsub : ([CT.plain "_netto_discharge", .plain "_charge_state"] ++ ts).Sublist storageKeys := (List.Sublist.refl [CT.plain "_netto_discharge", .plain "_charge_state"]).append hts
    have kl : KL clabel (fun k => CIn s.label [3] k ∧ InitOk s k) (([mkEq s.label "netto_discharge" [sAll nd (.s 1), sAll o.charge.flowRate (.s 1),
        sAll o.discharge.flowRate (.s (-1))], cCharge] ++ cIF).map (·.label)) := by
      refine ⟨([CT.plain "_netto_discharge", .plain "_charge_state"] ++ ts).map fun t => (s.label, t), ?_, ?_, ?_⟩
      · rw [List.map_append, e, List.map_append, List.map_append, List.map_map]
        congr 1
        · simp [mkEq, clabel, CT.pre, CT.suf, String.append_assoc, hchl]
        · rw [List.map_map]; rfl
      · exact (hsub.nodup (by decide +kernel)).map fun a b h => (Prod.mk.inj h).2
      · intro k hk
        obtain ⟨t, ht, rfl⟩ := List.mem_map.1 hk
        have := ho t (hsub.subset ht)
        refine ⟨⟨rfl, this.1, this.2⟩, fun _ h2 => ?_⟩
        simp only at h2
        subst h2
        rcases List.mem_append.1 ht with h | h
        · simp at h
        · exact hin h
    refine KL.append kl kk (fun k h h' => h'.apart h.1) (fun k h => ⟨Or.inl h.1.mono, h.2⟩) (fun k h => ⟨h.mono, hno k h⟩)

/-! ## Transmissions -/

theorem Tfill_label (t : TransData) (f : FlowData) : (t.fill f).label = f.label := by
  unfold TransData.fill; cases t.absLosses <;> simp; split <;> rfl

theorem Tfill2_label (cfg : Cfg) (t : TransData) (f : FlowData) : (t.fillIn2 cfg f).label = f.label := by
  unfold TransData.fillIn2; split <;> rfl

theorem Tfill_named {t : TransData} {f : FlowData} (h : f.Named) : (t.fill f).Named := by
  unfold TransData.fill
  cases t.absLosses with
  | none => exact h
  | some a =>
    simp only
    split
    · exact ⟨h.label, h.invest⟩
    · exact h

theorem Tfill2_named {cfg : Cfg} {t : TransData} {f : FlowData} (h : f.Named) : (t.fillIn2 cfg f).Named := by
  unfold TransData.fillIn2
  split
  · exact h
  · refine ⟨h.label, fun q hq => ?_⟩
    cases hq
    intro xs es he
    cases he
  · exact h

theorem trans_keys {sys : Sys} {t : TransData} {o : TransOut} (hc : (t.comp sys.cfg).Named) (h : transmissionModel sys t = .ok o) :
    KL vlabel (VC t.label (((t.comp sys.cfg).inputs ++ (t.comp sys.cfg).outputs).map (·.label)) [1]) o.comp.tree.labels ∧
    KL clabel (CC t.label (((t.comp sys.cfg).inputs ++ (t.comp sys.cfg).outputs).map (·.label)) [1, 4, 9]) o.comp.tree.conLabels := by
  unfold transmissionModel at h
  peel h with o0, h0
  peel h with q, hq
  obtain ⟨i1, i2, o1, o2⟩ := q
  simp only at h
  peel h with c1, h1
  peel h with c2, h2
  simp only [except_pure, Except.ok.injEq] at h
  subst h
  obtain ⟨k1, k2⟩ := comp_keys hc h0
  have hel : IsFull t.label := Or.inl hc.label
  obtain ⟨-, -, -, prev, -, hv, hcs, -, -⟩ := comp_inv h0
  unfold CompOut.tree at k1 k2
  rw [labels_node, hv, List.map_nil, List.nil_append] at k1
  rw [conLabels_node, hcs, List.map_nil, List.nil_append] at k2
  unfold CompOut.tree
  rw [labels_node, conLabels_node, hv, hcs]
  simp only [List.map_nil, List.nil_append]
  refine ⟨k1, ?_⟩
  refine KL.append (P := CIn t.label [9]) ?_ k2 (fun k h h' => h'.apart h) (fun k h => Or.inl h.mono) (fun k h => h.mono)
  have hcon : ∀ {n : String} {a b : FlowOut} {c : ConReq}, transCon t n a b = .ok c → c.label = t.label ++ "_" ++ n := by
    intro n a b c hc
    unfold transCon at hc
    peel hc with x, hx
    simp only [except_pure, Except.ok.injEq] at hc
    rw [← hc]
    rfl
  have hsec : ∃ ss : List String, ss.Sublist ["_direction_2", "_equal_size_in_both_directions"] ∧ c2.map (·.label) = ss.map (t.label ++ ·) := by
    unfold transSecond at h2
    cases i2 with
    | none =>
      cases h2
      exact ⟨[], List.nil_sublist _, rfl⟩
    | some a =>
      cases o2 with
      | none => cases h2
      | some b =>
        simp only at h2
        peel h2 with c, hc2
        have hl := hcon hc2
        split at h2
        · split at h2
          · simp only [except_pure, Except.ok.injEq] at h2
            subst h2
            exact ⟨_, List.Sublist.refl _, by simp [mkEq, hl, String.append_assoc]⟩
          · cases h2
        · simp only [except_pure, Except.ok.injEq] at h2
          subst h2
          exact ⟨["_direction_2"], by decide +kernel, by simp [hl, String.append_assoc]⟩
  obtain ⟨ss, hss, e⟩ := hsec
  refine csub (["_direction_1", "_direction_2", "_equal_size_in_both_directions"].map CT.plain) (sub := ("_direction_1" :: ss).map CT.plain) ((hss.cons_cons _).map _) ?_
    (by decide +kernel) ?_
  · rw [List.map_append, e, List.map_map]
    simp [hcon h1, clabel, CT.pre, CT.suf, String.append_assoc]
  · intro u hu
    obtain ⟨s, hs, rfl⟩ := List.mem_map.1 hu
    have key : ∀ s ∈ ["_direction_1", "_direction_2", "_equal_size_in_both_directions"], s ∈ plainConSufs ∧ s ≠ "_charge_state" ∧ (CT.plain s).cls ∈ [9] := by decide +kernel
    obtain ⟨k1, k2, k3⟩ := key s hs
    exact ⟨occurs_plain hel k1 k2, k3⟩

end Flix
