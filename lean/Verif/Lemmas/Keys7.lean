import Verif.Lemmas.Keys6
import Verif.Lemmas.FineColl

namespace Flix

/-! ## Names of shares -/

theorem KL.filter {es : List EffectData} {P : CallKey → Prop} {calls : List ShareCall} (h : KL callName P (calls.map (callSig es))) (t : Target) (l : String) :
    KL VT.name (fun v => P (t, l, v)) ((calls.filter fun c => decide (c.target = t ∧ c.labelIn es = l)).map (·.name)) := by
  obtain ⟨ks, h1, h2, h3⟩ := h
  refine ⟨(ks.filter fun k => decide (k.1 = t ∧ k.2.1 = l)).map (·.2.2), ?_, ?_, ?_⟩
  · clear h2 h3
    induction calls generalizing ks with
    | nil =>
      cases ks with
      | nil => rfl
      | cons k ks => cases h1
    | cons c cs ih =>
      cases ks with
      | nil => cases h1
      | cons k ks =>
        rw [List.map_cons, List.map_cons, List.cons.injEq] at h1
        obtain ⟨hk, h1⟩ := h1
        have e := ih ks h1
        unfold callSig callName at hk
        obtain ⟨e1, e2⟩ := Prod.mk.inj hk
        obtain ⟨e2, e3⟩ := Prod.mk.inj e2
        simp only [List.filter_cons, e1, e2]
        split
        · rw [List.map_cons, e, e3, List.map_cons, List.map_cons]
        · exact e
  · rw [List.Nodup, List.pairwise_map]
    refine List.Pairwise.imp_of_mem ?_ (h2.filter _)
    intro a b ha hb hne he
    have ha' := of_decide_eq_true (List.mem_filter.1 ha).2
    have hb' := of_decide_eq_true (List.mem_filter.1 hb).2
    exact hne (Prod.ext (ha'.1.trans hb'.1.symm) (Prod.ext (ha'.2.trans hb'.2.symm) he))
  · intro v hv
    obtain ⟨k, hk, rfl⟩ := List.mem_map.1 hv
    have hk' := of_decide_eq_true (List.mem_filter.1 hk).2
    have := h3 k (List.mem_filter.1 hk).1
    rw [← hk'.1, ← hk'.2]
    exact this

/-- The shares of an effect with some ends of the name. -/
structure NameOk (el : String) (sufs : List String) (v : VT) : Prop where
  occurs : v.Occurs el
  kind : v.kind = 3 ∨ v.kind = 4
  suf : v.suf ∈ sufs

theorem vlabel_name {el : String} {v : VT} (h : v.kind = 3 ∨ v.kind = 4 ∨ v.kind = 6) : vlabel (el, v) = shareLabel el v.name := by
  cases v with
  | share src s => simp only [vlabel, VT.pre, VT.suf, VT.name, shareLabel, String.append_assoc]
  | other o s => simp only [vlabel, VT.pre, VT.suf, VT.name, shareLabel, String.append_assoc]
  | pen b s => simp only [vlabel, VT.pre, VT.suf, VT.name, shareLabel, String.append_assoc]
  | _ => simp [VT.kind] at h

structure VF (el : String) (c : Nat) (sufs : List String) (k : String × VT) : Prop where
  vin : VIn el [c] k
  suf : k.2.suf ∈ sufs

structure CF (el : String) (c : Nat) (sufs : List String) (k : String × CT) : Prop where
  cin : CIn el [c] k
  suf : k.2.suf ∈ sufs

theorem clabel_share (el : String) (v : VT) : clabel (el, .share v) = vlabel (el, v) ++ "_" ++ vlabel (el, v) := by
  simp only [clabel, CT.pre, CT.suf, vlabel, String.append_assoc]

theorem KL.shares {el : String} {sufs ns : List String} (h : KL VT.name (NameOk el sufs) ns) :
    KL vlabel (VF el 7 sufs) (ns.map (shareLabel el)) ∧ KL clabel (CF el 17 sufs) (ns.map fun n => shareLabel el n ++ "_" ++ shareLabel el n) := by
  obtain ⟨vs, rfl, h2, h3⟩ := h
  have hcls : ∀ v ∈ vs, v.cls = 7 := by
    intro v hv
    have := (h3 v hv).kind
    cases v <;> simp [VT.kind] at this <;> rfl
  have hk : ∀ v ∈ vs, shareLabel el v.name = vlabel (el, v) := fun v hv => (vlabel_name ((h3 v hv).kind.imp id Or.inl)).symm
  constructor
  · refine ⟨vs.map fun v => (el, v), ?_, h2.map fun a b h => (Prod.mk.inj h).2, ?_⟩
    · rw [List.map_map, List.map_map]
      exact List.map_congr_left hk
    · intro k hk
      obtain ⟨v, hv, rfl⟩ := List.mem_map.1 hk
      exact ⟨⟨rfl, (h3 v hv).occurs, by simp [hcls v hv]⟩, (h3 v hv).suf⟩
  · refine ⟨vs.map fun v => (el, .share v), ?_, h2.map fun a b h => CT.share.inj (Prod.mk.inj h).2, ?_⟩
    · rw [List.map_map, List.map_map]
      refine List.map_congr_left fun v hv => ?_
      simp only [Function.comp]
      rw [hk v hv, clabel_share]
    · intro k hk
      obtain ⟨v, hv, rfl⟩ := List.mem_map.1 hk
      refine ⟨⟨rfl, ⟨(h3 v hv).occurs, ?_⟩, by simp [CT.cls, hcls v hv]⟩, (h3 v hv).suf⟩
      rcases (h3 v hv).kind with h | h <;> simp [h]

theorem VF.apart {el : String} {c c' : Nat} {sufs sufs' : List String} {k : String × VT} (h : VF el c sufs k) (h' : VF el c' sufs' k)
    (hs : c ≠ c' ∨ ∀ s ∈ sufs, s ∉ sufs' := by decide +kernel) : False := by
  rcases hs with hs | hs
  · exact hs (by have := h.vin.cls; have := h'.vin.cls; simp_all)
  · exact hs _ h.suf h'.suf

theorem CF.apart {el : String} {c c' : Nat} {sufs sufs' : List String} {k : String × CT} (h : CF el c sufs k) (h' : CF el c' sufs' k)
    (hs : c ≠ c' ∨ ∀ s ∈ sufs, s ∉ sufs' := by decide +kernel) : False := by
  rcases hs with hs | hs
  · exact hs (by have := h.cin.cls; have := h'.cin.cls; simp_all)
  · exact hs _ h.suf h'.suf

/-! ## Effects -/

theorem singleShare_conLabels {el : String} {c : Share} {r : Var × MTree} (h : singleShare el c = .ok r) :
    r.2.conLabels = [shareLabel el c.name ++ "_" ++ shareLabel el c.name] := by
  unfold singleShare at h
  peel h with s, hs
  simp only [except_pure, Except.ok.injEq] at h
  subst h
  rw [conLabels_node]
  simp [mkEq, shareLabel]

theorem samTree_conLabels {d : SamData} {vs : SamVars} {calls : List Share} {tree : MTree} (h : samTree d vs calls = .ok tree) :
    tree.conLabels = (d.el ++ "__" ++ d.label ++ "_" ++ (d.label ++ "_sum")) ::
      (vs.sumTS.map fun _ => d.el ++ "__" ++ d.label ++ "_" ++ (d.label ++ "_time_series")).toList ++
      calls.map fun c => shareLabel d.el c.name ++ "_" ++ shareLabel d.el c.name := by
  unfold samTree at h
  simp only at h
  peel h with shares, hsh
  have hl : (shares.map (·.2.2)).flatMap MTree.conLabels = calls.map fun c => shareLabel d.el c.name ++ "_" ++ shareLabel d.el c.name := by
    rw [mapM_ok] at hsh
    clear h
    induction hsh with
    | nil => rfl
    | cons hc _ ih =>
      peel hc with r, hr
      simp only [except_pure, Except.ok.injEq] at hc
      subst hc
      simp [singleShare_conLabels hr, ih]
  split at h
  · cases h
  · split at h
    · rename_i hts
      cases h
      rw [conLabels_node, hl, hts]
      simp [mkEq]
    · rename_i hts
      cases h
      rw [conLabels_node, hl, hts]
      simp [mkEq]

theorem effectTree_conLabels {sys : Sys} {e : EffectData} {ev : EffectVars} (hs : EvShape sys e ev) {cs : List Addressed} {t : MTree} (h : effectTree cs ev = .ok t) :
    t.conLabels = (e.label ++ "__invest_invest_sum") :: ((sharesFor .invest e.label cs).map fun c => shareLabel e.label c.name ++ "_" ++ shareLabel e.label c.name) ++
      ((e.label ++ "__operation_operation_sum") :: (e.label ++ "__operation_operation_time_series") ::
        ((sharesFor .operation e.label cs).map fun c => shareLabel e.label c.name ++ "_" ++ shareLabel e.label c.name) ++
      [e.label ++ "__all_all_sum", shareLabel e.label "operation" ++ "_" ++ shareLabel e.label "operation",
        shareLabel e.label "invest" ++ "_" ++ shareLabel e.label "invest"]) := by
  unfold effectTree at h
  peel h with i, hi
  peel h with op, ho
  peel h with a, ha
  simp only [except_pure, Except.ok.injEq] at h
  subst h
  obtain ⟨ts, t1, _, t3⟩ := hs.opTS
  rw [conLabels_node]
  simp only [List.map_nil, List.nil_append, List.flatMap_cons, List.flatMap_nil, List.append_nil]
  rw [samTree_conLabels hi, samTree_conLabels ho, samTree_conLabels ha, hs.invTS, t1, hs.allTS, hs.data]
  simp [EffectData.invest, EffectData.operation, EffectData.all, String.append_assoc]

theorem vf_plain {el : String} (hel : IsFull el) {s : String} (h : s ∈ plainVarSufs) (hc : (VT.plain s).cls = 5) : KL vlabel (VF el 5 [s]) [el ++ s] :=
  ⟨[(el, .plain s)], rfl, by simp, by simp only [List.mem_singleton, forall_eq]; exact ⟨⟨rfl, ⟨hel, h⟩, by simp [hc]⟩, by simp [VT.suf]⟩⟩

theorem cf_plain {el : String} (hel : IsFull el) {s : String} (h : s ∈ plainConSufs) (hc : (CT.plain s).cls = 5) (hne : s ≠ "_charge_state") :
    KL clabel (CF el 5 [s]) [el ++ s] :=
  ⟨[(el, .plain s)], rfl, by simp, by simp only [List.mem_singleton, forall_eq]; exact ⟨⟨rfl, occurs_plain hel h hne, by simp [hc]⟩, by simp [CT.suf]⟩⟩

theorem total_label (el s t : String) (h : "_" ++ t = s) : shareLabel el t = vlabel (el, .total s) := by
  simp only [shareLabel, vlabel, VT.pre, VT.suf, ← h, String.append_assoc]
  rw [lit2 (by decide +kernel : "_" ++ "_" = "__")]

theorem vf_total {el : String} (hel : IsName el) {s t : String} (hs : "_" ++ t = s) (h : s ∈ partSufs) : KL vlabel (VF el 8 [s]) [shareLabel el t] :=
  ⟨[(el, .total s)], by rw [total_label el s t hs]; rfl, by simp, by
    simp only [List.mem_singleton, forall_eq]; exact ⟨⟨rfl, ⟨hel, h⟩, by simp [VT.cls]⟩, by simp [VT.suf]⟩⟩

theorem cf_total {el : String} (hel : IsName el) {s t : String} (hs : "_" ++ t = s) (h : s ∈ partSufs) :
    KL clabel (CF el 18 [s]) [shareLabel el t ++ "_" ++ shareLabel el t] :=
  ⟨[(el, .share (.total s))], by rw [total_label el s t hs, List.map_cons, clabel_share]; rfl, by simp, by
    simp only [List.mem_singleton, forall_eq]; exact ⟨⟨rfl, ⟨⟨hel, h⟩, by simp [VT.kind]⟩, by simp [VT.cls, CT.cls]⟩, by simp [CT.suf, VT.suf]⟩⟩

/-- Put together lists of keys of one effect. -/
theorem KL.parts {κ : Type} {f : κ → String} {Ps : List (κ → Prop)} {ls : List (List String)} (h : List.Forall₂ (fun P l => KL f P l) Ps ls)
    (hd : Ps.Pairwise fun P Q => ∀ k, P k → Q k → False) : KL f (fun k => ∃ P ∈ Ps, P k) ls.flatten := by
  induction h with
  | nil => exact KL.nil
  | cons hh _ ih =>
    rw [List.pairwise_cons] at hd
    rw [List.flatten_cons]
    refine KL.append hh (ih hd.2) ?_ (fun k hk => ⟨_, List.mem_cons_self, hk⟩) (fun k ⟨P, hP, hk⟩ => ⟨P, List.mem_cons_of_mem _ hP, hk⟩)
    rintro k hk ⟨Q, hQ, hk'⟩
    exact hd.1 Q hQ k hk hk'

theorem pairwise_VF {el : String} {l : List (Nat × List String)} (h : l.Pairwise fun a b => a.1 ≠ b.1 ∨ ∀ s ∈ a.2, s ∉ b.2) :
    (l.map fun a => VF el a.1 a.2).Pairwise fun P Q => ∀ k, P k → Q k → False := by
  rw [List.pairwise_map]
  exact h.imp fun hab k h1 h2 => h1.apart h2 hab

theorem pairwise_CF {el : String} {l : List (Nat × List String)} (h : l.Pairwise fun a b => a.1 ≠ b.1 ∨ ∀ s ∈ a.2, s ∉ b.2) :
    (l.map fun a => CF el a.1 a.2).Pairwise fun P Q => ∀ k, P k → Q k → False := by
  rw [List.pairwise_map]
  exact h.imp fun hab k h1 h2 => h1.apart h2 hab

def effVarParts : List (Nat × List String) := [(5, ["__invest_invest_sum"]), (7, invShareSufs ++ ["_invest"]), (5, ["__operation_operation_sum"]),
  (5, ["__operation_operation_sum_TS"]), (7, opShareSufs ++ ["_operation"]), (5, ["__all_all_sum"]), (8, ["_operation"]), (8, ["_invest"])]
def effConParts : List (Nat × List String) := [(5, ["__invest_invest_sum"]), (17, invShareSufs ++ ["_invest"]), (5, ["__operation_operation_sum"]),
  (5, ["__operation_operation_time_series"]), (17, opShareSufs ++ ["_operation"]), (5, ["__all_all_sum"]), (18, ["_operation"]), (18, ["_invest"])]

theorem effect_keys {sys : Sys} {e : EffectData} {ev : EffectVars} (hs : EvShape sys e ev) {cs : List Addressed} {t : MTree} (h : effectTree cs ev = .ok t)
    (hel : IsName e.label) (hi : KL VT.name (NameOk e.label (invShareSufs ++ ["_invest"])) ((sharesFor .invest e.label cs).map (·.name)))
    (ho : KL VT.name (NameOk e.label (opShareSufs ++ ["_operation"])) ((sharesFor .operation e.label cs).map (·.name))) :
    KL vlabel (VIn e.label [5, 7, 8]) t.labels ∧ KL clabel (CIn e.label [5, 17, 18]) t.conLabels := by
  have hf : IsFull e.label := Or.inl hel
  have e1 : ∀ cs : List Share, (cs.map fun c => shareLabel e.label c.name) = (cs.map (·.name)).map (shareLabel e.label) := fun cs => by rw [List.map_map]; rfl
  have e2 : ∀ cs : List Share, (cs.map fun c => shareLabel e.label c.name ++ "_" ++ shareLabel e.label c.name) =
      (cs.map (·.name)).map (fun n => shareLabel e.label n ++ "_" ++ shareLabel e.label n) := fun cs => by rw [List.map_map]; rfl
  constructor
  · have := KL.parts (f := vlabel) (Ps := effVarParts.map fun a => VF e.label a.1 a.2) (ls := [[invSumL e.label], ((sharesFor .invest e.label cs).map (·.name)).map (shareLabel e.label),
      [opSumL e.label], [opTSL e.label], ((sharesFor .operation e.label cs).map (·.name)).map (shareLabel e.label), [allSumL e.label],
      [shareLabel e.label "operation"], [shareLabel e.label "invest"]]) ?_ (pairwise_VF (by decide +kernel))
    · rw [effectTree_labels hs h, e1, e1]
      refine KL.mono (P := fun k => ∃ P ∈ effVarParts.map (fun a => VF e.label a.1 a.2), P k) (by convert this using 1; simp) ?_
      rintro k ⟨P, hP, hk⟩
      obtain ⟨a, ha, rfl⟩ := List.mem_map.1 hP
      have : ∀ a ∈ effVarParts, [a.1] ⊆ [5, 7, 8] := by decide +kernel
      exact hk.vin.mono (this a ha)
    · unfold effVarParts
      refine .cons ?_ (.cons hi.shares.1 (.cons ?_ (.cons ?_ (.cons ho.shares.1 (.cons ?_ (.cons ?_ (.cons ?_ .nil)))))))
      · have : invSumL e.label = e.label ++ "__invest_invest_sum" := by simp [invSumL, String.append_assoc]
        rw [this]; exact vf_plain hf (by decide +kernel) (by decide +kernel)
      · have : opSumL e.label = e.label ++ "__operation_operation_sum" := by simp [opSumL, String.append_assoc]
        rw [this]; exact vf_plain hf (by decide +kernel) (by decide +kernel)
      · have : opTSL e.label = e.label ++ "__operation_operation_sum_TS" := by simp [opTSL, String.append_assoc]
        rw [this]; exact vf_plain hf (by decide +kernel) (by decide +kernel)
      · have : allSumL e.label = e.label ++ "__all_all_sum" := by simp [allSumL, String.append_assoc]
        rw [this]; exact vf_plain hf (by decide +kernel) (by decide +kernel)
      · exact vf_total hel (by decide +kernel) (by decide +kernel)
      · exact vf_total hel (by decide +kernel) (by decide +kernel)
  · have := KL.parts (f := clabel) (Ps := effConParts.map fun a => CF e.label a.1 a.2) (ls := [[e.label ++ "__invest_invest_sum"],
      ((sharesFor .invest e.label cs).map (·.name)).map (fun n => shareLabel e.label n ++ "_" ++ shareLabel e.label n),
      [e.label ++ "__operation_operation_sum"], [e.label ++ "__operation_operation_time_series"],
      ((sharesFor .operation e.label cs).map (·.name)).map (fun n => shareLabel e.label n ++ "_" ++ shareLabel e.label n), [e.label ++ "__all_all_sum"],
      [shareLabel e.label "operation" ++ "_" ++ shareLabel e.label "operation"], [shareLabel e.label "invest" ++ "_" ++ shareLabel e.label "invest"]]) ?_
      (pairwise_CF (by decide +kernel))
    · rw [effectTree_conLabels hs h, e2, e2]
      refine KL.mono (P := fun k => ∃ P ∈ effConParts.map (fun a => CF e.label a.1 a.2), P k) (by convert this using 1; simp) ?_
      rintro k ⟨P, hP, hk⟩
      obtain ⟨a, ha, rfl⟩ := List.mem_map.1 hP
      have : ∀ a ∈ effConParts, [a.1] ⊆ [5, 17, 18] := by decide +kernel
      exact hk.cin.mono (this a ha)
    · unfold effConParts
      refine .cons ?_ (.cons hi.shares.2 (.cons ?_ (.cons ?_ (.cons ho.shares.2 (.cons ?_ (.cons ?_ (.cons ?_ .nil)))))))
      · exact cf_plain hf (by decide +kernel) (by decide +kernel) (by decide +kernel)
      · exact cf_plain hf (by decide +kernel) (by decide +kernel) (by decide +kernel)
      · exact cf_plain hf (by decide +kernel) (by decide +kernel) (by decide +kernel)
      · exact cf_plain hf (by decide +kernel) (by decide +kernel) (by decide +kernel)
      · exact cf_total hel (by decide +kernel) (by decide +kernel)
      · exact cf_total hel (by decide +kernel) (by decide +kernel)

end Flix
