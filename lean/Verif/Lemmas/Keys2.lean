import Verif.Lemmas.Keys

namespace Flix

/-! ## Segments -/

theorem segTree_labels (el : String) (L i : Nat) : (segTree el L i).labels = segmSufs.map fun s => vlabel (el, .segm i s) := by
  unfold segTree
  rw [labels_node]
  simp only [segOf, segL, segmSufs, vlabel, VT.pre, VT.suf, List.map_cons, List.map_nil, List.flatMap_nil, List.append_nil]
  have h : ∀ a b : String, "_" ++ a = b → el ++ "__" ++ "Segment_" ++ toString i ++ "_" ++ a = el ++ "__" ++ ("Segment" ++ "_" ++ toString i) ++ b := by
    rintro a b rfl
    rw [show "Segment" ++ "_" = "Segment_" by decide +kernel]
    simp only [String.append_assoc]
  rw [h "inSegment" "_inSegment" (by decide +kernel), h "lambda0" "_lambda0" (by decide +kernel), h "lambda1" "_lambda1" (by decide +kernel)]

theorem segTree_conLabels (el : String) (L i : Nat) : (segTree el L i).conLabels = [clabel (el, .segm i)] := by
  unfold segTree
  rw [conLabels_node]
  simp only [mkEq, clabel, CT.pre, CT.suf, List.map_cons, List.map_nil, List.flatMap_nil, List.append_nil]
  rw [show "Segment" ++ "_" = "Segment_" by decide +kernel, show "_inSegment" = "_" ++ "inSegment" by decide +kernel]
  simp only [String.append_assoc]

/-- The sample points of a coupling. -/
inductive CT.IsLam : CT → Prop
  | lam (f : String) : CT.IsLam (.lam f)
  | segLam (e : String) : CT.IsLam (.segLam e)
  | size : CT.IsLam (.twice "__MultipleSegments_lambda_" "__Investment_size")

theorem multiple_keys {el : String} {L : Nat} {points : List (Var × List (Num × Num))} {out : Outside} {tree : MTree} (hel : IsFull el)
    (h : multipleSegments el L points out = .ok tree) (hout : out ≠ .create) (ps : List CT)
    (hl : points.map (fun q => el ++ "__MultipleSegments_lambda_" ++ q.1.label) = ps.map fun t => clabel (el, t)) (hn : ps.Nodup)
    (hps : ∀ t ∈ ps, t.Occurs el ∧ t.IsLam) :
    KL vlabel (VIn el [6]) tree.labels ∧ KL clabel (CIn el [6]) tree.conLabels := by
  obtain ⟨nr, -, -, vs, ops, ho, rfl⟩ := multiple_inv h
  have hvs : vs = [] := by
    have := (outside_ok ho).1
    cases out with
    | no => exact this
    | create => exact absurd rfl hout
    | use x => exact this
  subst hvs
  rw [labels_node, conLabels_node]
  constructor
  · refine vkl ((List.range nr).flatMap fun i => segmSufs.map (VT.segm i)) ?_ ?_ ?_
    · rw [List.map_nil, List.nil_append, List.flatMap_map, List.map_flatMap]
      refine congrArg (fun f => List.flatMap f (List.range nr)) (funext fun i => ?_)
      rw [segTree_labels, List.map_map]; rfl
    · rw [List.nodup_flatMap]
      refine ⟨fun i _ => List.Nodup.map (fun a b h => by cases h; rfl) (by decide +kernel), ?_⟩
      refine List.Pairwise.imp ?_ (List.nodup_range (n := nr))
      intro i j hij t h1 h2
      obtain ⟨a, _, rfl⟩ := List.mem_map.1 h1
      obtain ⟨b, _, hb⟩ := List.mem_map.1 h2
      cases hb
      exact hij rfl
    · intro t ht
      obtain ⟨i, _, ht⟩ := List.mem_flatMap.1 ht
      obtain ⟨s, hs, rfl⟩ := List.mem_map.1 ht
      exact ⟨⟨hel, hs⟩, by simp [VT.cls]⟩
  · refine ckl (ps ++ [CT.plain "__MultipleSegments_in_single_Segment"] ++ (List.range nr).map CT.segm) ?_ ?_ ?_
    · have e1 : (points.map fun q => mkEq (el ++ "__" ++ "MultipleSegments") ("lambda_" ++ q.1.label)
            (sAll q.1 (.s (-1)) :: lambdaOps ((List.range nr).map (segOf el L)) (q.2.take nr))).map (·.label) = ps.map fun t => clabel (el, t) := by
        rw [← hl, List.map_map]
        refine List.map_congr_left fun q _ => ?_
        simp only [Function.comp, mkEq]
        simp only [String.append_assoc]
        rw [lit2 (by decide +kernel : "_" ++ "lambda_" = "_lambda_"), lit2 (by decide +kernel : "MultipleSegments" ++ "_lambda_" = "MultipleSegments_lambda_"),
          lit2 (by decide +kernel : "__" ++ "MultipleSegments_lambda_" = "__MultipleSegments_lambda_")]
      have e2 : ((List.range nr).map (segTree el L)).flatMap MTree.conLabels = ((List.range nr).map CT.segm).map fun t => clabel (el, t) := by
        rw [List.flatMap_map, List.map_map]
        simp only [segTree_conLabels]
        exact (List.map_eq_flatMap ..).symm
      rw [List.map_append, e1, e2, List.map_append, List.map_append]
      simp [mkEq, clabel, CT.pre, CT.suf, String.append_assoc]
    · rw [List.nodup_append, List.nodup_append]
      refine ⟨⟨hn, by simp, ?_⟩, List.Nodup.map (fun a b h => by cases h; rfl) List.nodup_range, ?_⟩
      · rintro t ht t' ht' rfl
        rw [List.mem_singleton] at ht'
        subst ht'
        exact nomatch (hps _ ht).2
      · rintro t ht t' ht' rfl
        obtain ⟨i, _, rfl⟩ := List.mem_map.1 ht'
        rcases List.mem_append.1 ht with h | h
        · exact nomatch (hps _ h).2
        · simp at h
    · intro t ht
      simp only [List.mem_append, List.mem_map, List.mem_singleton] at ht
      rcases ht with (h | rfl) | ⟨i, _, rfl⟩
      · refine ⟨(hps t h).1, ?_⟩
        cases (hps t h).2 <;> first | exact List.mem_singleton.2 rfl | decide +kernel
      · exact ⟨occurs_plain hel (by decide +kernel) (by decide +kernel), by decide +kernel⟩
      · exact ⟨hel, by simp [CT.cls]⟩

theorem segShareL_eq (el e : String) : segShareL el e = vlabel (el, .seg e) := by
  simp only [segShareL, vlabel, VT.pre, VT.suf, String.append_assoc]

theorem sizeVar_label {cfg : Cfg} {p : String} {q : InvestParams} {x : Var} (h : sizeVar cfg p q = .ok x) : x.label = p ++ "_" ++ "size" := by
  unfold sizeVar at h
  split at h <;> rw [(mkVar_ok h).1]

/-- The ends of the label of the variable whose bounds an investment sets. -/
def InvSuf (el s : String) : Prop := (s = "_flow_rate" ∧ ∃ c f, IsName c ∧ IsName f ∧ el = c ++ "__" ++ f) ∨ s = "_charge_state"

theorem definingCons_keys {cfg : Cfg} {el : String} {q : InvestParams} {size x : Var} {relMin relMax : Num} {profile : Option Num} {on : Option Var}
    {s : String} (hx : x.label = el ++ s) :
    ∃ ms : List String, ms.Sublist invMids ∧ (definingCons cfg (el ++ "__" ++ "Investment") q size x relMin relMax profile on).map (·.label) =
      (ms.map fun m => CT.twice m s).map fun t => clabel (el, t) := by
  have h : ∀ a b : String, "__" ++ "Investment" ++ "_" ++ a = b → el ++ "__" ++ "Investment" ++ "_" ++ (a ++ x.label) = clabel (el, .twice b s) := by
    rintro a b rfl
    simp only [hx, clabel, CT.pre, CT.suf, String.append_assoc]
  have h1 := h "fixed_" "__Investment_fixed_" (by decide +kernel)
  have h2 := h "ub_" "__Investment_ub_" (by decide +kernel)
  have h3 := h "lb_" "__Investment_lb_" (by decide +kernel)
  unfold definingCons
  cases profile with
  | some g => exact ⟨["__Investment_fixed_"], by decide +kernel, by simp [mkEq, h1]⟩
  | none =>
    cases on with
    | none => exact ⟨["__Investment_ub_", "__Investment_lb_"], by decide +kernel, by simp [mkIneq, h2, h3]⟩
    | some b => exact ⟨["__Investment_ub_", "__Investment_lb_"], by decide +kernel, by simp [mkIneq, h2, h3]⟩

theorem optionalCons_keys {cfg : Cfg} {el : String} {q : InvestParams} {size inv : Var} :
    ∃ ss : List String, ss.Sublist ["__Investment_is_invested", "__Investment_is_invested_ub", "__Investment_is_invested_lb"] ∧
      (optionalCons cfg (el ++ "__" ++ "Investment") q size inv).map (·.label) = (ss.map CT.plain).map fun t => clabel (el, t) := by
  unfold optionalCons
  split
  · exact ⟨["__Investment_is_invested"], by decide +kernel, by simp [mkEq, clabel, CT.pre, CT.suf, String.append_assoc]⟩
  · exact ⟨["__Investment_is_invested_ub", "__Investment_is_invested_lb"], by decide +kernel, by simp [mkIneq, clabel, CT.pre, CT.suf, String.append_assoc]⟩

/-- Names of the effects of an investment. -/
def InvestParams.SegNames (q : InvestParams) : Prop := ∀ xs es, q.effectsInSegments = some (xs, es) → (es.map (·.1)).Nodup ∧ ∀ e ∈ es, IsName e.1

theorem investSegs_keys {el : String} {q : InvestParams} {size : Var} {inv : Option Var} {r : List MTree × List ShareCall} (hel : IsFull el)
    (hq : q.SegNames) (hs : size.label = el ++ "__Investment_size") (h : investSegments el q size inv = .ok r) :
    (∃ es : List String, es.Nodup ∧ (∀ e ∈ es, IsName e) ∧ ∃ rest, r.1.flatMap MTree.labels = es.map (fun e => vlabel (el, .seg e)) ++ rest ∧
      KL vlabel (VIn el [6]) rest) ∧ KL clabel (CIn el [6]) (r.1.flatMap MTree.conLabels) := by
  unfold investSegments at h
  cases hq' : q.effectsInSegments with
  | none =>
    rw [hq'] at h
    cases h
    exact ⟨⟨[], by simp, by simp, [], rfl, KL.nil⟩, KL.nil⟩
  | some p =>
    obtain ⟨xs, es⟩ := p
    rw [hq'] at h
    simp only at h
    peel h with o, ho
    simp only [except_pure, Except.ok.injEq] at h
    subst h
    obtain ⟨hn, hnames⟩ := hq xs es hq'
    obtain ⟨-, segs, h1, h2, -⟩ := segmentedShares_inv ho
    have hm := multiple_keys hel h1 (by cases inv <;> simp) ((es.map fun e => CT.segLam e.1) ++ [.twice "__MultipleSegments_lambda_" "__Investment_size"]) ?_ ?_ ?_
    · simp only [List.flatMap_cons, List.flatMap_nil, List.append_nil, h2]
      rw [labels_node, conLabels_node]
      simp only [List.flatMap_cons, List.flatMap_nil, List.append_nil, List.map_nil, List.nil_append]
      refine ⟨⟨es.map (·.1), hn, ?_, segs.labels, ?_, hm.1⟩, hm.2⟩
      · intro e he
        obtain ⟨e', he', rfl⟩ := List.mem_map.1 he
        exact hnames e' he'
      · rw [List.map_map, List.map_map]
        refine congrArg (· ++ segs.labels) (List.map_congr_left fun e _ => ?_)
        exact segShareL_eq el e.1
    · unfold segSharePoints
      simp only [List.map_append, List.map_map, List.map_cons, List.map_nil]
      congr 1
      · refine List.map_congr_left fun e _ => ?_
        simp only [Function.comp, segShareVar, segShareL, clabel, CT.pre, CT.suf, String.append_assoc]
      · simp only [hs, clabel, CT.pre, CT.suf, String.append_assoc]
    · rw [List.nodup_append]
      refine ⟨?_, by simp, ?_⟩
      · have : es.map (fun e => CT.segLam e.1) = (es.map (·.1)).map CT.segLam := by rw [List.map_map]; rfl
        rw [this]
        exact hn.map fun a b h => by cases h; rfl
      · rintro t ht t' ht' rfl
        obtain ⟨e, _, rfl⟩ := List.mem_map.1 ht
        simp at ht'
    · intro t ht
      rcases List.mem_append.1 ht with h | h
      · obtain ⟨e, he, rfl⟩ := List.mem_map.1 h
        exact ⟨⟨hel, hnames e he⟩, .segLam _⟩
      · rw [List.mem_singleton] at h
        subst h
        exact ⟨⟨hel, Or.inr (Or.inr (Or.inr ⟨rfl, rfl⟩))⟩, .size⟩

theorem invest_keys {cfg : Cfg} {el : String} {q : InvestParams} {x : Var} {relMin relMax : Num} {profile : Option Num} {on : Option Var} {o : InvestOut}
    {s : String} (hel : IsFull el) (hq : q.SegNames) (hx : x.label = el ++ s) (hs : InvSuf el s)
    (h : investModel cfg el q x relMin relMax profile on = .ok o) :
    KL vlabel (VIn el [2, 6]) o.tree.labels ∧ KL clabel (CIn el [2, 6]) o.tree.conLabels := by
  obtain ⟨s1, s2, s3, s4, h1, h2, h3, h4, -, -, -, h5, -⟩ := invest_inv h
  have hsz : o.size.label = el ++ "__Investment_size" := by
    rw [sizeVar_label h1]
    simp [String.append_assoc]
  obtain ⟨⟨es, hn, hnames, rest, e1, k1⟩, k2⟩ := investSegs_keys hel hq hsz h5
  obtain ⟨ms, hms, e2⟩ := definingCons_keys (cfg := cfg) (q := q) (size := o.size) (relMin := relMin) (relMax := relMax) (profile := profile) (on := on) hx
  have hopt : ∃ (opt : List ConReq) (ss : List String), ss.Sublist ["__Investment_is_invested", "__Investment_is_invested_ub", "__Investment_is_invested_lb"] ∧
      opt.map (·.label) = (ss.map CT.plain).map (fun t => clabel (el, t)) ∧
      o.cons = opt ++ definingCons cfg (el ++ "__" ++ "Investment") q o.size x relMin relMax profile on := by
    cases hI : o.isInvested with
    | none =>
      rw [hI] at h4
      exact ⟨[], [], List.nil_sublist _, rfl, h4⟩
    | some i =>
      rw [hI] at h4
      obtain ⟨ss, hss, e3⟩ := optionalCons_keys (cfg := cfg) (el := el) (q := q) (size := o.size) (inv := i)
      exact ⟨_, ss, hss, e3, h4⟩
  obtain ⟨opt, ss, hss, e3, h4⟩ := hopt
  unfold InvestOut.tree
  rw [labels_node, conLabels_node, h3, h4, List.map_append, e2, e3]
  simp only at e1
  rw [e1]
  constructor
  · rw [← List.append_assoc]
    refine KL.append (P := VIn el [2]) (Q := VIn el [6]) ?_ k1 (fun k h h' => h.apart h') (fun k h => h.mono) (fun k h => h.mono)
    have hi : ∃ vs : List String, vs.Sublist ["__Investment_isInvested"] ∧ o.isInvested.toList.map (·.label) = vs.map (el ++ ·) := by
      unfold investedVar at h2
      split at h2
      · obtain ⟨i, hi, hi'⟩ := map_ok.1 h2
        refine ⟨["__Investment_isInvested"], List.Sublist.refl _, ?_⟩
        rw [← hi']
        simp [(mkVar_ok hi).1, String.append_assoc]
      · have := Except.ok.inj h2
        rw [← this]
        exact ⟨[], List.nil_sublist _, rfl⟩
    obtain ⟨vs, hvs, e4⟩ := hi
    refine vkl ((("__Investment_size" :: vs).map VT.plain) ++ es.map VT.seg) ?_ ?_ ?_
    · rw [List.map_cons, e4, hsz, List.map_append, List.map_map, List.map_map]
      rfl
    · rw [List.nodup_append]
      refine ⟨?_, hn.map fun a b h => by cases h; rfl, ?_⟩
      · exact List.Nodup.map (fun a b h => by cases h; rfl) ((hvs.cons_cons "__Investment_size").nodup (by decide +kernel))
      · rintro t ht t' ht' rfl
        obtain ⟨a, _, rfl⟩ := List.mem_map.1 ht
        obtain ⟨b, _, hb⟩ := List.mem_map.1 ht'
        cases hb
    · intro t ht
      rcases List.mem_append.1 ht with h | h
      · obtain ⟨a, ha, rfl⟩ := List.mem_map.1 h
        have := (hvs.cons_cons "__Investment_size").subset ha
        have key : ∀ s ∈ ["__Investment_size", "__Investment_isInvested"], s ∈ plainVarSufs ∧ (VT.plain s).cls ∈ [2] := by decide +kernel
        exact ⟨⟨hel, (key a this).1⟩, (key a this).2⟩
      · obtain ⟨e, he, rfl⟩ := List.mem_map.1 h
        exact ⟨⟨hel, hnames e he⟩, List.mem_singleton.2 rfl⟩
  · refine KL.append (P := CIn el [2]) (Q := CIn el [6]) ?_ k2 (fun k h h' => h.apart h') (fun k h => h.mono) (fun k h => h.mono)
    rw [← List.map_append]
    refine ckl _ rfl ?_ ?_
    · rw [List.nodup_append]
      refine ⟨List.Nodup.map (fun a b h => by cases h; rfl) (hss.nodup (by decide +kernel)),
        List.Nodup.map (fun a b h => by cases h; rfl) (hms.nodup (by decide +kernel)), ?_⟩
      rintro t ht t' ht' rfl
      obtain ⟨a, _, rfl⟩ := List.mem_map.1 ht
      obtain ⟨b, _, hb⟩ := List.mem_map.1 ht'
      cases hb
    · intro t ht
      rcases List.mem_append.1 ht with h | h
      · obtain ⟨a, ha, rfl⟩ := List.mem_map.1 h
        have key : ∀ s ∈ ["__Investment_is_invested", "__Investment_is_invested_ub", "__Investment_is_invested_lb"], s ∈ plainConSufs ∧ s ≠ "_charge_state" ∧
          (CT.plain s).cls ∈ [2] := by decide +kernel
        obtain ⟨k1, k2, k3⟩ := key a (hss.subset ha)
        exact ⟨occurs_plain hel k1 k2, k3⟩
      · obtain ⟨m, hm, rfl⟩ := List.mem_map.1 h
        have hm' := hms.subset hm
        refine ⟨⟨hel, ?_⟩, ?_⟩
        · rcases hs with ⟨rfl, hc⟩ | rfl
          · exact Or.inr (Or.inl ⟨hm', rfl, hc⟩)
          · exact Or.inr (Or.inr (Or.inl ⟨hm', rfl⟩))
        · have key : ∀ m ∈ invMids, m ≠ "__OnOff_" := by decide +kernel
          simp only [CT.cls]
          rw [if_neg (key m hm'), if_pos hm']
          exact List.mem_singleton.2 rfl

end Flix
