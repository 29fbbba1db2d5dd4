import Verif.Lemmas.Keys5

namespace Flix

/-! ## The collected shares -/

/-- The name under which a share is added. -/
def VT.name : VT → String
  | .share src s => src ++ s
  | .other o s => o ++ s
  | .pen b s => b ++ "_" ++ s
  | _ => ""

abbrev CallKey := Target × String × VT

def callName (k : CallKey) : Target × String × String := (k.1, k.2.1, k.2.2.name)

def callSig (es : List EffectData) (c : ShareCall) : Target × String × String := (c.target, c.labelIn es, c.name)

/-- The calls of the element `el` with some ends of the name. -/
structure CallOf (es : List EffectData) (el : String) (ss : List String) (k : CallKey) : Prop where
  known : k.2.1 ∈ es.map (·.label)
  key : ∃ s ∈ ss, k.2.2 = .share el s ∧ k.1 = if s ∈ opShareSufs then .operation else .invest

theorem CallOf.mono {es : List EffectData} {el : String} {ss ss' : List String} {k : CallKey} (h : CallOf es el ss k) (hs : ss ⊆ ss' := by decide +kernel) :
    CallOf es el ss' k := by
  obtain ⟨s, h1, h2⟩ := h.key
  exact ⟨h.known, s, hs h1, h2⟩

theorem CallOf.apart {es : List EffectData} {el el' : String} {ss ss' : List String} {k : CallKey} (h : CallOf es el ss k) (h' : CallOf es el' ss' k)
    (hs : ∀ s ∈ ss, s ∉ ss' := by decide +kernel) : False := by
  obtain ⟨s, h1, h2, _⟩ := h.key
  obtain ⟨s', h1', h2', _⟩ := h'.key
  rw [h2] at h2'
  cases h2'
  exact hs s h1 h1'

theorem CallOf.el {es : List EffectData} {el el' : String} {ss ss' : List String} {k : CallKey} (h : CallOf es el ss k) (h' : CallOf es el' ss' k) : el = el' := by
  obtain ⟨s, h1, h2, _⟩ := h.key
  obtain ⟨s', h1', h2', _⟩ := h'.key
  rw [h2] at h2'
  cases h2'
  rfl

/-- Calls with pairwise different keys that all find their effect. -/
structure CallsOk (es : List EffectData) (P : CallKey → Prop) (cs : List ShareCall) : Prop where
  keys : KL callName P (cs.map (callSig es))
  addr : ∀ c ∈ cs, ∃ a, address es c = .ok a
  sum : ∀ c ∈ cs, c.asSum = false

theorem CallsOk.nil {es : List EffectData} {P : CallKey → Prop} : CallsOk es P [] := ⟨KL.nil, by simp, by simp⟩

theorem CallsOk.mono {es : List EffectData} {P Q : CallKey → Prop} {cs : List ShareCall} (h : CallsOk es P cs) (hpq : ∀ k, P k → Q k) : CallsOk es Q cs :=
  ⟨h.keys.mono hpq, h.addr, h.sum⟩

theorem CallsOk.append {es : List EffectData} {P Q R : CallKey → Prop} {a b : List ShareCall} (ha : CallsOk es P a) (hb : CallsOk es Q b)
    (hd : ∀ k, P k → Q k → False) (hp : ∀ k, P k → R k) (hq : ∀ k, Q k → R k) : CallsOk es R (a ++ b) := by
  refine ⟨?_, ?_, ?_⟩
  · rw [List.map_append]
    exact KL.append ha.keys hb.keys hd hp hq
  · intro c hc
    exact (List.mem_append.1 hc).elim (ha.addr c) (hb.addr c)
  · intro c hc
    exact (List.mem_append.1 hc).elim (ha.sum c) (hb.sum c)

theorem CallsOk.flatten {es : List EffectData} {α : Type} {P : α → CallKey → Prop} {g : α → List ShareCall} {l : List α} (h : ∀ a ∈ l, CallsOk es (P a) (g a))
    (hd : l.Pairwise fun a b => ∀ k, P a k → P b k → False) : CallsOk es (fun k => ∃ a ∈ l, P a k) (l.map g).flatten := by
  induction l with
  | nil => exact .nil
  | cons a l ih =>
    rw [List.map_cons, List.flatten_cons]
    rw [List.pairwise_cons] at hd
    refine CallsOk.append (h a (by simp)) (ih (fun b hb => h b (by simp [hb])) hd.2) ?_ (fun k hk => ⟨a, by simp, hk⟩)
      (fun k ⟨b, hb, hk⟩ => ⟨b, by simp [hb], hk⟩)
    rintro k hk ⟨b, hb, hk'⟩
    exact hd.1 b hb k hk hk'

/-- The effect named by a key. -/
def keyLabel (es : List EffectData) : Option String → String
  | some e => e
  | none => (standardOf es).getD ""

theorem names_keyLabel {es : List EffectData} {key : Option String} (h : ∃ e ∈ es, names es e.label key = true) :
    names es (keyLabel es key) key = true ∧ keyLabel es key ∈ es.map (·.label) ∧ resolveEffect es key = .ok (keyLabel es key) := by
  obtain ⟨e, he, hn⟩ := h
  cases key with
  | some l =>
    have hl : l = e.label := by simpa [names] using hn
    have hm : l ∈ es.map (·.label) := hl ▸ List.mem_map_of_mem he
    refine ⟨by simp [names, keyLabel], hm, ?_⟩
    show (if l ∈ es.map (·.label) then Except.ok l else .error Err.assertion) = .ok l
    rw [if_pos hm]
  | none =>
    cases hs : es.find? (·.isStandard) with
    | none => simp [names, hs] at hn
    | some d =>
      have hso : standardOf es = some d.label := by simp [standardOf, hs]
      have hk : keyLabel es none = d.label := by simp [keyLabel, hso]
      refine ⟨?_, ?_, ?_⟩
      · rw [hk]; simp [names, hs]
      · rw [hk]; exact List.mem_map_of_mem (List.mem_of_find?_eq_some hs)
      · unfold resolveEffect
        rw [hso, hk]

theorem sharesTo_calls {es : List EffectData} {tg : Target} {el name s : String} {d : EffDict} {f : Num} {v : Option Var} {cs : List ShareCall}
    (hs : "__" ++ name = s) (ht : tg = if s ∈ opShareSufs then .operation else .invest) (hk : EffDict.Known es d)
    (h : sharesTo tg el name d f v = .ok cs) : CallsOk es (CallOf es el [s]) cs := by
  have hp : tg ≠ .penalty := by rw [ht]; split <;> decide
  unfold sharesTo at h
  rw [mapM_ok] at h
  have h' : List.Forall₂ (fun q c => c.target = tg ∧ c.effect = q.1 ∧ c.name = el ++ s ∧ c.asSum = false) d cs := by
    refine forall₂_imp' h ?_
    intro q _ c hc
    peel hc with g, hg
    simp only [except_pure, Except.ok.injEq] at hc
    subst hc
    exact ⟨rfl, rfl, by rw [← hs, String.append_assoc], rfl⟩
  have hkl := fun q hq => names_keyLabel (hk.known q hq)
  refine ⟨⟨d.map fun q => (tg, keyLabel es q.1, .share el s), ?_, ?_, ?_⟩, ?_, ?_⟩
  · clear hk hkl h
    rw [List.map_map]
    induction h' with
    | nil => rfl
    | cons hd _ ih =>
      rw [List.map_cons, List.map_cons, ih]
      congr 1
      obtain ⟨h1, h2, h3, _⟩ := hd
      unfold callSig callName Function.comp
      rw [h1, h3]
      have : ∀ (c : ShareCall), c.target = tg → c.labelIn es = keyLabel es c.effect := by
        intro c hc
        unfold ShareCall.labelIn keyLabel
        rw [hc]
        cases tg with
        | penalty => exact absurd rfl hp
        | operation => rfl
        | invest => rfl
      rw [this _ h1, h2]
      rfl
  · rw [List.Nodup, List.pairwise_map]
    refine List.Pairwise.imp_of_mem ?_ hk.once
    intro p q hpm hqm hpq he
    have hl := (Prod.mk.inj (Prod.mk.inj he).2).1
    have h1 := hpq _ (hkl p hpm).1
    rw [hl, (hkl q hqm).1] at h1
    cases h1
  · intro k hk'
    obtain ⟨q, hq, rfl⟩ := List.mem_map.1 hk'
    exact ⟨(hkl q hq).2.1, s, by simp, rfl, ht⟩
  · intro c hc
    obtain ⟨q, hq, h1, h2, -⟩ := forall₂_mem_right h' hc
    refine ⟨⟨tg, keyLabel es q.1, c.share⟩, ?_⟩
    have hr := (hkl q hq).2.2
    unfold address
    rw [h1, h2]
    cases tg with
    | penalty => exact absurd rfl hp
    | operation => simp only [hr]; rfl
    | invest => simp only [hr]; rfl
  · intro c hc
    obtain ⟨q, hq, _, _, _, h4⟩ := forall₂_mem_right h' hc
    exact h4

theorem onOff_callsOk {es : List EffectData} {sys : Sys} {el : String} {q : OnOffParams} {d : List (Var × Num × Num)} {o : OnOffOut} (hq : q.Known es)
    (h : onOffModel sys el q d = .ok o) : CallsOk es (CallOf es el ["__switch_on_effects", "__running_hour_effects"]) o.shares := by
  obtain ⟨_, _, _, _, _, _, _, _, _, -, -, -, -, -, -, -, -, -, -, -, -, -, -, -, -, -, -, -, sh1, sh2, h1, h2, h3⟩ := onOff_inv h
  rw [h3]
  exact CallsOk.append (sharesTo_calls (s := "__switch_on_effects") (by decide +kernel) (by decide +kernel) hq.starts h1) (sharesTo_calls (s := "__running_hour_effects") (by decide +kernel) (by decide +kernel) hq.hours h2)
    (fun k h h' => h.apart h') (fun k h => h.mono) (fun k h => h.mono)

theorem segCalls_callsOk {es : List EffectData} {el : String} {rs : List (String × List (ℚ × ℚ))} (hn : (rs.map (·.1)).Nodup) (hk : ∀ r ∈ rs, r.1 ∈ es.map (·.label)) :
    CallsOk es (CallOf es el ["__segmented_effects"]) (segShareCalls el rs) := by
  refine ⟨⟨rs.map fun r => (.invest, r.1, .share el "__segmented_effects"), ?_, ?_, ?_⟩, ?_, ?_⟩
  · unfold segShareCalls
    rw [List.map_map, List.map_map]
    refine List.map_congr_left fun r _ => ?_
    simp only [Function.comp, callSig, callName, segCall, ShareCall.labelIn, VT.name, String.append_assoc]
    rw [show "__" ++ "segmented_effects" = "__segmented_effects" by decide +kernel]
  · rw [List.Nodup, List.pairwise_map] at hn ⊢
    exact hn.imp fun hne he => hne (Prod.mk.inj (Prod.mk.inj he).2).1
  · intro k hk'
    obtain ⟨r, hr, rfl⟩ := List.mem_map.1 hk'
    refine ⟨hk r hr, _, List.mem_singleton.2 rfl, rfl, ?_⟩
    rw [if_neg (by decide +kernel)]
  · intro c hc
    obtain ⟨r, hr, rfl⟩ := List.mem_map.1 hc
    refine ⟨⟨.invest, r.1, (segCall el r.1 (segShareVar el r.1)).share⟩, ?_⟩
    unfold address
    simp only [segCall, resolveEffect, if_pos (hk r hr)]
    rfl
  · intro c hc
    obtain ⟨r, hr, rfl⟩ := List.mem_map.1 hc
    rfl

theorem invest_callsOk {es : List EffectData} {cfg : Cfg} {el : String} {q : InvestParams} {x : Var} {relMin relMax : Num} {profile : Option Num} {on : Option Var}
    {o : InvestOut} (hq : q.Known es) (h : investModel cfg el q x relMin relMax profile on = .ok o) : CallsOk es (CallOf es el invShareSufs) o.shares := by
  obtain ⟨s1, s2, s3, s4, -, -, -, -, h1, h2, h3, h4, h5⟩ := invest_inv h
  have k1 : CallsOk es (CallOf es el ["__fix_effects"]) s1 := sharesTo_calls (by decide +kernel) (by decide +kernel) hq.fix h1
  have k3 : CallsOk es (CallOf es el ["__specific_effects"]) s3 := sharesTo_calls (by decide +kernel) (by decide +kernel) hq.specific h3
  have k2 : CallsOk es (CallOf es el ["__divest_effects", "__divest_cancellation_effects"]) s2 := by
    unfold divestShares at h2
    split at h2
    · peel h2 with a, ha
      peel h2 with b, hb
      simp only [except_pure, Except.ok.injEq] at h2
      subst h2
      exact CallsOk.append (sharesTo_calls (s := "__divest_effects") (by decide +kernel) (by decide +kernel) hq.divest ha) (sharesTo_calls (s := "__divest_cancellation_effects") (by decide +kernel) (by decide +kernel) hq.divest hb)
        (fun k h h' => h.apart h') (fun k h => h.mono) (fun k h => h.mono)
    · cases h2
      exact .nil
  have k4 : CallsOk es (CallOf es el ["__segmented_effects"]) s4 := by
    unfold investSegments at h4
    cases hs : q.effectsInSegments with
    | none =>
      rw [hs] at h4
      have := (Prod.mk.inj (Except.ok.inj h4)).2
      rw [← this]
      exact .nil
    | some p =>
      obtain ⟨xs, rs⟩ := p
      rw [hs] at h4
      simp only at h4
      peel h4 with o', ho
      simp only [except_pure, Except.ok.injEq, Prod.mk.injEq] at h4
      obtain ⟨-, _, -, -, h6⟩ := segmentedShares_inv ho
      rw [← h4.2, h6]
      exact segCalls_callsOk (hq.segs xs rs hs).1 (hq.segs xs rs hs).2
  rw [h5]
  have k12 := CallsOk.append k1 k2 (R := CallOf es el ["__fix_effects", "__divest_effects", "__divest_cancellation_effects"])
    (fun k h h' => h.apart h') (fun k h => h.mono) (fun k h => h.mono)
  have k123 := CallsOk.append k12 k3 (R := CallOf es el ["__fix_effects", "__divest_effects", "__divest_cancellation_effects", "__specific_effects"])
    (fun k h h' => h.apart h') (fun k h => h.mono) (fun k h => h.mono)
  exact CallsOk.append k123 k4 (fun k h h' => h.apart h') (fun k h => h.mono) (fun k h => h.mono)

theorem flow_callsOk {es : List EffectData} {sys : Sys} {el : String} {f : FlowData} {o : FlowOut} (hf : f.Known es) (h : flowModel sys el f = .ok o) :
    CallsOk es (CallOf es el shareSufs) o.shares := by
  obtain ⟨-, h2, h3, -, -, sh, h4, h5⟩ := flow_inv h
  have k1 : CallsOk es (CallOf es el ["__switch_on_effects", "__running_hour_effects"]) ((o.onOff.map (·.shares)).getD []) := by
    unfold flowOnOff at h2
    cases hq : f.onOff with
    | none =>
      rw [hq] at h2
      rw [← Except.ok.inj h2]
      exact .nil
    | some q =>
      rw [hq] at h2
      obtain ⟨oo, ho, ho'⟩ := map_ok.1 h2
      rw [← ho']
      exact onOff_callsOk (hf.onOff q hq) ho
  have k2 : CallsOk es (CallOf es el invShareSufs) ((o.invest.map (·.shares)).getD []) := by
    unfold flowInvest at h3
    cases hq : f.effSize sys.cfg with
    | num x =>
      rw [hq] at h3
      rw [← Except.ok.inj h3]
      exact .nil
    | invest q =>
      rw [hq] at h3
      obtain ⟨oo, ho, ho'⟩ := map_ok.1 h3
      rw [← ho']
      exact invest_callsOk (hf.invest q (effSize_invest hq)) ho
  have k3 : CallsOk es (CallOf es el ["__effects_per_flow_hour"]) sh := sharesTo_calls (by decide +kernel) (by decide +kernel) hf.hours h4
  rw [h5]
  have k12 := CallsOk.append k1 k2 (R := CallOf es el (["__switch_on_effects", "__running_hour_effects"] ++ invShareSufs))
    (fun k h h' => h.apart h') (fun k h => h.mono) (fun k h => h.mono)
  exact CallsOk.append k12 k3 (fun k h h' => h.apart h') (fun k h => h.mono) (fun k h => h.mono)

/-- The calls of a component. -/
def CallIn (es : List EffectData) (c : String) (fl : List String) (ss : List String) (k : CallKey) : Prop :=
  CallOf es c ss k ∨ ∃ f ∈ fl, CallOf es (flowFull c f) shareSufs k

theorem fill_known {es : List EffectData} {c : CompData} {f : FlowData} (h : f.Known es) : (fillOnOff c f).Known es := by
  unfold fillOnOff
  split
  · refine ⟨h.hours, fun q hq => ?_, h.invest⟩
    cases hq
    exact ⟨⟨by simp, by simp⟩, ⟨by simp, by simp⟩⟩
  · exact h

theorem comp_callsOk {es : List EffectData} {sys : Sys} {c : CompData} {o : CompOut} (hf : ∀ f ∈ c.inputs ++ c.outputs, f.Known es)
    (hd : ((c.inputs ++ c.outputs).map (·.label)).Nodup) (hq : ∀ q, c.onOff = some q → q.Known es) (h : compModel sys c = .ok o) :
    CallsOk es (CallIn es c.label ((c.inputs ++ c.outputs).map (·.label)) opShareSufs) o.shares := by
  have hmem := comp_flow_mem h
  have hlab := comp_treeLabels h
  obtain ⟨-, -, hon, prev, -, -, -, -, hsh⟩ := comp_inv h
  have hpw : o.flows.Pairwise fun p q => flowFull c.label p.1.label ≠ flowFull c.label q.1.label := by
    rw [← hlab, List.Nodup, List.pairwise_map] at hd
    exact hd.imp fun hne he => hne (flowFull_inj he)
  have hk : ∀ p ∈ o.flows, CallsOk es (CallOf es (flowFull c.label p.1.label) shareSufs) p.2.shares := by
    intro p hp
    obtain ⟨f, hf', e1, e2⟩ := hmem p hp
    rw [e1, fillOnOff_label]
    exact flow_callsOk (fill_known (hf f hf')) e2
  have kon : CallsOk es (CallOf es c.label ["__switch_on_effects", "__running_hour_effects"]) ((o.on.map (·.shares)).getD []) := by
    unfold compOnOff at hon
    cases hc : c.onOff with
    | none =>
      rw [hc] at hon
      rw [← Except.ok.inj hon]
      exact .nil
    | some q =>
      rw [hc] at hon
      obtain ⟨oo, ho, ho'⟩ := map_ok.1 hon
      rw [← ho']
      exact onOff_callsOk (hq q hc) ho
  rw [hsh]
  refine CallsOk.append (CallsOk.flatten hk (hpw.imp fun hne k h h' => hne (h.el h'))) kon ?_ ?_ (fun k h => Or.inl h.mono)
  · rintro k ⟨p, _, h1⟩ h2
    exact flowFull_ne _ _ (h1.el h2)
  · rintro k ⟨p, hp, h1⟩
    exact Or.inr ⟨_, by rw [← hlab]; exact List.mem_map_of_mem hp, h1⟩

theorem Tfill_known {es : List EffectData} {t : TransData} {f : FlowData} (h : f.Known es) : (t.fill f).Known es := by
  unfold TransData.fill
  cases t.absLosses with
  | none => exact h
  | some a =>
    simp only
    split
    · refine ⟨h.hours, fun q hq => ?_, h.invest⟩
      cases hq
      exact ⟨⟨by simp, by simp⟩, ⟨by simp, by simp⟩⟩
    · exact h

theorem Tfill2_known {es : List EffectData} {cfg : Cfg} {t : TransData} {f : FlowData} (h : f.Known es) : (t.fillIn2 cfg f).Known es := by
  unfold TransData.fillIn2
  split
  · exact h
  · refine ⟨h.hours, h.onOff, fun q hq => ?_⟩
    cases hq
    exact ⟨⟨by simp, by simp⟩, ⟨by simp, by simp⟩, ⟨by simp, by simp⟩, fun xs rs h => nomatch h⟩
  · exact h

theorem model_callsOk {es : List EffectData} {sys : Sys} {c : Comp} {o : CompOut} (hc : c.Known es) (hd : (c.flows.map (·.label)).Nodup) (h : c.model sys = .ok o) :
    CallsOk es (CallIn es c.label (c.flows.map (·.label)) shareSufs) o.shares := by
  have up : ∀ {l fl k}, CallIn es l fl opShareSufs k → CallIn es l fl shareSufs k := fun h => h.imp (fun h => h.mono) id
  cases c with
  | plain d => exact (comp_callsOk (c := d) hc.flows hd hc.onOff h).mono fun k h => up h
  | converter d =>
    obtain ⟨o0, h0, -, -, -, hs, -⟩ := converter_base h
    rw [hs]
    exact (comp_callsOk (c := d.comp) hc.flows hd hc.onOff h0).mono fun k h => up h
  | storage s =>
    obtain ⟨o', ho, rfl⟩ := map_ok.1 h
    obtain ⟨o0, h0, -, -, hinv, hs, -⟩ := storage_base ho
    rw [hs]
    have k1 := comp_callsOk (c := s.comp) (es := es) hc.flows hd (fun q hq => nomatch hq) h0
    have k2 : CallsOk es (CallOf es s.label invShareSufs) ((o'.invest.map (·.shares)).getD []) := by
      unfold storageInvest at hinv
      cases hcap : s.capacity with
      | num x =>
        rw [hcap] at hinv
        rw [← Except.ok.inj hinv]
        exact .nil
      | invest q =>
        rw [hcap] at hinv
        obtain ⟨oo, ho, ho'⟩ := map_ok.1 hinv
        rw [← ho']
        exact invest_callsOk (hc.capacity s rfl q hcap) ho
    refine CallsOk.append k1 k2 ?_ (fun k h => up h) (fun k h => Or.inl h.mono)
    rintro k (h1 | ⟨f, _, h1⟩) h2
    · exact h1.apart h2
    · exact flowFull_ne _ _ (h1.el h2)
  | transmission t =>
    obtain ⟨o', ho, rfl⟩ := map_ok.1 h
    obtain ⟨o0, h0, -, -, hs, -⟩ := trans_base ho
    rw [hs]
    have := comp_callsOk (c := t.comp sys.cfg) (es := es) ?_ (by rw [trans_labels]; exact hd) hc.onOff h0
    · rw [trans_labels] at this
      exact this.mono fun k h => up h
    · have hf : ∀ f ∈ (t.in1 :: t.in2.toList) ++ t.out1 :: t.out2.toList, f.Known es := hc.flows
      intro f hf'
      change f ∈ t.fill t.in1 :: (t.in2.map fun f => t.fillIn2 sys.cfg (t.fill f)).toList ++ t.fill t.out1 :: (t.out2.map t.fill).toList at hf'
      simp only [List.mem_append, List.mem_cons, Option.mem_toList, Option.map_eq_some_iff] at hf' hf
      rcases hf' with (rfl | ⟨g, hg, rfl⟩) | rfl | ⟨g, hg, rfl⟩
      · exact Tfill_known (hf _ (Or.inl (Or.inl rfl)))
      · exact Tfill2_known (Tfill_known (hf _ (Or.inl (Or.inr hg))))
      · exact Tfill_known (hf _ (Or.inr (Or.inl rfl)))
      · exact Tfill_known (hf _ (Or.inr (Or.inr hg)))

end Flix
