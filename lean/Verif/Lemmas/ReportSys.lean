import Verif.Lemmas.ReportComp2
import Verif.Lemmas.Collection
import Verif.Lemmas.SystemSem

/-!
# Nested results: the labels fit the models of effects, the whole system
-/

namespace Flix

theorem forall₂_known {α β : Type} {R S : α → β → Prop} {l : List α} {r : List β} (h : List.Forall₂ R l r)
    (hi : ∀ a ∈ l, ∀ b ∈ r, R a b → S a b) : List.Forall₂ S l r := by
  induction h with
  | nil => exact .nil
  | cons hc _ ih =>
    exact .cons (hi _ (by simp) _ (by simp) hc) (ih fun a ha b hb => hi a (by simp [ha]) b (by simp [hb]))

/-! ## Names of shares -/

/-- The name of a share made of a full label and a description. -/
def Joined (s : String) : Prop := ∃ a b, s = a ++ "__" ++ b

theorem joined_ne_self {s : String} (h : Joined s) : s ≠ "_self" := by
  rintro rfl
  obtain ⟨a, b, h⟩ := h
  have h' := congrArg String.toList h
  rw [String.toList_append, String.toList_append] at h'
  have hs : ['_', '_'] <:+: "_self".toList := ⟨a.toList, b.toList, by
    rw [h', show "__".toList = ['_', '_'] by decide +kernel]⟩
  revert hs
  decide +kernel

theorem sharesTo_joined {tg : Target} {el name : String} {vals : EffDict} {f : Num} {var : Option Var} {r : List ShareCall}
    (h : sharesTo tg el name vals f var = .ok r) : ∀ c ∈ r, Joined c.name := by
  intro c hc
  unfold sharesTo at h
  obtain ⟨q, _, hq⟩ := forall₂_mem_right (mapM_ok.1 h) hc
  obtain ⟨e, v⟩ := q
  simp only at hq
  peel hq with g, hg
  simp only [except_pure, Except.ok.injEq] at hq
  subst hq
  exact ⟨_, _, rfl⟩

theorem onOff_joined {sys : Sys} {el : String} {q : OnOffParams} {d : List (Var × Num × Num)} {o : OnOffOut}
    (h : onOffModel sys el q d = .ok o) : ∀ c ∈ o.shares, Joined c.name := by
  obtain ⟨_, _, _, _, _, _, _, _, _, -, -, -, -, -, -, -, -, -, -, -, -, -, -, -, -, -, -, -, sh1, sh2, h1, h2, h3⟩ := onOff_inv h
  have k1 : ∀ c ∈ sh1, Joined c.name := by
    first
    | exact sharesTo_joined h1
    | (split at h1
       · exact sharesTo_joined h1
       · cases h1; simp)
  have k2 : ∀ c ∈ sh2, Joined c.name := by
    first
    | exact sharesTo_joined h2
    | (split at h2
       · exact sharesTo_joined h2
       · cases h2; simp)
  intro c hc
  rw [h3] at hc
  exact (List.mem_append.1 hc).elim (k1 c) (k2 c)

theorem invest_joined {cfg : Cfg} {el : String} {q : InvestParams} {x : Var} {relMin relMax : Num} {profile : Option Num} {on : Option Var}
    {o : InvestOut} (h : investModel cfg el q x relMin relMax profile on = .ok o) : ∀ c ∈ o.shares, Joined c.name := by
  obtain ⟨s1, s2, s3, s4, -, -, -, -, h1, h2, h3, h4, h5⟩ := invest_inv h
  have k2 : ∀ c ∈ s2, Joined c.name := by
    unfold divestShares at h2
    split at h2
    · peel h2 with a, ha
      peel h2 with b, hb
      simp only [except_pure, Except.ok.injEq] at h2
      subst h2
      intro c hc
      exact (List.mem_append.1 hc).elim (sharesTo_joined ha c) (sharesTo_joined hb c)
    · simp only [Except.ok.injEq] at h2
      subst h2
      simp
  have k4 : ∀ c ∈ s4, Joined c.name := by
    unfold investSegments at h4
    cases hq : q.effectsInSegments with
    | none =>
      simp only [hq, Except.ok.injEq, Prod.mk.injEq] at h4
      rw [← h4.2]
      simp
    | some r =>
      obtain ⟨xs, es⟩ := r
      simp only [hq] at h4
      peel h4 with so, hso
      simp only [except_pure, Except.ok.injEq, Prod.mk.injEq] at h4
      rw [← h4.2]
      obtain ⟨-, segs, -, -, hsh⟩ := segmentedShares_inv hso
      rw [hsh]
      intro c hc
      obtain ⟨e, -, rfl⟩ := List.mem_map.1 hc
      exact ⟨_, _, rfl⟩
  intro c hc
  rw [h5] at hc
  simp only [List.mem_append] at hc
  rcases hc with ((hc | hc) | hc) | hc
  · exact sharesTo_joined h1 c hc
  · exact k2 c hc
  · exact sharesTo_joined h3 c hc
  · exact k4 c hc

theorem flow_joined {sys : Sys} {el : String} {f : FlowData} {o : FlowOut} (h : flowModel sys el f = .ok o) : ∀ c ∈ o.shares, Joined c.name := by
  obtain ⟨-, h2, h3, -, -, sh, h4, h5⟩ := flow_inv h
  intro c hc
  rw [h5] at hc
  simp only [List.mem_append] at hc
  rcases hc with (hc | hc) | hc
  · cases ho : o.onOff with
    | none => rw [ho] at hc; simp at hc
    | some oo =>
      rw [ho] at hc h2
      obtain ⟨q, -, hm⟩ := flowOnOff_some h2
      exact onOff_joined hm c hc
  · cases ho : o.invest with
    | none => rw [ho] at hc; simp at hc
    | some i =>
      rw [ho] at hc h3
      obtain ⟨q, -, hm⟩ := flowInvest_some h3
      exact invest_joined hm c hc
  · exact sharesTo_joined h4 c hc

theorem compData_joined {sys : Sys} {c : CompData} {o : CompOut} (h : compModel sys c = .ok o) : ∀ s ∈ o.shares, Joined s.name := by
  obtain ⟨h1, h2, h3, prev, -, -, -, -, h5⟩ := comp_inv h
  intro s hs
  rw [h5] at hs
  rcases List.mem_append.1 hs with hs | hs
  · obtain ⟨l, hl, hs⟩ := List.mem_flatten.1 hs
    obtain ⟨q, hq, rfl⟩ := List.mem_map.1 hl
    obtain ⟨f, -, -, hf⟩ := forall₂_mem_right (List.rel_append h1 h2) hq
    exact flow_joined hf s hs
  · cases hq : c.onOff with
    | none =>
      simp only [compOnOff, hq, Except.ok.injEq] at h3
      rw [← h3] at hs
      simp at hs
    | some q =>
      simp only [compOnOff, hq] at h3
      obtain ⟨oo, ho, ho'⟩ := map_ok.1 h3
      rw [← ho'] at hs
      exact onOff_joined ho s hs

theorem comp_joined {sys : Sys} {c : Comp} {o : CompOut} (h : c.model sys = .ok o) : ∀ s ∈ o.shares, Joined s.name := by
  cases c with
  | plain d => exact compData_joined (c := d) h
  | converter d =>
    obtain ⟨o0, h0, -, -, -, hs, -⟩ := converter_base h
    rw [hs]
    exact compData_joined h0
  | storage st =>
    simp only [Comp.model] at h
    obtain ⟨so, hs, rfl⟩ := map_ok.1 h
    obtain ⟨o0, h0, -, -, hinv, hsh, -⟩ := storage_base hs
    rw [hsh]
    intro s hm
    rcases List.mem_append.1 hm with hm | hm
    · exact compData_joined h0 s hm
    · unfold storageInvest at hinv
      cases hc : st.capacity with
      | num x =>
        simp only [hc, Except.ok.injEq] at hinv
        rw [← hinv] at hm
        simp at hm
      | invest q =>
        simp only [hc] at hinv
        obtain ⟨i, hi, hi'⟩ := map_ok.1 hinv
        rw [← hi'] at hm
        exact invest_joined hi s hm
  | transmission t =>
    simp only [Comp.model] at h
    obtain ⟨tr, ht, rfl⟩ := map_ok.1 h
    obtain ⟨o0, h0, -, -, hs, -⟩ := trans_base ht
    rw [hs]
    exact compData_joined h0

theorem bus_joined {sys : Sys} {b : BusData} {i o : List Var} {r : BusOut} (h : busModel sys b i o = .ok r) : ∀ s ∈ r.shares, Joined s.name := by
  unfold busModel at h
  simp only at h
  cases hp : b.excessPenalty with
  | none =>
    simp only [hp, Except.ok.injEq] at h
    subst h
    simp
  | some pen =>
    simp only [hp] at h
    peel h with f, hf
    peel h with ein, h1
    peel h with eout, h2
    simp only [except_pure, Except.ok.injEq] at h
    subst h
    intro s hs
    simp only [List.mem_cons, List.not_mem_nil, or_false] at hs
    rcases hs with rfl | rfl
    · exact ⟨b.label, "excess_input", by rw [String.append_assoc]; rfl⟩
    · exact ⟨b.label, "excess_output", by rw [String.append_assoc]; rfl⟩

/-! ## Share allocations -/

theorem samVars_labels {sys : Sys} {d : SamData} {vs : SamVars} (h : samVars sys d = .ok vs) :
    vs.sum.label = d.el ++ "__" ++ d.label ++ "_" ++ (d.label ++ "_sum") ∧
    ∀ ts, vs.sumTS = some ts → ts.label = d.el ++ "__" ++ d.label ++ "_" ++ (d.label ++ "_sum_TS") := by
  unfold samVars at h
  peel h with s, hs
  peel h with ts, hts
  simp only [except_pure, Except.ok.injEq] at h
  subst h
  refine ⟨by rw [(mkVar_ok hs).1], fun x hx => ?_⟩
  simp only at hx
  subst hx
  unfold samTS at hts
  split at hts
  · peel hts with lb, h1
    peel hts with ub, h2
    obtain ⟨y, hy, hy'⟩ := map_ok.1 hts
    cases hy'
    rw [(mkVar_ok hy).1]
  · simp at hts

theorem samTree_inv {d : SamData} {vs : SamVars} {calls : List Share} {tree : MTree} (h : samTree d vs calls = .ok tree) :
    ∃ cs ts, tree = .node (vs.sum :: vs.sumTS.toList) cs ts ∧ (calls.map (·.name)).Nodup ∧
      List.Forall₂ (fun c t => ∃ x cs', x.label = d.el ++ "__" ++ c.name ∧ t = .node [x] cs' []) calls ts := by
  unfold samTree at h
  simp only at h
  peel h with shares, hsh
  have hs : List.Forall₂ (fun c t => ∃ x cs', x.label = d.el ++ "__" ++ c.name ∧ t = MTree.node [x] cs' []) calls (shares.map (·.2.2)) := by
    rw [mapM_ok] at hsh
    clear h
    induction hsh with
    | nil => exact .nil
    | cons hc _ ih =>
      refine .cons ?_ ih
      peel hc with r, hr
      simp only [except_pure, Except.ok.injEq] at hc
      subst hc
      unfold singleShare at hr
      peel hr with s, hs
      simp only [except_pure, Except.ok.injEq] at hr
      subst hr
      exact ⟨s, _, by rw [(shareVar_ok hs).1, shareLabel], rfl⟩
  split at h
  · simp at h
  · rename_i hn
    cases hv : vs.sumTS with
    | none =>
      simp only [hv, Except.ok.injEq] at h
      exact ⟨_, _, h.symm, not_not.1 hn, hs⟩
    | some ts =>
      simp only [hv, Except.ok.injEq] at h
      exact ⟨_, _, h.symm, not_not.1 hn, hs⟩

theorem shareName_of {el name : String} {x : Var} {cs : List ConReq} (h : x.label = el ++ "__" ++ name) :
    shareName el (.node [x] cs []) = name := by
  unfold shareName
  apply String.toList_injective
  simp [MTree.ownVars, h]

theorem good_allocation {sys : Sys} {d : SamData} {vs : SamVars} {calls : List Share} {tree : MTree} (hv : samVars sys d = .ok vs)
    (h : samTree d vs calls = .ok tree) (hself : ∀ c ∈ calls, c.name ≠ "_self") (hl : tree.labels.Nodup) :
    Good (.allocation d.el d.label) tree := by
  obtain ⟨e1, e2⟩ := samVars_labels hv
  obtain ⟨cs, ts, rfl, hn, hs⟩ := samTree_inv h
  have hown : ∀ x ∈ vs.sum :: vs.sumTS.toList, ∃ s, x.label = d.el ++ "__" ++ d.label ++ "_" ++ s ∧ s ≠ "Shares" := by
    intro x hx
    rcases List.mem_cons.1 hx with rfl | hx
    · refine ⟨_, e1, fun e => ?_⟩
      have := congrArg (fun s : String => s.toList.getLast?) e
      simp at this
    · refine ⟨_, e2 x (by simpa using hx), fun e => ?_⟩
      have := congrArg (fun s : String => s.toList.getLast?) e
      simp at this
  have hkeys : (ts.map (shareNode d.el)).map NTree.key = calls.map (·.name) := by
    clear hself hn hl h
    induction hs with
    | nil => rfl
    | cons hc _ ih =>
      obtain ⟨x, cs', hx, rfl⟩ := hc
      simp only [List.map_cons, ih]
      rw [shareNode, NTree.key, shareName_of hx]
  have hshort : (ts.map (shareNode d.el)).flatMap NTree.shorts = calls.map (·.name) := by
    clear hself hn hl h hkeys
    induction hs with
    | nil => rfl
    | cons hc _ ih =>
      obtain ⟨x, cs', hx, rfl⟩ := hc
      simp only [List.map_cons, List.flatMap_cons, ih]
      rw [shareNode, NTree.shorts, shareName_of hx]
      simp [MTree.ownVars, shortLabel_self hx]
  have hleaf : ∀ t ∈ ts, t.nodes = [t] ∧ ∃ x cs', t = .node [x] cs' [] := by
    intro t ht
    obtain ⟨c, -, x, cs', -, rfl⟩ := forall₂_mem_right hs ht
    exact ⟨rfl, x, cs', rfl⟩
  have hself' : "_self" ∉ calls.map (·.name) := by
    intro hm
    obtain ⟨c, hc, e⟩ := List.mem_map.1 hm
    exact hself c hc e
  constructor
  · rw [NShape.annotate]
    refine .allocation ?_ (by rw [hshort]; exact hn)
    refine List.nodup_append.2 ⟨shorts_nodup (fun x hx => (hown x hx).imp fun s h => h.1) (own_labels hl), by simp, ?_⟩
    rintro a ha b hb rfl
    obtain ⟨x, hx, e⟩ := List.mem_map.1 ha
    obtain ⟨s, h1, h2⟩ := hown x hx
    rw [shortLabel_of h1] at e
    exact h2 (e.trans (List.mem_singleton.1 hb))
  · intro m hm x hx
    rw [NShape.annotate]
    rw [MTree.nodes, List.mem_cons] at hm
    rcases hm with rfl | hm
    · exact ⟨_, .own hx⟩
    · obtain ⟨t, ht, hm⟩ := mem_nodesAll.1 hm
      obtain ⟨hN, y, cs', rfl⟩ := hleaf t ht
      rw [hN, List.mem_singleton] at hm
      subst hm
      exact ⟨_, .share (List.mem_map.2 ⟨_, ht, rfl⟩) hx⟩
  · rw [NShape.annotate]
    refine .node ?_ ?_
    · rw [hkeys]
      exact List.nodup_cons.2 ⟨hself', hn⟩
    · intro u hu
      obtain ⟨t, -, rfl⟩ := List.mem_map.1 hu
      exact .node (by simp) (by simp)
  · intro m hm
    rw [NShape.annotate]
    rw [MTree.nodes, List.mem_cons] at hm
    rcases hm with rfl | hm
    · exact ⟨_, _, .here _, rfl, rfl⟩
    · obtain ⟨t, ht, hm⟩ := mem_nodesAll.1 hm
      obtain ⟨hN, y, cs', rfl⟩ := hleaf t ht
      rw [hN, List.mem_singleton] at hm
      subst hm
      exact ⟨_, _, .sub (List.mem_map.2 ⟨_, ht, rfl⟩) (.here _), rfl, rfl⟩

/-! ## Effects -/

theorem effectVars_inv {sys : Sys} {e : EffectData} {ev : EffectVars} (h : effectVars sys e = .ok ev) :
    ev.data = e ∧ samVars sys e.invest = .ok ev.invest ∧ samVars sys e.operation = .ok ev.operation ∧ samVars sys e.all = .ok ev.all := by
  unfold effectVars at h
  peel h with i, hi
  peel h with o, ho
  peel h with a, ha
  simp only [except_pure, Except.ok.injEq] at h
  subst h
  exact ⟨rfl, hi, ho, ha⟩

/-- The names of addressed shares are not `_self`. -/
theorem sharesFor_ne_self {t : Target} {l : String} {cs : List Addressed} (h : ∀ c ∈ cs, c.share.name ≠ "_self") :
    ∀ c ∈ sharesFor t l cs, c.name ≠ "_self" := by
  intro c hc
  obtain ⟨a, ha, e⟩ := List.mem_filterMap.1 hc
  split at e
  · cases e
    exact h a ha
  · cases e

theorem address_name {es : List EffectData} {c : ShareCall} {a : Addressed} (h : address es c = .ok a) : a.share.name = c.name := by
  unfold address at h
  cases hc : c.target <;> simp only [hc] at h
  · peel h with l, hl
    simp only [except_pure, Except.ok.injEq] at h
    subst h
    rfl
  · peel h with l, hl
    simp only [except_pure, Except.ok.injEq] at h
    subst h
    rfl
  · simp only [Except.ok.injEq] at h
    subst h
    rfl

theorem between_ne_self {es : List EffectVars} {ev : EffectVars} {b : List Addressed} (h : betweenOf es ev = .ok b) :
    ∀ a ∈ b, a.share.name ≠ "_self" := by
  unfold betweenOf at h
  simp only at h
  peel h with x, hx
  peel h with y, hy
  simp only [except_pure, Except.ok.injEq] at h
  subst h
  have last : ∀ {l : String} {s : String}, l ++ s = "_self" → s.toList.getLast? = none ∨ s.toList.getLast? = some 'f' := by
    intro l s e
    have h' := congrArg (fun s : String => s.toList.getLast?) e
    simp only [String.toList_append, List.getLast?_append] at h'
    cases hs : s.toList.getLast? with
    | none => exact Or.inl rfl
    | some c =>
      rw [hs] at h'
      right
      simpa using h'
  intro a ha
  rcases List.mem_append.1 ha with ha | ha
  · obtain ⟨q, -, hq⟩ := forall₂_mem_right (mapM_ok.1 hx) ha
    split at hq
    · cases hq
      intro e
      rcases last e with h | h <;> revert h <;> decide +kernel
    · cases hq
  · obtain ⟨q, -, hq⟩ := forall₂_mem_right (mapM_ok.1 hy) ha
    split at hq
    · cases hq
      intro e
      rcases last e with h | h <;> revert h <;> decide +kernel
    · cases hq

theorem good_effect {sys : Sys} {e : EffectData} {ev : EffectVars} {cs : List Addressed} {tree : MTree} (hv : effectVars sys e = .ok ev)
    (h : effectTree cs ev = .ok tree) (hself : ∀ c ∈ cs, c.share.name ≠ "_self") (hl : tree.labels.Nodup) : Good e.shape tree := by
  obtain ⟨rfl, v1, v2, v3⟩ := effectVars_inv hv
  unfold effectTree at h
  peel h with i, hi
  peel h with o, ho
  peel h with a, ha
  simp only [except_pure, Except.ok.injEq] at h
  subst h
  refine good_model (by simp) (by simp) (show ["_self", "invest", "operation", "all"].Nodup by decide +kernel) (.cons ?_ (.cons ?_ (.cons ?_ .nil)))
  · exact good_allocation v1 hi (sharesFor_ne_self hself) (sub_labels hl (by simp))
  · exact good_allocation v2 ho (sharesFor_ne_self hself) (sub_labels hl (by simp))
  · refine good_allocation v3 ha ?_ (sub_labels hl (by simp))
    intro c hc
    simp only [List.mem_cons, List.not_mem_nil, or_false] at hc
    rcases hc with rfl | rfl
    · exact (by decide +kernel : ("operation" : String) ≠ "_self")
    · exact (by decide +kernel : ("invest" : String) ≠ "_self")

theorem good_coll {sys : Sys} {es : List EffectData} {calls : List ShareCall} {o : CollOut} (h : collectionModel sys es calls = .ok o)
    (hj : ∀ c ∈ calls, Joined c.name) (hn : ∀ e ∈ es, IsName e.label) (hd : (es.map (·.label)).Nodup) (hp : ∀ e ∈ es, e.label ≠ "penalty")
    (hl : o.tree.labels.Nodup) : Good (collShape es) o.tree := by
  obtain ⟨between, addressed, trees, pt, h1, h2, h3, -, h5, h6, h7, ht⟩ := collection_inv h
  have hself : ∀ c ∈ between.flatten ++ addressed, c.share.name ≠ "_self" := by
    intro c hc
    rcases List.mem_append.1 hc with hc | hc
    · obtain ⟨l, hl, hc⟩ := List.mem_flatten.1 hc
      obtain ⟨ev, -, hb⟩ := forall₂_mem_right h3 hl
      exact between_ne_self hb c hc
    · obtain ⟨s, hs, ha⟩ := forall₂_mem_right h5 hc
      rw [address_name ha]
      exact joined_ne_self (hj s hs)
  rw [ht] at hl ⊢
  have hk : (es.map EffectData.shape ++ [NShape.allocation "Effects" "penalty"]).map NShape.key = es.map (·.label) ++ ["penalty"] := by
    rw [List.map_append, List.map_map]
    rfl
  refine good_model (by simp) (by simp) ?_ (List.rel_append ?_ (.cons ?_ .nil))
  · rw [hk, List.nodup_cons, List.nodup_append]
    refine ⟨fun hm => ?_, hd, by simp, ?_⟩
    · rcases List.mem_append.1 hm with hm | hm
      · obtain ⟨e, he, e'⟩ := List.mem_map.1 hm
        exact isName_ne_self (hn e he) e'
      · exact absurd hm (by decide +kernel)
    · rintro a ha b hb rfl
      obtain ⟨e, he, e'⟩ := List.mem_map.1 ha
      exact hp e he (e'.trans (List.mem_singleton.1 hb))
  · have hl' : ∀ t ∈ trees, t.labels.Nodup := fun t ht => sub_labels hl (List.mem_append_left _ ht)
    clear hk hl ht h7 h5 h3 h2 h hn hd hp hj
    generalize o.effects = evs at h1 h6
    induction h1 generalizing trees with
    | nil => cases h6; exact .nil
    | cons he _ ih =>
      cases h6 with
      | cons hx hxs => exact .cons (good_effect he hx hself (hl' _ (by simp))) (ih _ (fun t ht => hl' t (by simp [ht])) hxs)
  · exact good_allocation (d := penaltyData) h2 h7 (sharesFor_ne_self hself) (sub_labels hl (by simp))

/-! ## The whole system -/

/-- The labels fit all models of a system. -/
theorem good_system {sys : Sys} {s : System} {o : SysOut} (hr : s.Reportable) (h : systemModel sys s = .ok o) :
    Good (collShape s.effects) o.coll.tree ∧
    List.Forall₂ (fun c oc => Good (Comp.shape sys.cfg c) (CompOut.tree oc)) s.comps o.comps ∧
    List.Forall₂ (fun (b : BusData) (ob : BusOut) => Good b.shape ob.tree) s.buses o.buses := by
  obtain ⟨h1, h2, h3, h4⟩ := system_inv h
  have hperm := collectModel_perm h4
  have hn : ((MTree.nodesAll (o.coll.tree :: o.comps.map CompOut.tree ++ o.buses.map (·.tree))).flatMap MTree.vars |>.map Var.label).Nodup :=
    (hperm.1.map _).nodup_iff.1 hperm.2.2.1
  have hlab : ∀ t ∈ o.coll.tree :: o.comps.map CompOut.tree ++ o.buses.map (·.tree), t.labels.Nodup := by
    intro t ht
    obtain ⟨a, b, hab⟩ := List.append_of_mem ht
    rw [hab] at hn
    unfold MTree.labels
    have hsplit : ∀ (a b : List MTree), MTree.nodesAll (a ++ b) = MTree.nodesAll a ++ MTree.nodesAll b := by
      intro a b
      induction a with
      | nil => rfl
      | cons t ts ih => simp [MTree.nodesAll, ih]
    rw [hsplit, MTree.nodesAll] at hn
    simp only [List.flatMap_append, List.map_append] at hn
    exact (List.nodup_append.1 (List.nodup_append.1 hn).2.1).1
  have hcalls : ∀ c ∈ o.calls, Joined c.name := by
    intro c hc
    unfold SysOut.calls at hc
    rcases List.mem_append.1 hc with hc | hc
    · obtain ⟨l, hl, hc⟩ := List.mem_flatten.1 hc
      obtain ⟨oc, hoc, rfl⟩ := List.mem_map.1 hl
      obtain ⟨d, -, hd⟩ := forall₂_mem_right h1 hoc
      exact comp_joined hd c hc
    · obtain ⟨l, hl, hc⟩ := List.mem_flatten.1 hc
      obtain ⟨ob, hob, rfl⟩ := List.mem_map.1 hl
      obtain ⟨d, -, hd⟩ := forall₂_mem_right h2 hob
      exact bus_joined hd c hc
  have heff : ∀ e ∈ s.effects, e.label ∈ s.labels := fun e he => List.mem_append_right _ (List.mem_map_of_mem he)
  refine ⟨good_coll h3 hcalls (fun e he => hr.names _ (heff e he)) (List.nodup_append.1 hr.distinct).2.1 hr.effectFree (hlab _ (by simp)), ?_, ?_⟩
  · refine forall₂_known h1 fun c hc oc hm hoc => ?_
    refine good_comp hoc (hr.flowNames c hc) (hr.flowDistinct c hc) (hr.flowFree c hc) (hlab _ ?_)
    exact List.mem_append_left _ (List.mem_cons_of_mem _ (List.mem_map_of_mem hm))
  · refine forall₂_known h2 fun b hb ob hm hob => ?_
    exact good_bus hob (hlab _ (List.mem_append_right _ (List.mem_map_of_mem (f := fun b : BusOut => b.tree) hm)))

end Flix
