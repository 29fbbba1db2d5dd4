import Verif.Lemmas.Effects
import Verif.Lemmas.Flow
import Mathlib.Tactic.IntervalCases

/-! # The effect collection row by row -/

namespace Flix

theorem forall₂_mem_left {α β} {R : α → β → Prop} {l : List α} {r : List β} (h : List.Forall₂ R l r) {a : α} (ha : a ∈ l) :
    ∃ b ∈ r, R a b := by
  induction h with
  | nil => simp at ha
  | cons h _ ih =>
    rcases List.mem_cons.1 ha with rfl | ha
    · exact ⟨_, List.mem_cons_self, h⟩
    · obtain ⟨b, hb, hr⟩ := ih ha
      exact ⟨b, List.mem_cons_of_mem _ hb, hr⟩

theorem forall₂_mem_right {α β} {R : α → β → Prop} {l : List α} {r : List β} (h : List.Forall₂ R l r) {b : β} (hb : b ∈ r) :
    ∃ a ∈ l, R a b := by
  induction h with
  | nil => simp at hb
  | cons h _ ih =>
    rcases List.mem_cons.1 hb with rfl | hb
    · exact ⟨_, List.mem_cons_self, h⟩
    · obtain ⟨a, ha, hr⟩ := ih hb
      exact ⟨a, List.mem_cons_of_mem _ ha, hr⟩

theorem collection_inv {sys : Sys} {es : List EffectData} {calls : List ShareCall} {o : CollOut}
    (h : collectionModel sys es calls = .ok o) : ∃ between addressed trees pt,
      List.Forall₂ (fun e ev => effectVars sys e = .ok ev) es o.effects ∧ samVars sys penaltyData = .ok o.penalty ∧
      List.Forall₂ (fun ev b => betweenOf o.effects ev = .ok b) o.effects between ∧
      objectiveOps o.effects o.penalty = .ok o.objective ∧
      List.Forall₂ (fun c a => address es c = .ok a) calls addressed ∧
      List.Forall₂ (fun ev t => effectTree (between.flatten ++ addressed) ev = .ok t) o.effects trees ∧
      samTree penaltyData o.penalty (sharesFor .penalty "" (between.flatten ++ addressed)) = .ok pt ∧
      o.tree = .node [] [] (trees ++ [pt]) := by
  unfold collectionModel at h
  peel h with evs, h1
  peel h with pv, h2
  peel h with between, h3
  peel h with obj, h4
  peel h with addressed, h5
  peel h with trees, h6
  peel h with pt, h7
  simp only [except_pure, Except.ok.injEq] at h
  subst h
  rw [mapM_ok] at h1 h3 h5 h6
  exact ⟨between, addressed, trees, pt, h1, h2, h3, h4, h5, h6, h7, rfl⟩

/-- The shapes and labels of the variables of an effect. -/
structure EvShape (sys : Sys) (e : EffectData) (ev : EffectVars) : Prop where
  data : ev.data = e
  opSum : ev.operation.sum.label = opSumL e.label
  opSum1 : ev.operation.sum.length = 1
  opTS : ∃ ts, ev.operation.sumTS = some ts ∧ ts.length = sys.n ∧ ts.label = opTSL e.label
  invSum : ev.invest.sum.label = invSumL e.label
  invSum1 : ev.invest.sum.length = 1
  invTS : ev.invest.sumTS = none
  allSum : ev.all.sum.label = allSumL e.label
  allSum1 : ev.all.sum.length = 1
  allTS : ev.all.sumTS = none

theorem effectVars_ok {sys : Sys} (hv : sys.Valid) {e : EffectData} {ev : EffectVars} (hf : e.Fits sys.n)
    (h : effectVars sys e = .ok ev) : EvShape sys e ev ∧
      samVars sys e.invest = .ok ev.invest ∧ samVars sys e.operation = .ok ev.operation ∧ samVars sys e.all = .ok ev.all := by
  unfold effectVars at h
  peel h with i, hi
  peel h with o, ho
  peel h with a, ha
  simp only [except_pure, Except.ok.injEq] at h
  subst h
  obtain ⟨a1, a2, _, a4, _⟩ := samVars_iff hv hi (by simp [EffectData.invest]) (by simp [EffectData.invest])
  obtain ⟨b1, b2, b3, _, _⟩ := samVars_iff hv ho hf.minH hf.maxH
  obtain ⟨c1, c2, _, c4, _⟩ := samVars_iff hv ha (by simp [EffectData.all]) (by simp [EffectData.all])
  obtain ⟨ts, t1, t2, t3⟩ := b3 rfl
  refine ⟨⟨rfl, ?_, b2, ⟨ts, t1, t2, ?_⟩, ?_, a2, a4 rfl, ?_, c2, c4 rfl⟩, hi, ho, ha⟩
  · rw [b1]; simp [EffectData.operation, opSumL, String.append_assoc]
  · rw [t3]; simp [EffectData.operation, opTSL, String.append_assoc]
  · rw [a1]; simp [EffectData.invest, invSumL, String.append_assoc]
  · rw [c1]; simp [EffectData.all, allSumL, String.append_assoc]

/-- The label a call is addressed to. -/
def ShareCall.labelIn (es : List EffectData) (c : ShareCall) : String :=
  match c.target with
  | .penalty => ""
  | _ => match c.effect with
    | some e => e
    | none => (standardOf es).getD ""

theorem address_ok {es : List EffectData} {c : ShareCall} {a : Addressed} (h : address es c = .ok a) :
    a = ⟨c.target, c.labelIn es, c.share⟩ ∧ (c.target ≠ .penalty → c.effect = none → ∃ l, standardOf es = some l) := by
  unfold address at h
  cases ht : c.target with
  | penalty =>
    rw [ht] at h; simp at h; subst h
    simp [ShareCall.labelIn, ht, ShareCall.share]
  | operation =>
    rw [ht] at h; simp only at h
    peel h with l, hl
    simp only [except_pure, Except.ok.injEq] at h
    subst h
    unfold resolveEffect at hl
    cases he : c.effect with
    | none =>
      rw [he] at hl; simp only at hl
      cases hs : standardOf es with
      | none => rw [hs] at hl; simp at hl
      | some l' => rw [hs] at hl; simp at hl; subst hl; simp [ShareCall.labelIn, ht, he, hs, ShareCall.share]
    | some l' =>
      rw [he] at hl; simp only at hl
      split at hl
      · simp at hl; subst hl; simp [ShareCall.labelIn, ht, he, ShareCall.share]
      · simp at hl
  | invest =>
    rw [ht] at h; simp only at h
    peel h with l, hl
    simp only [except_pure, Except.ok.injEq] at h
    subst h
    unfold resolveEffect at hl
    cases he : c.effect with
    | none =>
      rw [he] at hl; simp only at hl
      cases hs : standardOf es with
      | none => rw [hs] at hl; simp at hl
      | some l' => rw [hs] at hl; simp at hl; subst hl; simp [ShareCall.labelIn, ht, he, hs, ShareCall.share]
    | some l' =>
      rw [he] at hl; simp only at hl
      split at hl
      · simp at hl; subst hl; simp [ShareCall.labelIn, ht, he, ShareCall.share]
      · simp at hl

/-- Shares of an effect to the operation of another one. -/
def opShare (ev : EffectVars) (f : Num) : Share := ⟨ev.data.label ++ "_operation", ev.operation.sumTS, f, false⟩
def invShare (ev : EffectVars) (f : Num) : Share := ⟨ev.data.label ++ "_invest", some ev.invest.sum, f, false⟩

theorem betweenOf_ok {evs : List EffectVars} {ev : EffectVars} {b : List Addressed} (h : betweenOf evs ev = .ok b) :
    b = (ev.data.shareOperation.map fun q => ⟨.operation, q.1, opShare ev q.2⟩) ++
      (ev.data.shareInvest.map fun q => ⟨.invest, q.1, invShare ev q.2⟩) := by
  unfold betweenOf at h
  peel h with a, ha
  peel h with b', hb
  simp only [except_pure, Except.ok.injEq] at h
  subst h
  rw [mapM_ok] at ha hb
  congr 1
  · apply forall₂_eq_map
    refine forall₂_imp' ha ?_
    intro q _ r hr
    split at hr
    · simp only [Except.ok.injEq] at hr; rw [← hr]; rfl
    · simp at hr
  · apply forall₂_eq_map
    refine forall₂_imp' hb ?_
    intro q _ r hr
    split at hr
    · simp only [Except.ok.injEq] at hr; rw [← hr]; rfl
    · simp at hr

theorem sharesFor_append (t : Target) (l : String) (a b : List Addressed) : sharesFor t l (a ++ b) = sharesFor t l a ++ sharesFor t l b := by
  simp [sharesFor]

theorem sharesFor_flatten (t : Target) (l : String) (bs : List (List Addressed)) :
    sharesFor t l bs.flatten = (bs.map (sharesFor t l)).flatten := by
  induction bs with
  | nil => rfl
  | cons b bs ih => simp [sharesFor_append, ih]

theorem standardOf_eq (es : List EffectData) : standardOf es = (es.find? (·.isStandard)).map (·.label) := rfl

theorem goesTo_iff {es : List EffectData} {c : ShareCall} {a : Addressed} (h : address es c = .ok a) {t : Target} (ht : t ≠ .penalty) (l : String) :
    ShareCall.goesTo es t l c = decide (c.target = t ∧ c.labelIn es = l) := by
  obtain ⟨_, h2⟩ := address_ok h
  unfold ShareCall.goesTo
  by_cases hc : c.target = t
  · have hp : c.target ≠ .penalty := by rw [hc]; exact ht
    have hl : c.labelIn es = match c.effect with | some e => e | none => (standardOf es).getD "" := by
      unfold ShareCall.labelIn
      cases hct : c.target with
      | penalty => exact absurd hct hp
      | operation => rfl
      | invest => rfl
    cases he : c.effect with
    | some e => rw [he] at hl; simp [hc, hl]
    | none =>
      obtain ⟨l', hl'⟩ := h2 hp he
      rw [he, hl'] at hl
      rw [standardOf_eq] at hl'
      cases hf : es.find? (·.isStandard) with
      | none => rw [hf] at hl'; simp at hl'
      | some e => rw [hf] at hl'; simp at hl'; simp [hc, hl, hl']
  · simp [hc]

theorem sharesFor_addressed {es : List EffectData} {calls : List ShareCall} {addressed : List Addressed}
    (h : List.Forall₂ (fun c a => address es c = .ok a) calls addressed) {t : Target} (ht : t ≠ .penalty) (l : String) :
    sharesFor t l addressed = (calls.filter (ShareCall.goesTo es t l)).map (·.share) := by
  induction h with
  | nil => rfl
  | cons hc _ ih =>
    rename_i c a cs as _
    have hg := goesTo_iff hc ht l
    obtain ⟨h1, _⟩ := address_ok hc
    simp only [sharesFor, List.filterMap_cons, List.filter_cons, hg] at ih ⊢
    subst h1
    by_cases hh : c.target = t ∧ c.labelIn es = l
    · simp [hh, ih]
    · simp [hh, ih]

theorem sharesFor_penalty {es : List EffectData} {calls : List ShareCall} {addressed : List Addressed}
    (h : List.Forall₂ (fun c a => address es c = .ok a) calls addressed) :
    sharesFor .penalty "" addressed = (calls.filter fun c => decide (c.target = .penalty)).map (·.share) := by
  induction h with
  | nil => rfl
  | cons hc _ ih =>
    rename_i c a cs as _
    obtain ⟨h1, _⟩ := address_ok hc
    subst h1
    simp only [sharesFor, List.filterMap_cons, List.filter_cons] at ih ⊢
    by_cases hh : c.target = .penalty
    · have : c.labelIn es = "" := by simp [ShareCall.labelIn, hh]
      simp [hh, ih, this]
    · simp [hh, ih]

/-- Shares from other effects. -/
def othersOp (evs : List EffectVars) (l : String) : List Share :=
  (evs.map fun ev => (ev.data.shareOperation.filter fun q => q.1 = l).map fun q => opShare ev q.2).flatten
def othersInv (evs : List EffectVars) (l : String) : List Share :=
  (evs.map fun ev => (ev.data.shareInvest.filter fun q => q.1 = l).map fun q => invShare ev q.2).flatten

theorem sharesFor_between {evs evs' : List EffectVars} {between : List (List Addressed)}
    (h : List.Forall₂ (fun ev b => betweenOf evs' ev = .ok b) evs between) (l : String) :
    sharesFor .operation l between.flatten = othersOp evs l ∧ sharesFor .invest l between.flatten = othersInv evs l ∧
    sharesFor .penalty l between.flatten = [] := by
  have e1 : ∀ (ev : EffectVars) (xs : List (String × Num)), sharesFor .operation l (xs.map fun q => ⟨.operation, q.1, opShare ev q.2⟩) =
      (xs.filter fun q => q.1 = l).map fun q => opShare ev q.2 := by
    intro ev xs
    induction xs with
    | nil => rfl
    | cons x xs ih =>
      simp only [sharesFor, List.map_cons, List.filterMap_cons, List.filter_cons] at ih ⊢
      by_cases hx : x.1 = l <;> simp [hx, ih]
  have e2 : ∀ (ev : EffectVars) (xs : List (String × Num)), sharesFor .invest l (xs.map fun q => ⟨.invest, q.1, invShare ev q.2⟩) =
      (xs.filter fun q => q.1 = l).map fun q => invShare ev q.2 := by
    intro ev xs
    induction xs with
    | nil => rfl
    | cons x xs ih =>
      simp only [sharesFor, List.map_cons, List.filterMap_cons, List.filter_cons] at ih ⊢
      by_cases hx : x.1 = l <;> simp [hx, ih]
  have e0 : ∀ (tg tg' : Target) (g : String × Num → Share) (xs : List (String × Num)), tg' ≠ tg →
      sharesFor tg l (xs.map fun q => ⟨tg', q.1, g q⟩) = [] := by
    intro tg tg' g xs hne
    induction xs with
    | nil => rfl
    | cons x xs ih =>
      simp only [sharesFor, List.map_cons, List.filterMap_cons] at ih ⊢
      simp [hne, ih]
  rw [sharesFor_flatten, sharesFor_flatten, sharesFor_flatten]
  induction h with
  | nil => simp [othersOp, othersInv]
  | cons hb _ ih =>
    obtain ⟨i1, i2, i3⟩ := ih
    have := betweenOf_ok hb
    subst this
    simp only [List.map_cons, List.flatten_cons, sharesFor_append, e1, e2, i1, i2, i3]
    rw [e0 .operation .invest _ _ (by decide), e0 .invest .operation _ _ (by decide), e0 .penalty .operation _ _ (by decide),
      e0 .penalty .invest _ _ (by decide)]
    simp [othersOp, othersInv]

theorem alloc_ts {σ : Assignment} {n : Nat} {sum x : Nat → ℚ} {calls : List Share} (hc : ∀ c ∈ calls, c.asSum = false) :
    Allocates σ true n sum (some x) calls ↔
      (∀ t < n, x t = (calls.map fun c => c.value σ t).sum) ∧ sum 0 = ∑ t ∈ Finset.range n, x t := by
  have h1 : (calls.filter fun c => !Share.inTotal true c) = calls := by
    rw [List.filter_eq_self]; intro c hcc; simp [Share.inTotal, hc c hcc]
  have h2 : calls.filter (Share.inTotal true) = [] := by
    rw [List.filter_eq_nil_iff]; intro c hcc; simp [Share.inTotal, hc c hcc]
  constructor
  · rintro ⟨a, b⟩
    rw [h2] at b
    refine ⟨fun t ht => ?_, by simpa using b⟩
    have := a x rfl t ht
    rwa [h1] at this
  · rintro ⟨a, b⟩
    refine ⟨?_, ?_⟩
    · rintro y hy t ht
      cases hy
      rw [h1]; exact a t ht
    · rw [h2]; simpa using b

theorem alloc_scalar {σ : Assignment} {n : Nat} {sum : Nat → ℚ} {calls : List Share} :
    Allocates σ false n sum none calls ↔ sum 0 = (calls.map fun c => c.value σ 0).sum := by
  have h2 : calls.filter (Share.inTotal false) = calls := by
    rw [List.filter_eq_self]; intro c _; simp [Share.inTotal]
  constructor
  · rintro ⟨_, b⟩
    rw [h2] at b; simpa using b
  · intro b
    refine ⟨by simp, ?_⟩
    rw [h2]; simpa using b

theorem othersOp_value {sys : Sys} {es : List EffectData} {evs : List EffectVars} (h : List.Forall₂ (EvShape sys) es evs)
    (σ : Assignment) (l : String) {t : Nat} (ht : t < sys.n) :
    ((othersOp evs l).map fun c => c.value σ t).sum = fromOthersOp σ es l t := by
  unfold othersOp fromOthersOp
  induction h with
  | nil => simp
  | cons he _ ih =>
    rename_i e ev es' evs' _
    simp only [List.map_cons, List.flatten_cons, List.map_append, List.sum_append, List.sum_cons, ih, he.data, List.map_map]
    congr 2
    apply List.map_congr_left
    intro q _
    obtain ⟨ts, h1, h2, h3⟩ := he.opTS
    simp only [Function.comp_apply, opShare, Share.value, h1, h2, h3]
    simp only [Bool.false_eq_true, if_false]
    split
    · rename_i hh; rw [hh] at ht; interval_cases t; simp
    · simp

theorem othersInv_value {sys : Sys} {es : List EffectData} {evs : List EffectVars} (h : List.Forall₂ (EvShape sys) es evs)
    (σ : Assignment) (l : String) :
    ((othersInv evs l).map fun c => c.value σ 0).sum = fromOthersInv σ es l := by
  unfold othersInv fromOthersInv
  induction h with
  | nil => simp
  | cons he _ ih =>
    rename_i e ev es' evs' _
    simp only [List.map_cons, List.flatten_cons, List.map_append, List.sum_append, List.sum_cons, ih, he.data, List.map_map]
    congr 2
    apply List.map_congr_left
    intro q _
    simp [invShare, Share.value, he.invSum]

/-- The shares of the three allocations of an effect. -/
def opShares (es : List EffectData) (evs : List EffectVars) (calls : List ShareCall) (l : String) : List Share :=
  othersOp evs l ++ (calls.filter (ShareCall.goesTo es .operation l)).map (·.share)
def invShares (es : List EffectData) (evs : List EffectVars) (calls : List ShareCall) (l : String) : List Share :=
  othersInv evs l ++ (calls.filter (ShareCall.goesTo es .invest l)).map (·.share)
def penaltyShares (calls : List ShareCall) : List Share := (calls.filter fun c => decide (c.target = .penalty)).map (·.share)

/-- Every share variable has the value of its share. -/
def SharesHold (σ : Assignment) (el : String) (shares : List Share) : Prop :=
  ∀ c ∈ shares, ∀ t < c.varLen, σ (shareLabel el c.name) t = c.value σ t

/-- What the model of one effect says. -/
structure EffectRows (sys : Sys) (es : List EffectData) (calls : List ShareCall) (e : EffectData) (σ : Assignment) : Prop where
  opStep : ∀ t < sys.n, σ (opTSL e.label) t = direct σ es calls .operation e.label t + fromOthersOp σ es e.label t
  opTotal : σ (opSumL e.label) 0 = ∑ t ∈ Finset.range sys.n, σ (opTSL e.label) t
  inv : σ (invSumL e.label) 0 = direct σ es calls .invest e.label 0 + fromOthersInv σ es e.label
  all : σ (allSumL e.label) 0 = σ (opSumL e.label) 0 + σ (invSumL e.label) 0
  opBounds : SamBounds sys e.operation (σ (opSumL e.label)) (some (σ (opTSL e.label)))
  invBounds : SamBounds sys e.invest (σ (invSumL e.label)) none
  allBounds : SamBounds sys e.all (σ (allSumL e.label)) none

theorem goesTo_target {es : List EffectData} {t : Target} {l : String} {c : ShareCall} (h : ShareCall.goesTo es t l c = true) : c.target = t := by
  unfold ShareCall.goesTo at h
  simp at h
  exact h.1

theorem effectTree_iff {sys : Sys} (hv : sys.Valid) (hn : sys.n ≠ 0) {es : List EffectData} {evs : List EffectVars} {calls : List ShareCall}
    {e : EffectData} {ev : EffectVars} {tree : MTree} {cs : List Addressed} (hf : ∀ e ∈ es, e.Fits sys.n)
    (hsh : List.Forall₂ (EvShape sys) es evs) (he : e.Fits sys.n) (hev : effectVars sys e = .ok ev)
    (hw : ∀ c ∈ calls, c.WellFormed sys.n)
    (h : effectTree cs ev = .ok tree) (hop : sharesFor .operation e.label cs = opShares es evs calls e.label)
    (hin : sharesFor .invest e.label cs = invShares es evs calls e.label) :
    ((opShares es evs calls e.label).map (·.name)).Nodup ∧ ((invShares es evs calls e.label).map (·.name)).Nodup ∧
    ∀ σ : Assignment, tree.Solves σ ↔ EffectRows sys es calls e σ ∧ SharesHold σ e.label (opShares es evs calls e.label) ∧
      SharesHold σ e.label (invShares es evs calls e.label) ∧
      (σ (shareLabel e.label "operation") 0 = σ (opSumL e.label) 0 ∧ σ (shareLabel e.label "invest") 0 = σ (invSumL e.label) 0) := by
  obtain ⟨hs, hi, ho, ha⟩ := effectVars_ok hv he hev
  unfold effectTree at h
  rw [hs.data, hop, hin] at h
  peel h with ti, hti
  peel h with tO, hto
  peel h with ta, hta
  simp only [except_pure, Except.ok.injEq] at h
  subst h
  obtain ⟨ts, hts1, hts2, hts3⟩ := hs.opTS
  have wfIn : ∀ c ∈ invShares es evs calls e.label, c.WellFormed false sys.n := by
    intro c hc
    unfold invShares at hc
    rcases List.mem_append.1 hc with hc | hc
    · unfold othersInv at hc
      rw [List.mem_flatten] at hc
      obtain ⟨l', hl', hc⟩ := hc
      obtain ⟨ev', hev', rfl⟩ := List.mem_map.1 hl'
      obtain ⟨q, hq, rfl⟩ := List.mem_map.1 hc
      obtain ⟨e', he', hsh'⟩ := forall₂_mem_right hsh hev'
      have hqs := (hf e' he').inv q (by have := (List.mem_filter.1 hq).1; rwa [hsh'.data] at this)
      have : q.2.len = 1 := scalar_len hqs
      simp [invShare, Share.WellFormed, hsh'.invSum1, hqs, this]
    · obtain ⟨c', hc', rfl⟩ := List.mem_map.1 hc
      obtain ⟨hm, hg⟩ := List.mem_filter.1 hc'
      have := hw c' hm
      unfold ShareCall.WellFormed at this
      rw [goesTo_target hg] at this
      exact this.2
  have wfOp : ∀ c ∈ opShares es evs calls e.label, c.asSum = false ∧ c.WellFormed true sys.n := by
    intro c hc
    unfold opShares at hc
    rcases List.mem_append.1 hc with hc | hc
    · unfold othersOp at hc
      rw [List.mem_flatten] at hc
      obtain ⟨l', hl', hc⟩ := hc
      obtain ⟨ev', hev', rfl⟩ := List.mem_map.1 hl'
      obtain ⟨q, hq, rfl⟩ := List.mem_map.1 hc
      obtain ⟨e', he', hsh'⟩ := forall₂_mem_right hsh hev'
      have hqs := (hf e' he').op q (by have := (List.mem_filter.1 hq).1; rwa [hsh'.data] at this)
      obtain ⟨ts', hts1', hts2', _⟩ := hsh'.opTS
      refine ⟨rfl, ?_⟩
      simp [opShare, Share.WellFormed, hts1', hts2', hqs]
    · obtain ⟨c', hc', rfl⟩ := List.mem_map.1 hc
      obtain ⟨hm, hg⟩ := List.mem_filter.1 hc'
      have := hw c' hm
      unfold ShareCall.WellFormed at this
      rw [goesTo_target hg] at this
      exact this
  obtain ⟨_, _, _, _, bi⟩ := samVars_iff hv hi (by simp [EffectData.invest]) (by simp [EffectData.invest])
  obtain ⟨_, _, _, _, bo⟩ := samVars_iff hv ho he.minH he.maxH
  obtain ⟨_, _, _, _, ba⟩ := samVars_iff hv ha (by simp [EffectData.all]) (by simp [EffectData.all])
  obtain ⟨ni, ri⟩ := samTree_iff hn hti hs.invSum1 (by simp [EffectData.invest]) (fun _ => hs.invTS) wfIn
  obtain ⟨no, ro⟩ := samTree_iff hn hto hs.opSum1 (fun _ => ⟨ts, hts1, hts2⟩) (by simp [EffectData.operation]) (fun c hc => (wfOp c hc).2)
  obtain ⟨_, ra⟩ := samTree_iff hn hta hs.allSum1 (by simp [EffectData.all]) (fun _ => hs.allTS) (by
    intro c hc
    simp only [List.mem_cons, List.not_mem_nil, or_false] at hc
    rcases hc with rfl | rfl
    · simp [Share.WellFormed, hs.opSum1, Num.len, Num.isScalar]
    · simp [Share.WellFormed, hs.invSum1, Num.len, Num.isScalar])
  refine ⟨no, ni, fun σ => ?_⟩
  have vop : ∀ t < sys.n, ((opShares es evs calls e.label).map fun c => c.value σ t).sum =
      direct σ es calls .operation e.label t + fromOthersOp σ es e.label t := by
    intro t ht
    unfold opShares direct
    rw [List.map_append, List.sum_append, othersOp_value hsh σ _ ht, List.map_map, add_comm]
    rfl
  have vin : ((invShares es evs calls e.label).map fun c => c.value σ 0).sum =
      direct σ es calls .invest e.label 0 + fromOthersInv σ es e.label := by
    unfold invShares direct
    rw [List.map_append, List.sum_append, othersInv_value hsh σ, List.map_map, add_comm]
    rfl
  have s1 : (MTree.node [] [] [ti, tO, ta]).Solves σ ↔ ti.Solves σ ∧ tO.Solves σ ∧ ta.Solves σ := by
    simp [MTree.Solves, MTree.SolvesAll]
  rw [s1, ri σ, ro σ, ra σ, bi σ, bo σ, ba σ, hs.invTS, hs.allTS, hts1]
  simp only [Option.map_none, Option.map_some, hs.invSum, hs.opSum, hs.allSum, hts3]
  have hai : Allocates σ e.invest.isTS sys.n (σ (invSumL e.label)) none (invShares es evs calls e.label) ↔
      σ (invSumL e.label) 0 = direct σ es calls .invest e.label 0 + fromOthersInv σ es e.label := by
    rw [← vin]; exact alloc_scalar
  have hao : Allocates σ e.operation.isTS sys.n (σ (opSumL e.label)) (some (σ (opTSL e.label))) (opShares es evs calls e.label) ↔
      (∀ t < sys.n, σ (opTSL e.label) t = direct σ es calls .operation e.label t + fromOthersOp σ es e.label t) ∧
      σ (opSumL e.label) 0 = ∑ t ∈ Finset.range sys.n, σ (opTSL e.label) t := by
    refine Iff.trans (alloc_ts fun c hc => (wfOp c hc).1) ?_
    refine and_congr_left fun _ => forall_congr' fun t => forall_congr' fun ht => ?_
    rw [vop t ht]
  have haa : Allocates σ e.all.isTS sys.n (σ (allSumL e.label)) none
      [⟨"operation", some ev.operation.sum, .s 1, false⟩, ⟨"invest", some ev.invest.sum, .s 1, false⟩] ↔
      σ (allSumL e.label) 0 = σ (opSumL e.label) 0 + σ (invSumL e.label) 0 := by
    refine Iff.trans alloc_scalar ?_
    simp [Share.value, hs.opSum, hs.invSum, Num.at]
  have hva : (∀ c ∈ [(⟨"operation", some ev.operation.sum, .s 1, false⟩ : Share), ⟨"invest", some ev.invest.sum, .s 1, false⟩],
      ∀ t < c.varLen, σ (shareLabel e.all.el c.name) t = c.value σ t) ↔
      (σ (shareLabel e.label "operation") 0 = σ (opSumL e.label) 0 ∧ σ (shareLabel e.label "invest") 0 = σ (invSumL e.label) 0) := by
    simp [Share.value, Share.varLen, hs.opSum, hs.invSum, hs.opSum1, hs.invSum1, Num.at, EffectData.all]
  rw [hai, hao, haa, hva]
  constructor
  · rintro ⟨⟨a1, a2, a3⟩, ⟨b1, b2, b3, b4⟩, c1, c2, c3⟩
    exact ⟨⟨b3, b4, a3, c3, b1, a1, c1⟩, b2, a2, c2⟩
  · rintro ⟨r, x, y, z⟩
    exact ⟨⟨r.invBounds, y, r.inv⟩, ⟨r.opBounds, x, r.opStep, r.opTotal⟩, r.allBounds, z, r.all⟩

/-- What the model of the whole collection says. -/
structure CollRows (sys : Sys) (es : List EffectData) (evs : List EffectVars) (calls : List ShareCall) (σ : Assignment) : Prop where
  effect : ∀ e ∈ es, EffectRows sys es calls e σ
  penalty : σ penaltyL 0 = ((penaltyShares calls).map fun c => c.value σ 0).sum
  opShares : ∀ e ∈ es, SharesHold σ e.label (opShares es evs calls e.label)
  invShares : ∀ e ∈ es, SharesHold σ e.label (invShares es evs calls e.label)
  allShares : ∀ e ∈ es, σ (shareLabel e.label "operation") 0 = σ (opSumL e.label) 0 ∧ σ (shareLabel e.label "invest") 0 = σ (invSumL e.label) 0
  penaltyShares : SharesHold σ "Effects" (penaltyShares calls)

theorem penaltyVars_ok {sys : Sys} (hv : sys.Valid) {vs : SamVars} (h : samVars sys penaltyData = .ok vs) :
    vs.sum.label = penaltyL ∧ vs.sum.length = 1 ∧ vs.sumTS = none ∧ ∀ σ : Assignment, vs.sum.Ok σ := by
  obtain ⟨a, b, _, c, d⟩ := samVars_iff hv h (by simp [penaltyData]) (by simp [penaltyData])
  refine ⟨?_, b, c rfl, fun σ => ?_⟩
  · rw [a]; decide
  · have := (d σ).2 ⟨by simp [penaltyData], by simp [penaltyData], by simp [penaltyData], by simp [penaltyData]⟩
    exact this.1

theorem collection_iff {sys : Sys} (hv : sys.Valid) (hn : sys.n ≠ 0) {es : List EffectData} {calls : List ShareCall} {o : CollOut}
    (h : collectionModel sys es calls = .ok o) (hf : ∀ e ∈ es, e.Fits sys.n) (hw : ∀ c ∈ calls, c.WellFormed sys.n) :
    List.Forall₂ (EvShape sys) es o.effects ∧ (o.penalty.sum.label = penaltyL ∧ o.penalty.sum.length = 1) ∧
    (∀ e ∈ es, ((opShares es o.effects calls e.label).map (·.name)).Nodup ∧ ((invShares es o.effects calls e.label).map (·.name)).Nodup) ∧
    ((penaltyShares calls).map (·.name)).Nodup ∧
    ∀ σ : Assignment, o.tree.Solves σ ↔ CollRows sys es o.effects calls σ := by
  obtain ⟨between, addressed, trees, pt, h1, h2, h3, h4, h5, h6, h7, h8⟩ := collection_inv h
  have hsh : List.Forall₂ (EvShape sys) es o.effects := forall₂_imp' h1 fun e he ev hev => (effectVars_ok hv (hf e he) hev).1
  obtain ⟨p1, p2, p3, p4⟩ := penaltyVars_ok hv h2
  have hop : ∀ l, sharesFor .operation l (between.flatten ++ addressed) = opShares es o.effects calls l := by
    intro l
    rw [sharesFor_append, (sharesFor_between h3 l).1, sharesFor_addressed h5 (by decide)]
    rfl
  have hin : ∀ l, sharesFor .invest l (between.flatten ++ addressed) = invShares es o.effects calls l := by
    intro l
    rw [sharesFor_append, (sharesFor_between h3 l).2.1, sharesFor_addressed h5 (by decide)]
    rfl
  have hpe : sharesFor .penalty "" (between.flatten ++ addressed) = penaltyShares calls := by
    rw [sharesFor_append, (sharesFor_between h3 "").2.2, sharesFor_penalty h5]
    rfl
  rw [hpe] at h7
  obtain ⟨pn, pr⟩ := samTree_iff hn h7 p2 (by simp [penaltyData]) (fun _ => p3) (by
    intro c hc
    unfold penaltyShares at hc
    obtain ⟨c', hc', rfl⟩ := List.mem_map.1 hc
    obtain ⟨hm, hg⟩ := List.mem_filter.1 hc'
    have := hw c' hm
    unfold ShareCall.WellFormed at this
    rw [of_decide_eq_true hg] at this
    exact this.2)
  -- trees against the effects
  have key : ∀ e ∈ es, ∃ ev t, effectVars sys e = .ok ev ∧ effectTree (between.flatten ++ addressed) ev = .ok t ∧ t ∈ trees := by
    intro e he
    obtain ⟨ev, hev, hx⟩ := forall₂_mem_left h1 he
    obtain ⟨t, ht, hy⟩ := forall₂_mem_left h6 hev
    exact ⟨ev, t, hx, hy, ht⟩
  have key' : ∀ t ∈ trees, ∃ e ∈ es, ∃ ev, effectVars sys e = .ok ev ∧ effectTree (between.flatten ++ addressed) ev = .ok t := by
    intro t ht
    obtain ⟨ev, hev, hy⟩ := forall₂_mem_right h6 ht
    obtain ⟨e, he, hx⟩ := forall₂_mem_right h1 hev
    exact ⟨e, he, ev, hx, hy⟩
  refine ⟨hsh, ⟨p1, p2⟩, ?_, pn, ?_⟩
  · intro e he
    obtain ⟨ev, t, hx, hy, _⟩ := key e he
    obtain ⟨a, b, _⟩ := effectTree_iff hv hn hf hsh (hf e he) hx hw hy (hop _) (hin _)
    exact ⟨a, b⟩
  · intro σ
    have hsol : o.tree.Solves σ ↔ (∀ t ∈ trees, t.Solves σ) ∧ pt.Solves σ := by
      rw [h8]
      simp only [MTree.Solves, solvesAll_iff]
      simp [or_imp, forall_and]
    have hpen : pt.Solves σ ↔ SharesHold σ "Effects" (penaltyShares calls) ∧
        σ penaltyL 0 = ((penaltyShares calls).map fun c => c.value σ 0).sum := by
      rw [pr σ, p3, p1]
      have : Allocates σ penaltyData.isTS sys.n (σ penaltyL) none (penaltyShares calls) ↔
        σ penaltyL 0 = ((penaltyShares calls).map fun c => c.value σ 0).sum := alloc_scalar
      simp only [Option.map_none, this]
      constructor
      · rintro ⟨_, a, b⟩; exact ⟨a, b⟩
      · rintro ⟨a, b⟩; exact ⟨⟨p4 σ, by simp⟩, a, b⟩
    rw [hsol, hpen]
    have hrow : ∀ e ∈ es, ∀ ev t, effectVars sys e = .ok ev → effectTree (between.flatten ++ addressed) ev = .ok t → (t.Solves σ ↔ _) :=
      fun e he ev t hx hy => (effectTree_iff hv hn hf hsh (hf e he) hx hw hy (hop _) (hin _)).2.2 σ
    constructor
    · rintro ⟨a, b, c⟩
      have hr : ∀ e ∈ es, EffectRows sys es calls e σ ∧ SharesHold σ e.label (opShares es o.effects calls e.label) ∧
          SharesHold σ e.label (invShares es o.effects calls e.label) ∧
          (σ (shareLabel e.label "operation") 0 = σ (opSumL e.label) 0 ∧ σ (shareLabel e.label "invest") 0 = σ (invSumL e.label) 0) := fun e he => by
        obtain ⟨ev, t, hx, hy, ht⟩ := key e he
        exact (hrow e he ev t hx hy).1 (a t ht)
      exact ⟨fun e he => (hr e he).1, c, fun e he => (hr e he).2.1, fun e he => (hr e he).2.2.1, fun e he => (hr e he).2.2.2, b⟩
    · intro r
      refine ⟨?_, r.penaltyShares, r.penalty⟩
      intro t ht
      obtain ⟨e, he, ev, hx, hy⟩ := key' t ht
      exact (hrow e he ev t hx hy).2 ⟨r.effect e he, r.opShares e he, r.invShares e he, r.allShares e he⟩

end Flix
