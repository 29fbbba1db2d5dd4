import Verif.Model.EffectHistory
import Verif.Props.Effects
import Mathlib.Data.List.Nodup
import Mathlib.Logic.Relation
import Mathlib.Tactic.Tauto

/-!
# C24, C25: shares between effects are well-founded; one standard effect, one objective effect
-/

namespace Flix

/-! ## C25 -/

/-- The collection fits to the heap. -/
structure EffState.Inv (s : EffState) : Prop where
  obj : ∀ q ∈ s.coll, ∃ o, s.heap[q.2]? = some o ∧ o.data.label = q.1
  labels : (s.coll.map (·.1)).Nodup
  standard : (s.coll.filter fun q => effAttr s.heap false (·.data.isStandard) q.2).length ≤ 1
  objective : (s.coll.filter fun q => effAttr s.heap false (·.data.isObjective) q.2).length ≤ 1

theorem setEffect_new {coll : EffDictObj} {l : String} {i : Nat} (h : l ∉ coll.map (·.1)) : setEffect coll l i = coll ++ [(l, i)] := by
  induction coll with
  | nil => rfl
  | cons q qs ih =>
    simp only [List.map_cons, List.mem_cons, not_or] at h
    simp [setEffect, Ne.symm h.1, ih h.2]

theorem effAttr_append {α} {heap heap' : EffHeap} {d : α} {f : EffObj → α} {i : Nat} {o : EffObj} (h : heap[i]? = some o) :
    effAttr (heap ++ heap') d f i = effAttr heap d f i := by
  have hi : i < heap.length := by
    by_contra hc
    rw [List.getElem?_eq_none (by omega)] at h; simp at h
  simp [effAttr, List.getElem?_append_left hi]

theorem newEffect_heap (heap : EffHeap) (o : EffObj) : (newEffect heap o).1 = heap ∨ (newEffect heap o).1 = heap ++ [o] := by
  unfold newEffect
  simp only
  split
  · exact .inl rfl
  · split
    · exact .inl rfl
    · split
      · exact .inl rfl
      · exact .inr rfl

theorem addEffect_cases (heap : EffHeap) (coll : EffDictObj) (i : Nat) :
    (∃ e, addEffect heap coll i = (coll, some e)) ∨
    (∃ o, heap[i]? = some o ∧ (o.data.isStandard = true → hasStandard heap coll = false) ∧
      (o.data.isObjective = true → hasObjective heap coll = false) ∧ o.data.label ∉ coll.map (·.1) ∧ i ∉ coll.map (·.2) ∧
      addEffect heap coll i = (coll ++ [(o.data.label, i)], none)) := by
  unfold addEffect
  cases h : heap[i]? with
  | none => exact .inl ⟨_, rfl⟩
  | some o =>
    simp only
    split
    · exact .inl ⟨_, rfl⟩
    · rename_i h1
      split
      · exact .inl ⟨_, rfl⟩
      · rename_i h2
        split
        · exact .inl ⟨_, rfl⟩
        · rename_i h3
          split
          · exact .inl ⟨_, rfl⟩
          · rename_i h4
            have hl : o.data.label ∉ coll.map (·.1) := by
              intro hc
              apply h4
              obtain ⟨q, hq, hql⟩ := List.mem_map.1 hc
              exact List.any_eq_true.2 ⟨q, hq, by simp [hql]⟩
            have hi : i ∉ coll.map (·.2) := by
              intro hc
              apply h3
              obtain ⟨q, hq, hql⟩ := List.mem_map.1 hc
              exact List.any_eq_true.2 ⟨q, hq, by simp [hql]⟩
            refine .inr ⟨o, rfl, ?_, ?_, hl, hi, ?_⟩
            · intro hs; simpa [hs] using h1
            · intro hs; simpa [hs] using h2
            · rw [setEffect_new hl]

theorem EffState.inv_step {s : EffState} (h : s.Inv) (c : EffCall) : (s.step c).1.Inv := by
  cases c with
  | new o =>
    rcases newEffect_heap s.heap o with hh | hh
    · simpa [EffState.step, hh] using h
    · simp only [EffState.step, hh]
      have hfil : ∀ f : EffObj → Bool, (s.coll.filter fun q => effAttr (s.heap ++ [o]) false f q.2) =
          s.coll.filter fun q => effAttr s.heap false f q.2 := by
        intro f
        apply List.filter_congr
        intro q hq
        obtain ⟨o', ho', _⟩ := h.obj q hq
        rw [effAttr_append ho']
      refine ⟨?_, h.labels, ?_, ?_⟩
      · intro q hq
        obtain ⟨o', ho', hl⟩ := h.obj q hq
        refine ⟨o', ?_, hl⟩
        have hi : q.2 < s.heap.length := by
          by_contra hc
          rw [List.getElem?_eq_none (by omega)] at ho'; simp at ho'
        simpa [List.getElem?_append_left hi] using ho'
      · simpa [hfil] using h.standard
      · simpa [hfil] using h.objective
  | add i =>
    rcases addEffect_cases s.heap s.coll i with ⟨e, he⟩ | ⟨o, ho, h1, h2, h3, h4, h5⟩
    · simpa [EffState.step, he] using h
    · simp only [EffState.step, h5]
      refine ⟨?_, ?_, ?_, ?_⟩
      · intro q hq
        rcases List.mem_append.1 hq with hq | hq
        · exact h.obj q hq
        · simp at hq; subst hq; exact ⟨o, ho, rfl⟩
      · simp only [List.map_append, List.map_cons, List.map_nil]
        refine List.Nodup.append h.labels (by simp) ?_
        simpa using h3
      · simp only [List.filter_append, List.length_append]
        cases hs : o.data.isStandard with
        | false =>
          have : effAttr s.heap false (·.data.isStandard) i = false := by simp [effAttr, ho, hs]
          simp [this, h.standard]
        | true =>
          have hz := h1 hs
          unfold hasStandard at hz
          have : (s.coll.filter fun q => effAttr s.heap false (·.data.isStandard) q.2) = [] := by
            rw [List.filter_eq_nil_iff]
            intro q hq
            rw [List.any_eq_false] at hz
            exact hz q hq
          rw [this]
          have := List.length_filter_le (fun q : String × Nat => effAttr s.heap false (·.data.isStandard) q.2) [(o.data.label, i)]
          simpa using this
      · simp only [List.filter_append, List.length_append]
        cases hs : o.data.isObjective with
        | false =>
          have : effAttr s.heap false (·.data.isObjective) i = false := by simp [effAttr, ho, hs]
          simp [this, h.objective]
        | true =>
          have hz := h2 hs
          unfold hasObjective at hz
          have : (s.coll.filter fun q => effAttr s.heap false (·.data.isObjective) q.2) = [] := by
            rw [List.filter_eq_nil_iff]
            intro q hq
            rw [List.any_eq_false] at hz
            exact hz q hq
          rw [this]
          have := List.length_filter_le (fun q : String × Nat => effAttr s.heap false (·.data.isObjective) q.2) [(o.data.label, i)]
          simpa using this

theorem EffState.inv_run {s : EffState} (h : s.Inv) (cs : List EffCall) : (s.run cs).Inv := by
  induction cs generalizing s with
  | nil => exact h
  | cons c cs ih => exact ih (EffState.inv_step h c)

theorem EffState.inv_empty : ({} : EffState).Inv := ⟨by simp, by simp, by simp, by simp⟩

/-- The list of effects follows the collection entry by entry. -/
theorem effects_forall₂ {s : EffState} (h : s.Inv) :
    List.Forall₂ (fun q e => ∃ o, s.heap[q.2]? = some o ∧ e = o.toData s.heap ∧ e.label = q.1) s.coll s.effects := by
  unfold EffState.effects
  have ho := h.obj
  generalize s.coll = coll at ho
  induction coll with
  | nil => exact .nil
  | cons q qs ih =>
    obtain ⟨o, h1, h2⟩ := ho q List.mem_cons_self
    rw [List.filterMap_cons]
    simp only [h1, Option.map_some]
    exact .cons ⟨o, h1, rfl, h2⟩ (ih fun q hq => ho q (List.mem_cons_of_mem _ hq))

theorem forall₂_filter_length {α β} {R : α → β → Prop} {p : α → Bool} {p' : β → Bool} {l : List α} {r : List β}
    (h : List.Forall₂ R l r) (hp : ∀ a b, R a b → p a = p' b) : (l.filter p).length = (r.filter p').length := by
  induction h with
  | nil => rfl
  | cons hab _ ih =>
    rename_i a b _ _ _
    rw [List.filter_cons, List.filter_cons, hp a b hab]
    split <;> simp [ih]

theorem forall₂_map_eq {α β γ} {R : α → β → Prop} {f : α → γ} {g : β → γ} {l : List α} {r : List β}
    (h : List.Forall₂ R l r) (hp : ∀ a b, R a b → f a = g b) : l.map f = r.map g := by
  induction h with
  | nil => rfl
  | cons hab _ ih => simp [hp _ _ hab, ih]

/-- **C25.**  After any history of calls, failed ones included, the collection has at most one standard effect, at most one
objective effect and unique labels. -/
theorem C25 (cs : List EffCall) :
    let es := (({} : EffState).run cs).effects
    (es.filter (·.isStandard)).length ≤ 1 ∧ (es.filter (·.isObjective)).length ≤ 1 ∧ (es.map (·.label)).Nodup := by
  have h := EffState.inv_run EffState.inv_empty cs
  have hf := effects_forall₂ h
  refine ⟨?_, ?_, ?_⟩
  · rw [← forall₂_filter_length (p := fun q => effAttr (({} : EffState).run cs).heap false (·.data.isStandard) q.2) hf]
    · exact h.standard
    · rintro q e ⟨o, ho, rfl, _⟩
      simp [effAttr, ho, EffObj.toData]
  · rw [← forall₂_filter_length (p := fun q => effAttr (({} : EffState).run cs).heap false (·.data.isObjective) q.2) hf]
    · exact h.objective
    · rintro q e ⟨o, ho, rfl, _⟩
      simp [effAttr, ho, EffObj.toData]
  · rw [← forall₂_map_eq (f := fun q : String × Nat => q.1) hf]
    · exact h.labels
    · rintro q e ⟨o, _, _, hl⟩
      exact hl.symm

/-- **C25 (failed calls).**  A call that raises leaves everything unchanged. -/
theorem C25_failed (s : EffState) (c : EffCall) (e : Err) (h : (s.step c).2 = some e) : (s.step c).1 = s := by
  cases c with
  | new o =>
    have : (newEffect s.heap o).1 = s.heap := by
      simp only [EffState.step] at h
      unfold newEffect at h ⊢
      simp only at h ⊢
      split
      · rfl
      · rename_i h0; rw [if_neg h0] at h
        split
        · rfl
        · rename_i h1; rw [if_neg h1] at h
          split
          · rfl
          · rename_i h2; rw [if_neg h2] at h; simp at h
    simp [EffState.step, this]
  | add i =>
    rcases addEffect_cases s.heap s.coll i with ⟨e', he⟩ | ⟨o, _, _, _, _, _, h5⟩
    · simp [EffState.step, he]
    · simp [EffState.step, h5] at h

/-- **C25 (successful calls).**  An effect is added, at the end, exactly if it is not yet contained, its label is free and it is
no second standard or objective effect; nothing else is ever refused. -/
theorem C25_accepted (s : EffState) (i : Nat) (o : EffObj) (ho : s.heap[i]? = some o) (hs : s.Inv) :
    ((s.step (.add i)).2 = none ↔ o.data.label ∉ s.effects.map (·.label) ∧ i ∉ s.coll.map (·.2) ∧
      (o.data.isStandard = true → ∀ e ∈ s.effects, e.isStandard = false) ∧
      (o.data.isObjective = true → ∀ e ∈ s.effects, e.isObjective = false)) ∧
    ((s.step (.add i)).2 = none → (s.step (.add i)).1.effects = s.effects ++ [o.toData s.heap]) := by
  have hf := effects_forall₂ hs
  have hlab : s.effects.map (·.label) = s.coll.map (·.1) :=
    (forall₂_map_eq (f := fun q : String × Nat => q.1) hf (by rintro q e ⟨o, _, _, hl⟩; exact hl.symm)).symm
  have hst : (∀ e ∈ s.effects, e.isStandard = false) ↔ hasStandard s.heap s.coll = false := by
    unfold hasStandard
    rw [List.any_eq_false]
    constructor
    · intro h q hq
      obtain ⟨e, he, o', ho', rfl, _⟩ := forall₂_mem_left hf hq
      have := h _ he
      simpa [effAttr, ho', EffObj.toData] using this
    · intro h e he
      obtain ⟨q, hq, o', ho', rfl, _⟩ := forall₂_mem_right hf he
      have := h q hq
      simpa [effAttr, ho', EffObj.toData] using this
  have hob : (∀ e ∈ s.effects, e.isObjective = false) ↔ hasObjective s.heap s.coll = false := by
    unfold hasObjective
    rw [List.any_eq_false]
    constructor
    · intro h q hq
      obtain ⟨e, he, o', ho', rfl, _⟩ := forall₂_mem_left hf hq
      have := h _ he
      simpa [effAttr, ho', EffObj.toData] using this
    · intro h e he
      obtain ⟨q, hq, o', ho', rfl, _⟩ := forall₂_mem_right hf he
      have := h q hq
      simpa [effAttr, ho', EffObj.toData] using this
  rw [hlab, hst, hob]
  refine ⟨⟨?_, ?_⟩, ?_⟩
  · intro h
    rcases addEffect_cases s.heap s.coll i with ⟨e', he⟩ | ⟨o', ho', h1, h2, h3, h4, h5⟩
    · simp [EffState.step, he] at h
    · rw [ho] at ho'; cases ho'
      exact ⟨h3, h4, h1, h2⟩
  · rintro ⟨h1, h2, h3, h4⟩
    simp only [EffState.step, addEffect, ho]
    have e1 : (o.data.isStandard && hasStandard s.heap s.coll) = false := by
      cases hh : o.data.isStandard with
      | false => rfl
      | true => simp [h3 hh]
    have e2 : (o.data.isObjective && hasObjective s.heap s.coll) = false := by
      cases hh : o.data.isObjective with
      | false => rfl
      | true => simp [h4 hh]
    have e3 : (s.coll.any fun q => q.2 == i) = false := by
      rw [List.any_eq_false]; intro q hq hc
      exact h2 (List.mem_map.2 ⟨q, hq, by simpa using hc⟩)
    have e4 : (s.coll.any fun q => q.1 == o.data.label) = false := by
      rw [List.any_eq_false]; intro q hq hc
      exact h1 (List.mem_map.2 ⟨q, hq, by simpa using hc⟩)
    simp [e1, e2, e3, e4]
  · intro h
    rcases addEffect_cases s.heap s.coll i with ⟨e', he⟩ | ⟨o', ho', h1, h2, h3, h4, h5⟩
    · simp [EffState.step, he] at h
    · rw [ho] at ho'; cases ho'
      simp [EffState.step, h5, EffState.effects, ho]

/-- A history with failing calls: two standard effects, a second effect with the same label. -/
def exHistory : List EffCall :=
  [.new { data := { label := "costs", isStandard := true, isObjective := true } },
   .new { data := { label := "co2" }, shareOp := [(0, .s (1 / 5))] },
   .new { data := { label := "other", isStandard := true } }, .new { data := { label := "co2" }, shareInv := [(0, .s 1), (1, .s 2)] },
   .add 1, .add 0, .add 2, .add 3, .add 0]

example : ((({} : EffState).run exHistory).effects.map (·.label)) = ["co2", "costs"] := by decide +kernel

/-! ## C24 -/

/-- The object `i` has a share in the object `j` (operation or investment). -/
def RefersTo (heap : EffHeap) (i j : Nat) : Prop := ∃ o, heap[i]? = some o ∧ j ∈ (o.shareOp ++ o.shareInv).map (·.1)

/-- All references go to older objects. -/
theorem newEffect_older {heap : EffHeap} (h : ∀ i j, RefersTo heap i j → j < i) (o : EffObj) :
    ∀ i j, RefersTo (newEffect heap o).1 i j → j < i := by
  rcases newEffect_heap heap o with hh | hh
  · rw [hh]; exact h
  · rintro i j ⟨o', ho', hj⟩
    rw [hh] at ho'
    by_cases hi : i < heap.length
    · rw [List.getElem?_append_left hi] at ho'
      exact h i j ⟨o', ho', hj⟩
    · have hle : heap.length ≤ i := by omega
      rw [List.getElem?_append_right hle] at ho'
      have : i = heap.length := by
        by_contra hc
        rw [List.getElem?_eq_none (by simp; omega)] at ho'; simp at ho'
      subst this
      simp at ho'
      subst ho'
      obtain ⟨q, hq, rfl⟩ := List.mem_map.1 hj
      by_contra hc
      have hany : ((o.shareOp ++ o.shareInv).any fun q => decide (heap.length ≤ q.1)) = true :=
        List.any_eq_true.2 ⟨q, hq, by simp; omega⟩
      have : (newEffect heap o).1 = heap := by unfold newEffect; simp only [hany, if_true]
      rw [this] at hh
      have := congrArg List.length hh
      simp at this

theorem run_older {s : EffState} (h : ∀ i j, RefersTo s.heap i j → j < i) (cs : List EffCall) :
    ∀ i j, RefersTo (s.run cs).heap i j → j < i := by
  induction cs generalizing s with
  | nil => exact h
  | cons c cs ih =>
    refine ih ?_
    cases c with
    | new o => exact newEffect_older h o
    | add i => exact h

/-- **C24 (no circles).**  After any history of constructor calls no effect has, directly or through other effects, a share in
itself. -/
theorem C24_acyclic (cs : List EffCall) (i : Nat) : ¬ Relation.TransGen (RefersTo (({} : EffState).run cs).heap) i i := by
  have h := run_older (s := {}) (by rintro i j ⟨o, ho, _⟩; simp at ho) cs
  have : ∀ i j, Relation.TransGen (RefersTo (({} : EffState).run cs).heap) i j → j < i := by
    intro i j hij
    induction hij with
    | single hr => exact h _ _ hr
    | tail _ hr ih => exact lt_trans (h _ _ hr) ih
  intro hc
  exact lt_irrefl _ (this i i hc)

/-- The check against circles in the constructor can never fire: at that time nothing can refer to the new object. -/
theorem C24_check_never_fires (cs : List EffCall) (o : EffObj) :
    (newEffect (({} : EffState).run cs).heap o).2 ≠ some .assertion := by
  have h := run_older (s := {}) (by rintro i j ⟨o, ho, _⟩; simp at ho) cs
  generalize (({} : EffState).run cs).heap = heap at h
  unfold newEffect
  simp only
  have hno : ∀ (i : Nat) (e : EffObj), heap[i]? = some e → ∀ r ∈ e.shareOp ++ e.shareInv, r.1 ≠ heap.length := by
    intro i e he r hr hc
    have hlt := h i r.1 ⟨e, he, List.mem_map.2 ⟨r, hr, rfl⟩⟩
    have hi : i < heap.length := by
      by_contra hcc
      rw [List.getElem?_eq_none (by omega)] at he; simp at he
    omega
  split
  · simp
  · split
    · rename_i hc
      exfalso
      obtain ⟨q, _, hq2⟩ := List.any_eq_true.1 hc
      cases hh : heap[q.1]? with
      | none => rw [hh] at hq2; simp at hq2
      | some e =>
        rw [hh] at hq2
        obtain ⟨r, hr, hr2⟩ := List.any_eq_true.1 hq2
        exact hno _ e hh r (List.mem_append_left _ hr) (by simpa using hr2)
    · split
      · rename_i hc
        exfalso
        obtain ⟨q, _, hq2⟩ := List.any_eq_true.1 hc
        cases hh : heap[q.1]? with
        | none => rw [hh] at hq2; simp at hq2
        | some e =>
          rw [hh] at hq2
          obtain ⟨r, hr, hr2⟩ := List.any_eq_true.1 hq2
          exact hno _ e hh r (List.mem_append_right _ hr) (by simpa using hr2)
      · simp

/-- The shares between effects go down in some ranking of the labels. -/
def Ranked (es : List EffectData) (shares : EffectData → List (String × Num)) (rank : String → Nat) : Prop :=
  ∀ o ∈ es, ∀ q ∈ shares o, rank q.1 < rank o.label

/-- In a ranked collection the totals are determined by the direct contributions: equations
`x e = d e + ∑ of shares` have at most one solution. -/
theorem ranked_unique {es : List EffectData} {shares : EffectData → List (String × Num)} {rank : String → Nat} (hr : Ranked es shares rank)
    (f : Num → ℚ) {d x y : String → ℚ}
    (hx : ∀ e ∈ es, x e.label = d e.label + (es.map fun o => (((shares o).filter fun q => q.1 = e.label).map fun q => f q.2 * x o.label).sum).sum)
    (hy : ∀ e ∈ es, y e.label = d e.label + (es.map fun o => (((shares o).filter fun q => q.1 = e.label).map fun q => f q.2 * y o.label).sum).sum) :
    ∀ e ∈ es, x e.label = y e.label := by
  obtain ⟨N, hN⟩ : ∃ N, ∀ e ∈ es, rank e.label ≤ N := by
    clear hr hx hy
    induction es with
    | nil => exact ⟨0, by simp⟩
    | cons e es ih =>
      obtain ⟨N, hN⟩ := ih
      refine ⟨max N (rank e.label), ?_⟩
      intro e' he'
      rcases List.mem_cons.1 he' with rfl | he'
      · exact le_max_right _ _
      · exact le_trans (hN e' he') (le_max_left _ _)
  have : ∀ k, ∀ e ∈ es, N - rank e.label < k → x e.label = y e.label := by
    intro k
    induction k with
    | zero => intro e _ h; omega
    | succ k ih =>
      intro e he hk
      rw [hx e he, hy e he]
      congr 2
      apply List.map_congr_left
      intro o ho
      congr 1
      apply List.map_congr_left
      intro q hq
      obtain ⟨hq1, hq2⟩ := List.mem_filter.1 hq
      have h1 := hr o ho q hq1
      have h2 : q.1 = e.label := by simpa using hq2
      rw [h2] at h1
      have := hN o ho
      rw [ih o ho (by omega)]
  intro e he
  exact this (N - rank e.label + 1) e he (by omega)

/-- The same equations always have a solution. -/
theorem ranked_exists {es : List EffectData} {shares : EffectData → List (String × Num)} {rank : String → Nat} (hr : Ranked es shares rank)
    (f : Num → ℚ) (d : String → ℚ) :
    ∃ x : String → ℚ, ∀ e ∈ es, x e.label = d e.label + (es.map fun o => (((shares o).filter fun q => q.1 = e.label).map fun q => f q.2 * x o.label).sum).sum := by
  obtain ⟨N, hN⟩ : ∃ N, ∀ e ∈ es, rank e.label ≤ N := by
    clear hr
    induction es with
    | nil => exact ⟨0, by simp⟩
    | cons e es ih =>
      obtain ⟨N, hN⟩ := ih
      refine ⟨max N (rank e.label), ?_⟩
      intro e' he'
      rcases List.mem_cons.1 he' with rfl | he'
      · exact le_max_right _ _
      · exact le_trans (hN e' he') (le_max_left _ _)
  let F : (String → ℚ) → (String → ℚ) := fun x l =>
    d l + (es.map fun o => (((shares o).filter fun q => q.1 = l).map fun q => f q.2 * x o.label).sum).sum
  let X : Nat → String → ℚ := fun k => F^[k] d
  have step : ∀ k, X (k + 1) = F (X k) := fun k => Function.iterate_succ_apply' F k d
  have stable : ∀ k, ∀ e ∈ es, N - rank e.label < k → X (k + 1) e.label = X k e.label := by
    intro k
    induction k with
    | zero => intro e _ h; omega
    | succ k ih =>
      intro e he hk
      rw [step (k + 1), step k]
      show d e.label + _ = d e.label + _
      congr 2
      apply List.map_congr_left
      intro o ho
      congr 1
      apply List.map_congr_left
      intro q hq
      obtain ⟨hq1, hq2⟩ := List.mem_filter.1 hq
      have h1 := hr o ho q hq1
      have h2 : q.1 = e.label := by simpa using hq2
      rw [h2] at h1
      have := hN o ho
      rw [← step k, ih o ho (by omega)]
  refine ⟨X (N + 1), fun e he => ?_⟩
  have := stable (N + 1) e he (by omega)
  rw [← this, step]

/-- The order of creation ranks the effects of every collection. -/
theorem history_ranked (cs : List EffCall) :
    let s := ({} : EffState).run cs
    (∀ q ∈ s.coll, ∀ o, s.heap[q.2]? = some o → ∀ r ∈ o.shareOp ++ o.shareInv, r.1 ∈ s.coll.map (·.2)) →
    ∃ rank, Ranked s.effects (·.shareOperation) rank ∧ Ranked s.effects (·.shareInvest) rank := by
  intro s hclosed
  have hold := run_older (s := {}) (by rintro i j ⟨o, ho, _⟩; simp at ho) cs
  have hinv : s.Inv := EffState.inv_run EffState.inv_empty cs
  have hf := effects_forall₂ hinv
  -- the number of the object with a label
  let rank : String → Nat := fun l => match s.coll.find? (fun q => q.1 = l) with | some q => q.2 | none => 0
  have hrank : ∀ q ∈ s.coll, rank q.1 = q.2 := by
    intro q hq
    have hnd := hinv.labels
    show (match s.coll.find? (fun q' => q'.1 = q.1) with | some q => q.2 | none => 0) = q.2
    have : s.coll.find? (fun q' => decide (q'.1 = q.1)) = some q := by
      clear hf hclosed hold hinv
      generalize s.coll = coll at hq hnd
      induction coll with
      | nil => simp at hq
      | cons p ps ih =>
        rw [List.find?_cons]
        simp only [List.map_cons, List.nodup_cons] at hnd
        rcases List.mem_cons.1 hq with rfl | hq
        · simp
        · have : p.1 ≠ q.1 := fun hc => hnd.1 (hc ▸ List.mem_map.2 ⟨q, hq, rfl⟩)
          simp only [this, decide_false]
          exact ih hq hnd.2
    rw [this]
  have hlab : ∀ i ∈ s.coll.map (·.2), effAttr s.heap "" (·.data.label) i ∈ s.coll.map (·.1) ∧ rank (effAttr s.heap "" (·.data.label) i) = i := by
    intro i hi
    obtain ⟨q, hq, rfl⟩ := List.mem_map.1 hi
    obtain ⟨o, ho, hl⟩ := hinv.obj q hq
    have : effAttr s.heap "" (·.data.label) q.2 = q.1 := by simp [effAttr, ho, hl]
    rw [this]
    exact ⟨List.mem_map.2 ⟨q, hq, rfl⟩, hrank q hq⟩
  have main : ∀ (sel : EffObj → List (Nat × Num)), (∀ o, ∀ r ∈ sel o, r ∈ o.shareOp ++ o.shareInv) →
      ∀ q ∈ s.coll, ∀ o, s.heap[q.2]? = some o → ∀ r ∈ sel o, rank (effAttr s.heap "" (·.data.label) r.1) < rank q.1 := by
    intro sel hsel q hq o ho r hr
    have hr' := hsel o r hr
    rw [(hlab r.1 (hclosed q hq o ho r hr')).2, hrank q hq]
    exact hold q.2 r.1 ⟨o, ho, List.mem_map.2 ⟨r, hr', rfl⟩⟩
  refine ⟨rank, ?_, ?_⟩
  · intro e he p hp
    obtain ⟨q, hq, o, ho, rfl, hl⟩ := forall₂_mem_right hf he
    rw [hl]
    simp only [EffObj.toData, List.mem_map] at hp
    obtain ⟨r, hr, rfl⟩ := hp
    exact main (·.shareOp) (fun o r hr => List.mem_append_left _ hr) q hq o ho r hr
  · intro e he p hp
    obtain ⟨q, hq, o, ho, rfl, hl⟩ := forall₂_mem_right hf he
    rw [hl]
    simp only [EffObj.toData, List.mem_map] at hp
    obtain ⟨r, hr, rfl⟩ := hp
    exact main (·.shareInv) (fun o r hr => List.mem_append_right _ hr) q hq o ho r hr

/-- **C24.**  For effects created by any history of constructor calls, the totals of all effects are uniquely determined by the
direct contributions of the elements. -/
theorem C24 {sys : Sys} (hv : sys.Valid) (hn : sys.n ≠ 0) (cs : List EffCall) {calls : List ShareCall} {o : CollOut}
    (hclosed : ∀ q ∈ (({} : EffState).run cs).coll, ∀ o, (({} : EffState).run cs).heap[q.2]? = some o →
      ∀ r ∈ o.shareOp ++ o.shareInv, r.1 ∈ (({} : EffState).run cs).coll.map (·.2))
    (h : collectionModel sys (({} : EffState).run cs).effects calls = .ok o)
    (hf : ∀ e ∈ (({} : EffState).run cs).effects, e.Fits sys.n) (hw : ∀ c ∈ calls, c.WellFormed sys.n)
    {σ τ : Assignment} (hσ : o.tree.Solves σ) (hτ : o.tree.Solves τ)
    (hsame : ∀ c ∈ calls, ∀ t, c.share.value σ t = c.share.value τ t) :
    ∀ e ∈ (({} : EffState).run cs).effects,
      (∀ t < sys.n, σ (e.label ++ "__operation_operation_sum_TS") t = τ (e.label ++ "__operation_operation_sum_TS") t) ∧
      σ (e.label ++ "__operation_operation_sum") 0 = τ (e.label ++ "__operation_operation_sum") 0 ∧
      σ (e.label ++ "__invest_invest_sum") 0 = τ (e.label ++ "__invest_invest_sum") 0 ∧
      σ (e.label ++ "__all_all_sum") 0 = τ (e.label ++ "__all_all_sum") 0 := by
  obtain ⟨rank, hr1, hr2⟩ := history_ranked cs hclosed
  generalize (({} : EffState).run cs).effects = es at *
  have hd : ∀ tg l t, direct σ es calls tg l t = direct τ es calls tg l t := by
    intro tg l t
    unfold direct
    congr 1
    apply List.map_congr_left
    intro c hc
    exact hsame c (List.mem_filter.1 hc).1 t
  have rσ := ((collection_iff hv hn h hf hw).2.2.2.2 σ).1 hσ
  have rτ := ((collection_iff hv hn h hf hw).2.2.2.2 τ).1 hτ
  have hop : ∀ t < sys.n, ∀ e ∈ es, σ (opTSL e.label) t = τ (opTSL e.label) t := by
    intro t ht
    exact ranked_unique hr1 (fun f => f.at t) (d := fun l => direct σ es calls .operation l t) (x := fun l => σ (opTSL l) t) (y := fun l => τ (opTSL l) t)
      (fun e he => (rσ.effect e he).opStep t ht) (fun e he => by rw [hd]; exact (rτ.effect e he).opStep t ht)
  have hin : ∀ e ∈ es, σ (invSumL e.label) 0 = τ (invSumL e.label) 0 :=
    ranked_unique hr2 (fun f => f.at 0) (d := fun l => direct σ es calls .invest l 0) (x := fun l => σ (invSumL l) 0) (y := fun l => τ (invSumL l) 0)
      (fun e he => (rσ.effect e he).inv) (fun e he => by rw [hd]; exact (rτ.effect e he).inv)
  intro e he
  have h1 : σ (opSumL e.label) 0 = τ (opSumL e.label) 0 := by
    rw [(rσ.effect e he).opTotal, (rτ.effect e he).opTotal]
    exact Finset.sum_congr rfl fun t ht => hop t (Finset.mem_range.1 ht) e he
  refine ⟨fun t ht => hop t ht e he, h1, hin e he, ?_⟩
  have h2 := (rσ.effect e he).all
  have h3 := (rτ.effect e he).all
  have h4 := hin e he
  show σ (allSumL e.label) 0 = τ (allSumL e.label) 0
  rw [h2, h3, h1, h4]

/-- The hypotheses of C24 are met by the example history. -/
example : (∀ q ∈ (({} : EffState).run exHistory).coll, ∀ o, (({} : EffState).run exHistory).heap[q.2]? = some o →
      ∀ r ∈ o.shareOp ++ o.shareInv, r.1 ∈ (({} : EffState).run exHistory).coll.map (·.2)) ∧
    (∃ o, collectionModel exSys (({} : EffState).run exHistory).effects exCalls = .ok o ∧ o.tree.Solves exEffSol) ∧
    (∀ e ∈ (({} : EffState).run exHistory).effects, e.Fits exSys.n) := by
  have hs : (({} : EffState).run exHistory).coll = [("co2", 1), ("costs", 0)] := by decide +kernel
  have he : (({} : EffState).run exHistory).effects = [{ label := "co2", shareOperation := [("costs", .s (1 / 5))] },
      { label := "costs", isStandard := true, isObjective := true }] := by decide +kernel
  refine ⟨?_, builds_and_solves (by decide +kernel), ?_⟩
  · rw [hs]
    intro q hq o ho r hr
    have h0 : (({} : EffState).run exHistory).heap[0]? = some { data := { label := "costs", isStandard := true, isObjective := true } } := by
      decide +kernel
    have h1 : (({} : EffState).run exHistory).heap[1]? = some { data := { label := "co2" }, shareOp := [(0, .s (1 / 5))] } := by
      decide +kernel
    simp only [List.mem_cons, List.not_mem_nil, or_false] at hq
    rcases hq with rfl | rfl
    · rw [h1] at ho; simp at ho; subst ho; simp at hr; subst hr; simp
    · rw [h0] at ho; simp at ho; subst ho; simp at hr
  · rw [he]
    intro e he
    simp only [List.mem_cons, List.not_mem_nil, or_false] at he
    rcases he with rfl | rfl
    · exact ⟨by simp [Num.isScalar], by simp, by simp, by simp⟩
    · exact ⟨by simp, by simp, by simp, by simp⟩

end Flix
