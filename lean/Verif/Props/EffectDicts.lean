import Verif.Model.EffectDicts
import Mathlib.Tactic.Tauto
import Mathlib.Order.Basic

/-!
# C26: effect values given by the user arrive
-/

namespace Flix

theorem get_popNone (t : EffTable) (k : Option String) : t.popNone.get k = if k = none then none else t.get k := by
  unfold EffTable.popNone EffTable.get
  induction t with
  | nil => simp
  | cons q qs ih =>
    rw [List.filter_cons]
    by_cases hq : q.1 = none
    · simp only [hq, ne_eq, not_true_eq_false, decide_false, Bool.false_eq_true, if_false, ih, List.find?_cons]
      by_cases hk : k = none
      · simp [hk]
      · simp [hk, Ne.symm hk]
    · simp only [ne_eq, hq, not_false_eq_true, decide_true, if_true, List.find?_cons]
      by_cases hk : q.1 = k
      · have : k ≠ none := hk ▸ hq
        simp [hk, this]
      · simp only [hk, decide_false]
        exact ih

theorem get_append (a b : EffTable) (k : Option String) : (a ++ b : EffTable).get k = (a.get k).or (b.get k) := by
  unfold EffTable.get
  rw [List.find?_append]
  cases List.find? (fun q => decide (q.1 = k)) a <;> simp

theorem get_transformed (t : EffTable) (k : Option String) : t.transformed.get k = t.get k := by
  unfold EffTable.transformed
  cases h : t.get none with
  | none =>
    simp only [get_popNone]
    by_cases hk : k = none
    · simp [hk, h]
    · simp [hk]
  | some x =>
    simp only
    rw [get_append, get_popNone]
    by_cases hk : k = none
    · subst hk; rw [h]; simp [EffTable.get]
    · simp [hk, EffTable.get, Ne.symm hk]

/-- All dictionaries exist, and a dictionary that is used by two slots has no value for the standard effect. -/
structure EffMem.Unshared (m : EffMem) : Prop where
  exist : ∀ (i d : Nat), m.slots[i]? = some (.dict d) → d < m.heap.length
  shared : ∀ (i j d : Nat), i ≠ j → m.slots[i]? = some (.dict d) → m.slots[j]? = some (.dict d) → ∀ t : EffTable, m.heap[d]? = some t → t.get none = none

theorem prepare_value {m : EffMem} (h : m.Unshared) (i : Nat) : (m.prepare i).Unshared ∧ ∀ j k, (m.prepare i).value j k = m.value j k := by
  unfold EffMem.prepare
  cases hs : m.slots[i]? with
  | none => exact ⟨h, fun _ _ => rfl⟩
  | some s =>
    have hilt : i < m.slots.length := by
      by_contra hc
      rw [List.getElem?_eq_none (by omega)] at hs; simp at hs
    have hset : ∀ (x : EffSlot) j, (m.slots.set i x)[j]? = if i = j then some x else m.slots[j]? := by
      intro x j
      rw [List.getElem?_set]
      by_cases hij : i = j
      · simp [hij]; omega
      · simp [hij]
    cases s with
    | none => exact ⟨h, fun _ _ => rfl⟩
    | number x =>
      simp only
      refine ⟨⟨?_, ?_⟩, ?_⟩
      · intro j d hj
        simp only [hset] at hj
        simp only [List.length_append, List.length_cons, List.length_nil]
        split at hj
        · cases hj; omega
        · have := h.exist j d hj; omega
      · intro j j' d hjj hj hj' t ht
        simp only [hset] at hj hj'
        split at hj
        · cases hj
          rw [if_neg (by omega)] at hj'
          have := h.exist _ _ hj'; omega
        · have hd := h.exist _ _ hj
          split at hj'
          · cases hj'; omega
          · simp only [List.getElem?_append_left hd] at ht
            exact h.shared j j' d hjj hj hj' t ht
      · intro j k
        unfold EffMem.value
        simp only [hset]
        by_cases hij : i = j
        · subst hij
          simp only [if_true, hs, List.getElem?_append_right (le_refl _), Nat.sub_self, List.getElem?_cons_zero]
          cases k <;> simp [EffTable.get]
        · simp only [hij, if_false]
          cases hj : m.slots[j]? with
          | none => rfl
          | some s' =>
            cases s' with
            | none => rfl
            | number y => rfl
            | dict d => simp only [List.getElem?_append_left (h.exist _ _ hj)]
    | dict d =>
      have hd := h.exist _ _ hs
      cases hh : m.heap[d]? with
      | none => simp only [hh]; exact ⟨h, fun _ _ => trivial⟩
      | some t =>
        simp only [hh]
        have hheap : ∀ d' < m.heap.length, (m.heap.set d t.popNone ++ [t.transformed])[d']? = if d = d' then some t.popNone else m.heap[d']? := by
          intro d' hd'
          rw [List.getElem?_append_left (by simpa using hd'), List.getElem?_set]
          by_cases hdd : d = d'
          · simp [hdd]; omega
          · simp [hdd]
        have hnew : (m.heap.set d t.popNone ++ [t.transformed])[m.heap.length]? = some t.transformed := by
          rw [List.getElem?_append_right (by simp)]; simp
        refine ⟨⟨?_, ?_⟩, ?_⟩
        · intro j d' hj
          simp only [hset] at hj
          simp only [List.length_append, List.length_set, List.length_cons, List.length_nil]
          split at hj
          · cases hj; omega
          · have := h.exist j d' hj; omega
        · intro j j' d' hjj hj hj' t' ht'
          simp only [hset] at hj hj'
          split at hj
          · cases hj
            rw [if_neg (by omega)] at hj'
            have := h.exist _ _ hj'; omega
          · have hd' := h.exist _ _ hj
            split at hj'
            · cases hj'; omega
            · simp only [hheap d' hd'] at ht'
              split at ht'
              · simp only [Option.some.injEq] at ht'
                rw [← ht', get_popNone]; simp
              · exact h.shared j j' d' hjj hj hj' t' ht'
        · intro j k
          unfold EffMem.value
          simp only [hset]
          by_cases hij : i = j
          · subst hij
            simp only [if_true, hs, hnew, hh, get_transformed]
          · simp only [hij, if_false]
            cases hj : m.slots[j]? with
            | none => rfl
            | some s' =>
              cases s' with
              | none => rfl
              | number y => rfl
              | dict d' =>
                simp only [hheap d' (h.exist _ _ hj)]
                by_cases hdd : d = d'
                · subst hdd
                  have := h.shared i j d hij hs hj t hh
                  simp only [if_true, hh, get_popNone]
                  split
                  · rename_i hk; rw [hk, this]
                  · rfl
                · simp [hdd]

/-- **C26 (partial).**  However often and in whichever order elements are prepared, every value given by the user is used,
provided that a dictionary object containing a value for the standard effect is given only once.
Missing for the full statement: dictionary objects with such a value that are given several times, see `C26_wrong`. -/
theorem C26_partial {m : EffMem} (h : m.Unshared) (is : List Nat) (i : Nat) (k : Option String) : (m.run is).value i k = m.value i k := by
  induction is generalizing m with
  | nil => rfl
  | cons j js ih =>
    obtain ⟨h1, h2⟩ := prepare_value h j
    show ((m.prepare j).run js).value i k = _
    rw [ih h1, h2]

/-- Three slots: a number, a dictionary with and one without a value for the standard effect, the latter used twice. -/
def exMem : EffMem :=
  { heap := [[(some "co2", .s 1), (none, .s 5)], [(some "co2", .s 2)]], slots := [.number (.s 3), .dict 0, .dict 1, .dict 1, .none] }

example : exMem.Unshared := by
  refine ⟨?_, ?_⟩
  · intro i d hi
    have hlt : i < 5 := by
      by_contra hc
      rw [exMem, List.getElem?_eq_none (by simp; omega)] at hi; simp at hi
    match i, hlt with
    | 0, _ => simp [exMem] at hi
    | 1, _ => simp [exMem] at hi; subst hi; simp [exMem]
    | 2, _ => simp [exMem] at hi; subst hi; simp [exMem]
    | 3, _ => simp [exMem] at hi; subst hi; simp [exMem]
    | 4, _ => simp [exMem] at hi
  · intro i j d hij hi hj t ht
    match d with
    | 0 =>
      have h0 : ∀ i, exMem.slots[i]? = some (.dict 0) → i = 1 := by
        intro i hi
        match i with
        | 0 => simp [exMem] at hi
        | 1 => rfl
        | 2 => simp [exMem] at hi
        | 3 => simp [exMem] at hi
        | 4 => simp [exMem] at hi
        | n + 5 => simp [exMem] at hi
      exact absurd ((h0 i hi).trans (h0 j hj).symm) hij
    | 1 => simp [exMem] at ht; subst ht; simp [EffTable.get]
    | n + 2 => simp [exMem] at ht

/-- **C26 is violated.**  If one dictionary object with a value for the standard effect is given to two elements, the second
one silently loses this value when both are prepared. -/
theorem C26_wrong : ∃ m : EffMem, m.slots = [.dict 0, .dict 0] ∧ m.value 1 none = some (.s 5) ∧ (m.run [0, 1]).value 0 none = some (.s 5) ∧
    (m.run [0, 1]).value 1 none = none ∧ (m.run [0, 1]).value 1 (some "co2") = some (.s 1) :=
  ⟨{ heap := [[(none, .s 5), (some "co2", .s 1)]], slots := [.dict 0, .dict 0] }, by decide +kernel⟩

/-- Exactly the first preparation keeps the value: after any number of slots have been prepared, the user's dictionary has no
value for the standard effect any more. -/
theorem C26_lost {m : EffMem} {i j d : Nat} {t : EffTable} (hij : i ≠ j) (hi : m.slots[i]? = some (.dict d)) (hj : m.slots[j]? = some (.dict d))
    (ht : m.heap[d]? = some t) : (m.run [i, j]).value j none = none := by
  have hd : d < m.heap.length := by
    by_contra hc
    rw [List.getElem?_eq_none (by omega)] at ht; simp at ht
  have hilt : i < m.slots.length := by
    by_contra hc
    rw [List.getElem?_eq_none (by omega)] at hi; simp at hi
  have h1 : m.prepare i = { heap := m.heap.set d t.popNone ++ [t.transformed], slots := m.slots.set i (.dict m.heap.length) } := by
    unfold EffMem.prepare; simp only [hi, ht]
  have hj1 : (m.prepare i).slots[j]? = some (.dict d) := by
    rw [h1]; simp only [List.getElem?_set, hij, if_false]; exact hj
  have hd1 : (m.prepare i).heap[d]? = some t.popNone := by
    rw [h1]; simp only
    rw [List.getElem?_append_left (by simpa using hd), List.getElem?_set]; simp [hd]
  have hd1' : d < (m.prepare i).heap.length := by
    by_contra hc
    rw [List.getElem?_eq_none (by omega)] at hd1; simp at hd1
  have hjlt : j < (m.prepare i).slots.length := by
    by_contra hc
    rw [List.getElem?_eq_none (by omega)] at hj1; simp at hj1
  show ((m.prepare i).prepare j).value j none = none
  generalize m.prepare i = m' at *
  unfold EffMem.prepare
  simp only [hj1, hd1, EffMem.value, List.getElem?_set, hjlt, if_true]
  rw [List.getElem?_append_right (by simp)]
  simp [get_transformed, get_popNone]

end Flix
