import Verif.Lemmas.Rows
import Mathlib.Data.List.Nodup

/-! # Building assignments and telling labels apart -/

namespace Flix

/-- Overwrite the values of the listed labels. -/
def assignAll (σ : Assignment) (xs : List (String × (Nat → ℚ))) : Assignment := fun l t =>
  match xs.find? (fun q => q.1 == l) with
  | some q => q.2 t
  | none => σ l t

theorem assignAll_mem {σ : Assignment} {xs : List (String × (Nat → ℚ))} (hn : (xs.map (·.1)).Nodup) {l : String} {f : Nat → ℚ}
    (h : (l, f) ∈ xs) : assignAll σ xs l = f := by
  funext t
  unfold assignAll
  have : xs.find? (fun q => q.1 == l) = some (l, f) := by
    induction xs with
    | nil => simp at h
    | cons q xs ih =>
      rw [List.map_cons, List.nodup_cons] at hn
      rcases List.mem_cons.1 h with h | h
      · subst h; simp
      · rw [List.find?_cons_of_neg]
        · exact ih hn.2 h
        · simp only [beq_iff_eq]
          intro he
          exact hn.1 (he ▸ List.mem_map_of_mem (f := (·.1)) h)
  rw [this]

theorem assignAll_other {σ : Assignment} {xs : List (String × (Nat → ℚ))} {l : String} (h : l ∉ xs.map (·.1)) :
    assignAll σ xs l = σ l := by
  funext t
  unfold assignAll
  have : xs.find? (fun q => q.1 == l) = none := by
    rw [List.find?_eq_none]
    intro q hq
    simp only [beq_iff_eq]
    intro he
    exact h (he ▸ List.mem_map_of_mem (f := (·.1)) hq)
  rw [this]

theorem toString_nat_inj {i j : Nat} (h : toString i = toString j) : i = j := by
  have h' := congrArg String.toList h
  rw [Nat.toString_eq_repr, Nat.toString_eq_repr, Nat.toList_repr, Nat.toList_repr] at h'
  have := congrArg (fun l => Nat.ofDigitChars 10 l 0) h'
  simpa using this

/-- Same suffix: the parts before are equal. -/
theorem append_left_inj' {a b s : String} : a ++ s = b ++ s ↔ a = b := by
  constructor
  · intro h
    have h' := congrArg String.toList h
    simp only [String.toList_append, List.append_cancel_right_eq] at h'
    exact String.toList_inj.1 h'
  · rintro rfl; rfl

/-- Different last characters: different texts. -/
theorem append_ne_of_last {a b s r : String} (h : s.toList.getLast? ≠ r.toList.getLast?) (hs : s.toList ≠ []) (hr : r.toList ≠ []) :
    a ++ s ≠ b ++ r := by
  intro he
  have h' := congrArg (fun x => x.toList.getLast?) he
  simp only [String.toList_append, List.getLast?_append] at h'
  cases h1 : s.toList.getLast? with
  | none => exact hs (List.getLast?_eq_none_iff.1 h1)
  | some c =>
    cases h2 : r.toList.getLast? with
    | none => exact hr (List.getLast?_eq_none_iff.1 h2)
    | some d =>
      rw [h1, h2] at h' h
      simp at h' h
      exact h h'

/-- Different beginnings: different texts. -/
theorem append_ne_of_take {a b x y : String} (n : Nat) (ha : n ≤ a.toList.length) (hb : n ≤ b.toList.length)
    (h : a.toList.take n ≠ b.toList.take n) : a ++ x ≠ b ++ y := by
  intro he
  apply h
  have h' := congrArg (fun s => s.toList.take n) he
  simp only [String.toList_append] at h'
  rwa [List.take_append_of_le_length ha, List.take_append_of_le_length hb] at h'

/-- A label of an element itself is not a label of one of its sub models. -/
theorem own_ne_sub {el k y : String} {c : Char} (hk : k.toList.head? = some c) (hc : c ≠ '_') : el ++ "_" ++ k ≠ el ++ "__" ++ y := by
  intro h
  rw [String.append_assoc, String.append_assoc, String.append_right_inj] at h
  have h' := congrArg String.toList h
  cases hl : k.toList with
  | nil => rw [hl] at hk; simp at hk
  | cons a l =>
    rw [hl] at hk
    simp at hk
    simp [String.toList_append, hl] at h'
    exact hc (by rw [← hk, h'.1])

end Flix
