import Verif.Model.Registry
import Mathlib.Data.List.Nodup

/-!
# C54: full labels
-/

namespace Flix

/-- What a valid label is: it neither begins nor ends with an underscore and contains no two underscores in a row. -/
structure GoodLabel (l : List Char) : Prop where
  first : ∀ r, l ≠ '_' :: r
  last : ∀ r, l ≠ r ++ ['_']
  inner : ∀ r s, l ≠ r ++ '_' :: '_' :: s

theorem labelIsValid_iff (l : String) : labelIsValid l = true ↔ GoodLabel l.toList := by
  unfold labelIsValid
  simp only [Bool.not_eq_true', Bool.or_eq_false_iff, decide_eq_false_iff_not, beq_eq_false_iff_ne, ne_eq]
  constructor
  · rintro ⟨⟨h1, h2⟩, h3⟩
    refine ⟨fun r hr => h1 (by rw [hr]; rfl), fun r hr => h2 (by rw [hr]; simp), fun r s hr => h3 ⟨r, s, by rw [hr]; simp⟩⟩
  · rintro ⟨h1, h2, h3⟩
    refine ⟨⟨fun h => ?_, fun h => ?_⟩, ?_⟩
    · cases hl : l.toList with
      | nil => rw [hl] at h; simp at h
      | cons a r => rw [hl] at h; simp at h; subst h; exact h1 r hl
    · rw [List.getLast?_eq_some_iff] at h
      obtain ⟨r, hr⟩ := h
      exact h2 r hr
    · rintro ⟨r, s, hrs⟩
      exact h3 r s (by rw [← hrs]; simp)

theorem split_left {a a' b b' c : List Char} (ha' : GoodLabel a') (h1 : a' = a ++ c) (h2 : ['_', '_'] ++ b = c ++ (['_', '_'] ++ b')) : c = [] := by
  match c, h1, h2 with
  | [], _, _ => rfl
  | [x], h1, h2 =>
    simp at h2
    obtain ⟨rfl, _⟩ := h2
    exact absurd h1 (ha'.last a)
  | x :: y :: r, h1, h2 =>
    simp at h2
    obtain ⟨rfl, rfl, _⟩ := h2
    exact absurd h1 (ha'.inner a r)

theorem good_split {a a' b b' : List Char} (ha : GoodLabel a) (ha' : GoodLabel a') (h : a ++ (['_', '_'] ++ b) = a' ++ (['_', '_'] ++ b')) :
    a = a' ∧ b = b' := by
  rcases List.append_eq_append_iff.1 h with ⟨c, h1, h2⟩ | ⟨c, h1, h2⟩
  · have := split_left ha' h1 h2
    subst this
    simp at h1 h2
    exact ⟨h1.symm, h2⟩
  · have := split_left ha h1 h2
    subst this
    simp at h1 h2
    exact ⟨h1, h2.symm⟩

/-- **C54.**  With valid labels, different (component, flow) pairs have different full labels. -/
theorem C54 {c c' f f' : String} (hc : labelIsValid c = true) (hc' : labelIsValid c' = true) (h : c ++ "__" ++ f = c' ++ "__" ++ f') :
    c = c' ∧ f = f' := by
  have h' : c.toList ++ (['_', '_'] ++ f.toList) = c'.toList ++ (['_', '_'] ++ f'.toList) := by
    have := congrArg String.toList h
    simpa [String.toList_append] using this
  obtain ⟨h1, h2⟩ := good_split ((labelIsValid_iff c).1 hc) ((labelIsValid_iff c').1 hc') h'
  exact ⟨String.toList_injective h1, String.toList_injective h2⟩

/-- **C54 (flows and other elements).**  A full label of a flow is no valid label: it differs from the label of every component, bus
and effect with a valid label. -/
theorem C54_other {c f l : String} (hl : labelIsValid l = true) : c ++ "__" ++ f ≠ l := by
  intro h
  refine ((labelIsValid_iff l).1 hl).inner c.toList f.toList ?_
  rw [← h]
  simp [String.toList_append]

/-- **C54 (which labels).**  The test of labels is the documented one. -/
theorem C54_valid (l : String) : labelIsValid l = true ↔
    (∀ r, l.toList ≠ '_' :: r) ∧ (∀ r, l.toList ≠ r ++ ['_']) ∧ ∀ r s, l.toList ≠ r ++ '_' :: '_' :: s := by
  rw [labelIsValid_iff]
  exact ⟨fun h => ⟨h.1, h.2, h.3⟩, fun h => ⟨h.1, h.2.1, h.2.2⟩⟩

/-- Without valid labels this fails (`structure.py:344-348` only logs invalid labels). -/
theorem C54_needs_valid : ∃ c c' f f' : String, (c, f) ≠ (c', f') ∧ c ++ "__" ++ f = c' ++ "__" ++ f' :=
  ⟨"a", "a__b", "b__c", "c", by decide, by decide⟩

example : labelIsValid "Boiler_1" = true ∧ labelIsValid "Q th" = true ∧ labelIsValid "_a" = false ∧ labelIsValid "a__b" = false := by decide +kernel

end Flix
