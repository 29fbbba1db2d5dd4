import Verif.Spec.Logging
import Mathlib.Tactic.SplitIfs

/-!
# Splitting and joining lines
-/

namespace Flix

theorem joinNl_cons {l : List Char} {ls : List (List Char)} (h : ls ≠ []) : joinNl (l :: ls) = l ++ '\n' :: joinNl ls := by
  cases ls with
  | nil => exact absurd rfl h
  | cons a ls => rfl

theorem joinNl_eq (ls : List (List Char)) : joinNl ls = List.intercalate ['\n'] ls := by
  induction ls with
  | nil => rfl
  | cons l ls ih =>
    cases ls with
    | nil => simp [joinNl, List.intercalate]
    | cons a ls =>
      rw [joinNl_cons (by simp), ih]
      simp [List.intercalate, List.intersperse]

theorem splitNl_ne (m : List Char) : splitNl m ≠ [] := by
  cases m with
  | nil => simp [splitNl]
  | cons c cs =>
    rw [splitNl]
    split_ifs
    · simp
    · split <;> simp

theorem splitNl_append {l : List Char} (h : '\n' ∉ l) (m : List Char) : splitNl (l ++ '\n' :: m) = l :: splitNl m := by
  induction l with
  | nil => simp [splitNl]
  | cons c cs ih =>
    simp only [List.mem_cons, not_or] at h
    rw [List.cons_append, splitNl, if_neg (fun e => h.1 e.symm), ih h.2]

theorem splitNl_single {l : List Char} (h : '\n' ∉ l) : splitNl l = [l] := by
  induction l with
  | nil => rfl
  | cons c cs ih =>
    simp only [List.mem_cons, not_or] at h
    rw [splitNl, if_neg (fun e => h.1 e.symm), ih h.2]

theorem splitNl_join {ls : List (List Char)} (h : ls ≠ []) (hl : ∀ l ∈ ls, '\n' ∉ l) : splitNl (joinNl ls) = ls := by
  induction ls with
  | nil => exact absurd rfl h
  | cons l ls ih =>
    by_cases hs : ls = []
    · subst hs
      exact splitNl_single (hl l (by simp))
    · rw [joinNl_cons hs, splitNl_append (hl l (by simp)), ih hs fun a ha => hl a (by simp [ha])]

theorem IsLines.split {m : List Char} {ls : List (List Char)} (h : IsLines m ls) : splitNl m = ls := by
  rw [h.joined, ← joinNl_eq]
  exact splitNl_join h.some h.whole

theorem isLines_join {ls : List (List Char)} (h : ls ≠ []) (hl : ∀ l ∈ ls, '\n' ∉ l) : IsLines (joinNl ls) ls := ⟨h, joinNl_eq ls, hl⟩

theorem IsLines.unique {m : List Char} {a b : List (List Char)} (ha : IsLines m a) (hb : IsLines m b) : a = b := ha.split.symm.trans hb.split

/-- Every text has lines. -/
theorem isLines_split (m : List Char) : IsLines m (splitNl m) := by
  suffices h : joinNl (splitNl m) = m ∧ ∀ l ∈ splitNl m, '\n' ∉ l from ⟨splitNl_ne m, by rw [← joinNl_eq, h.1], h.2⟩
  induction m with
  | nil => simp [splitNl, joinNl]
  | cons c cs ih =>
    rw [splitNl]
    by_cases hc : c = '\n'
    · rw [if_pos hc]
      refine ⟨by rw [joinNl_cons (splitNl_ne cs), ih.1, hc]; rfl, ?_⟩
      intro l hl
      rcases List.mem_cons.1 hl with rfl | hl
      · simp
      · exact ih.2 l hl
    · rw [if_neg hc]
      cases hs : splitNl cs with
      | nil => exact absurd hs (splitNl_ne cs)
      | cons l ls =>
        rw [hs] at ih
        refine ⟨?_, ?_⟩
        · by_cases he : ls = []
          · subst he
            simpa [joinNl] using ih.1
          · rw [joinNl_cons he, List.cons_append, ← joinNl_cons he, ih.1]
        · intro a ha
          rcases List.mem_cons.1 ha with rfl | ha
          · simp only [List.mem_cons, not_or]
            exact ⟨fun e => hc e.symm, ih.2 l (by simp)⟩
          · exact ih.2 a (by simp [ha])

/-- The lines of the text in the file. -/
theorem formatPlain_join (time level m : List Char) :
    formatPlain time level m = joinNl ((splitNl m).map fun l => logPrefix time level ++ " ".toList ++ l) := by
  unfold formatPlain
  cases h : splitNl m with
  | nil => exact absurd h (splitNl_ne m)
  | cons a ls =>
    by_cases he : ls = []
    · simp [he]
    · simp [he]

theorem breaks_nl : breaksLine '\n' = true := by decide

theorem breaks_cr : breaksLine '\r' = true := by decide

theorem splitLines_append {l : List Char} (h : ∀ c ∈ l, breaksLine c = false) (m : List Char) : splitLines (l ++ '\n' :: m) = l :: splitLines m := by
  induction l with
  | nil =>
    rw [List.nil_append, splitLines, if_neg (by simp), if_pos breaks_nl]
  | cons c cs ih =>
    have hc := h c (by simp)
    have hr : ¬ (c = '\r' ∧ (cs ++ '\n' :: m).head? = some '\n') := by
      rintro ⟨rfl, -⟩
      rw [breaks_cr] at hc
      cases hc
    rw [List.cons_append, splitLines, if_neg hr, if_neg (by simp [hc]), ih fun a ha => h a (by simp [ha])]

theorem splitLines_single {l : List Char} (hne : l ≠ []) (h : ∀ c ∈ l, breaksLine c = false) : splitLines l = [l] := by
  induction l with
  | nil => exact absurd rfl hne
  | cons c cs ih =>
    have hc := h c (by simp)
    have hr : ¬ (c = '\r' ∧ cs.head? = some '\n') := by
      rintro ⟨rfl, -⟩
      rw [breaks_cr] at hc
      cases hc
    rw [splitLines, if_neg hr, if_neg (by simp [hc])]
    by_cases he : cs = []
    · simp [he, splitLines]
    · rw [ih he fun a ha => h a (by simp [ha])]

theorem splitLines_join {ls : List (List Char)} (h : ∀ l ∈ ls, l ≠ [] ∧ ∀ c ∈ l, breaksLine c = false) : splitLines (joinNl ls) = ls := by
  induction ls with
  | nil => rfl
  | cons l ls ih =>
    by_cases hs : ls = []
    · subst hs
      exact splitLines_single (h l (by simp)).1 (h l (by simp)).2
    · rw [joinNl_cons hs, splitLines_append (h l (by simp)).2, ih fun a ha => h a (by simp [ha])]

theorem mem_joinNl {ls : List (List Char)} {l : List Char} (hl : l ∈ ls) {c : Char} (hc : c ∈ l) : c ∈ joinNl ls := by
  induction ls with
  | nil => cases hl
  | cons a ls ih =>
    by_cases hs : ls = []
    · subst hs
      rw [List.mem_singleton.1 hl] at hc
      exact hc
    · rw [joinNl_cons hs]
      rcases List.mem_cons.1 hl with rfl | hl
      · exact List.mem_append_left _ hc
      · exact List.mem_append_right _ (List.mem_cons_of_mem _ (ih hl))

theorem logColour_whole (level : String) : '\n' ∉ logColour level := by
  unfold logColour
  split_ifs <;> decide

/-- A level has a number for the program exactly if it has one. -/
theorem loggingLevel_eq (name : String) : loggingLevel name = (levelWanted name).elim (.error .value) .ok := by
  unfold loggingLevel levelWanted
  by_cases h1 : name.toUpper = "DEBUG"
  · rw [h1]; rfl
  by_cases h2 : name.toUpper = "INFO"
  · rw [h2]; rfl
  by_cases h3 : name.toUpper = "WARNING"
  · rw [h3]; rfl
  by_cases h4 : name.toUpper = "ERROR"
  · rw [h4]; rfl
  by_cases h5 : name.toUpper = "CRITICAL"
  · rw [h5]; rfl
  rw [if_neg (by simp [h1, h2, h3, h4, h5])]
  simp [List.find?_cons, Ne.symm h1, Ne.symm h2, Ne.symm h3, Ne.symm h4, Ne.symm h5]

end Flix
