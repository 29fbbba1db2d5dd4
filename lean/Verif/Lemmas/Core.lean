import Verif.Spec.Linear
import Mathlib.Tactic.Linarith
import Mathlib.Tactic.Ring

/-! # Helper lemmas on the core layer -/

namespace Flix

theorem bind_ok {ε α β} {x : Except ε α} {f : α → Except ε β} {b : β} :
    (x >>= f) = .ok b ↔ ∃ a, x = .ok a ∧ f a = .ok b := by
  cases x with
  | error e => simp [bind, Except.bind]
  | ok a => simp [bind, Except.bind]

theorem mapM_ok {ε α β} {f : α → Except ε β} :
    ∀ {l : List α} {r : List β}, l.mapM f = .ok r ↔ List.Forall₂ (fun a b => f a = .ok b) l r
  | [], r => by
    cases r with
    | nil => simp [pure, Except.pure]
    | cons b r => simp [pure, Except.pure]; intro h; cases h
  | a :: l, r => by
    rw [List.mapM_cons]
    constructor
    · intro h
      obtain ⟨b, hb, h⟩ := bind_ok.1 h
      obtain ⟨bs, hbs, h⟩ := bind_ok.1 h
      simp [pure, Except.pure] at h
      subst h
      exact .cons hb (mapM_ok.1 hbs)
    · intro h
      cases h with
      | cons hb hbs =>
        exact bind_ok.2 ⟨_, hb, bind_ok.2 ⟨_, mapM_ok.2 hbs, rfl⟩⟩

theorem pyGet_ok {α} {xs : List α} {i : Nat} {a : α} : pyGet xs i = .ok a ↔ xs[i]? = some a := by
  unfold pyGet
  cases h : xs[i]? <;> simp

/-- Entry of a list read as in `Num.at`. -/
theorem num_at_v {xs : List ℚ} {i : Nat} (h : i < xs.length) : (Num.v xs).at i = xs[i] := by
  match xs, h with
  | [], h => simp at h
  | [x], h => simp at h; subst h; rfl
  | x :: y :: xs, h =>
    simp only [Num.at, List.getD_eq_getElem?_getD]
    rw [List.getElem?_eq_getElem h]
    rfl

theorem asVector_ok {a : Num} {n : Nat} {xs : List ℚ} (h : asVector a n = .ok xs) :
    xs.length = n ∧ ∀ i < n, xs[i]? = some (a.at i) := by
  cases a with
  | s x =>
    simp [asVector] at h
    subst h
    simp [Num.at]
    intro i hi
    simp [hi]
  | v ys =>
    simp only [asVector] at h
    split at h
    · simp at h
    · rename_i hl
      simp at h hl
      subst h
      refine ⟨hl, fun i hi => ?_⟩
      rw [num_at_v (by omega), List.getElem?_eq_getElem (by omega)]

theorem asVector_good {a : Num} {n : Nat} (h : a.isScalar = true ∨ a.len = n) :
    ∃ xs, asVector a n = .ok xs := by
  cases a with
  | s x => exact ⟨_, rfl⟩
  | v xs =>
    simp [Num.isScalar, Num.len] at h
    simp [asVector, h]

theorem num_at_map {f : ℚ → ℚ} {a : Num} {i : Nat} (h : a.len = 1 ∨ i < a.len) :
    (a.map f).at i = f (a.at i) := by
  cases a with
  | s x => rfl
  | v xs =>
    match xs with
    | [] => simp [Num.len] at h
    | [x] => rfl
    | x :: y :: xs =>
      simp [Num.len] at h
      simp only [Num.map, List.map_cons, Num.at, List.getD_eq_getElem?_getD]
      rw [List.getElem?_eq_getElem (by simp; omega), List.getElem?_eq_getElem (by simp; omega)]
      simp only [Option.getD_some]
      exact List.getElem_map (l := x :: y :: xs) f (h := by simp; omega)

@[simp] theorem num_len_map {f : ℚ → ℚ} {a : Num} : (a.map f).len = a.len := by
  cases a <;> simp [Num.map, Num.len]

@[simp] theorem num_isScalar_map {f : ℚ → ℚ} {a : Num} : (a.map f).isScalar = a.isScalar := by
  cases a <;> rfl

theorem zip_len {f} {a b c : Num} (h : Num.zip f a b = .ok c) :
    c.len = (if a.len = 1 then b.len else a.len) ∧ (a.len = 1 ∨ b.len = 1 ∨ a.len = b.len) := by
  cases a <;> cases b
  · simp [Num.zip] at h; subst h; simp [Num.len]
  · simp [Num.zip] at h; subst h; simp [Num.len]
  · simp [Num.zip] at h; subst h; simp only [Num.len, List.length_map]
    refine ⟨?_, by simp⟩
    by_cases h1 : (‹List ℚ›).length = 1 <;> simp_all
  · simp only [Num.zip] at h
    split at h
    · rename_i hl
      simp at h; subst h; simp [Num.len, hl]
    · split at h
      · simp at h; subst h; simp [Num.len]
      · rename_i h1 _
        simp at h; subst h
        simp only [Num.len, List.length_map, List.length_singleton]
        refine ⟨?_, by simp⟩
        by_cases h1 : (‹List ℚ›).length = 1 <;> simp_all
      · simp at h

theorem zip_at {f} {a b c : Num} {i : Nat} (h : Num.zip f a b = .ok c) (hi : c.len = 1 ∨ i < c.len) :
    c.at i = f (a.at i) (b.at i) := by
  cases a with
  | s x =>
    cases b with
    | s y => simp [Num.zip] at h; subst h; rfl
    | v ys =>
      simp [Num.zip] at h; subst h
      simp [Num.len] at hi
      exact num_at_map (f := f x) (a := .v ys) (by simpa [Num.len] using hi)
  | v xs =>
    cases b with
    | s y =>
      simp [Num.zip] at h; subst h
      simp [Num.len] at hi
      exact num_at_map (f := fun x => f x y) (a := .v xs) (by simpa [Num.len] using hi)
    | v ys =>
      simp only [Num.zip] at h
      split at h
      · rename_i hl
        simp at h; subst h
        simp only [Num.len, List.length_zipWith, hl, min_self] at hi
        rcases Nat.lt_or_ge i ys.length with hlt | hge
        · rw [num_at_v (by simp [hl, hlt]), num_at_v (by omega), num_at_v hlt]
          simp
        · have h1 : ys.length = 1 := by omega
          obtain ⟨y, rfl⟩ := List.length_eq_one_iff.1 h1
          obtain ⟨x, rfl⟩ := List.length_eq_one_iff.1 (hl.trans h1)
          rfl
      · split at h
        · rename_i x _
          simp at h; subst h
          simp [Num.len] at hi
          exact num_at_map (f := f x) (a := .v ys) (by simpa [Num.len] using hi)
        · rename_i y _ _
          simp at h; subst h
          simp [Num.len] at hi
          exact num_at_map (f := fun x => f x y) (a := .v xs) (by simpa [Num.len] using hi)
        · simp at h

/-- When numpy accepts the operands. -/
theorem zip_good {f} {a b : Num} (h : a.len = 1 ∨ b.len = 1 ∨ a.len = b.len) :
    ∃ c, Num.zip f a b = .ok c := by
  cases a with
  | s x => cases b <;> exact ⟨_, rfl⟩
  | v xs =>
    cases b with
    | s y => exact ⟨_, rfl⟩
    | v ys =>
      simp only [Num.zip]
      split
      · exact ⟨_, rfl⟩
      · rename_i hne
        simp only [Num.len] at h
        split
        · exact ⟨_, rfl⟩
        · exact ⟨_, rfl⟩
        · rename_i h1 h2
          exfalso
          rcases h with h | h | h
          · obtain ⟨x, rfl⟩ := List.length_eq_one_iff.1 h
            exact h1 x rfl
          · obtain ⟨y, rfl⟩ := List.length_eq_one_iff.1 h
            exact h2 y rfl
          · exact hne h

end Flix
