import Verif.Lemmas.Duration
import Mathlib.Algebra.Order.BigOperators.Group.Finset

/-! # Durations and runs -/

namespace Flix

variable {n : Nat} {w b d : Nat → ℚ} {prev mega : ℚ} {minD maxD : Option Num}

/-- Every schedule has a run length in each step. -/
theorem run_exists (hb : ∀ t < n, b t = 0 ∨ b t = 1) : ∀ t < n, ∃ h, RunUpTo b w prev t h := by
  intro t
  induction t with
  | zero =>
    intro ht
    rcases hb 0 ht with h | h
    · exact ⟨_, .idle h⟩
    · exact ⟨_, .carried fun k hk => by have : k = 0 := by omega
                                        subst this; exact h⟩
  | succ t ih =>
    intro ht
    rcases hb (t + 1) ht with h | h
    · exact ⟨_, .idle h⟩
    · obtain ⟨x, hx⟩ := ih (by omega)
      cases hx with
      | idle h0 =>
        refine ⟨_, .started (s := t) (by omega) h0 fun k h1 h2 => ?_⟩
        have : k = t + 1 := by omega
        subst this; exact h
      | started hs h0 hon =>
        refine ⟨_, .started (by omega) h0 fun k h1 h2 => ?_⟩
        by_cases hk : k = t + 1
        · subst hk; exact h
        · exact hon k h1 (by omega)
      | carried hon =>
        refine ⟨_, .carried fun k hk => ?_⟩
        by_cases hk : k = t + 1
        · subst hk; exact h
        · exact hon k (by omega)

/-- The run length is unique. -/
theorem run_unique {t : Nat} {x y : ℚ} (hx : RunUpTo b w prev t x) (hy : RunUpTo b w prev t y) : x = y := by
  cases hx with
  | idle h0 =>
    cases hy with
    | idle _ => rfl
    | started hs _ hon => have := hon t hs le_rfl; rw [h0] at this; norm_num at this
    | carried hon => have := hon t le_rfl; rw [h0] at this; norm_num at this
  | started hs h0 hon =>
    rename_i s
    cases hy with
    | idle h => have := hon t hs le_rfl; rw [h] at this; norm_num at this
    | started hs' h0' hon' =>
      rename_i s'
      have : s = s' := by
        rcases lt_trichotomy s s' with h | h | h
        · have := hon s' h (by omega); rw [h0'] at this; norm_num at this
        · exact h
        · have := hon' s h (by omega); rw [h0] at this; norm_num at this
      subst this; rfl
    | carried hon' => have := hon' s (by omega); rw [h0] at this; norm_num at this
  | carried hon =>
    cases hy with
    | idle h => have := hon t le_rfl; rw [h] at this; norm_num at this
    | started hs' h0' hon' => rename_i s'; have := hon s' (by omega); rw [h0'] at this; norm_num at this
    | carried _ => rfl

/-- Run lengths step by step. -/
theorem run_zero_on (h : b 0 = 1) : RunUpTo b w prev 0 (prev + w 0) := by
  have := RunUpTo.carried (w := w) (before := prev) (b := b) (t := 0)
    fun k hk => by have : k = 0 := by omega
                   subst this; exact h
  simpa using this

theorem run_succ_on {t : Nat} {x : ℚ} (h : b (t + 1) = 1) (hx : RunUpTo b w prev t x) :
    RunUpTo b w prev (t + 1) (x + w (t + 1)) := by
  cases hx with
  | idle h0 =>
    have := RunUpTo.started (w := w) (before := prev) (b := b) (t := t + 1) (s := t) (by omega) h0
      fun k h1 h2 => by have : k = t + 1 := by omega
                        subst this; exact h
    simpa using this
  | started hs h0 hon =>
    rename_i s
    have := RunUpTo.started (w := w) (before := prev) (b := b) (t := t + 1) (s := s) (by omega) h0
      fun k h1 h2 => by
        by_cases hk : k = t + 1
        · subst hk; exact h
        · exact hon k h1 (by omega)
    rwa [Finset.sum_Icc_succ_top (by omega)] at this
  | carried hon =>
    have := RunUpTo.carried (w := w) (before := prev) (b := b) (t := t + 1)
      fun k hk => by
        by_cases hk : k = t + 1
        · subst hk; exact h
        · exact hon k (by omega)
    rw [Finset.sum_range_succ, ← add_assoc] at this
    exact this

/-- The rows determine the duration. -/
theorem dur_run (h : DurRows n w b d prev mega minD maxD) (hb : ∀ t < n, b t = 0 ∨ b t = 1) :
    ∀ t < n, RunUpTo b w prev t (d t) := by
  intro t
  induction t with
  | zero =>
    intro ht
    rw [h.initial]
    rcases hb 0 ht with h0 | h0
    · rw [h0, mul_zero]; exact .idle h0
    · rw [h0, mul_one, add_comm]; exact run_zero_on h0
  | succ t ih =>
    intro ht
    have ih := ih (by omega)
    rcases hb (t + 1) ht with h0 | h0
    · have : d (t + 1) = 0 := by
        have h1 := h.off (t + 1) ht
        have h2 := h.nonneg (t + 1) ht
        rw [h0] at h1; linarith
      rw [this]; exact .idle h0
    · have : d (t + 1) = d t + w (t + 1) := by
        have h1 := h.up t ht
        have h2 := h.down t ht
        rw [h0] at h2; linarith
      rw [this]; exact run_succ_on h0 ih

/-- Step widths are not negative: run lengths lie between 0 and the hours before plus all hours up to now. -/
theorem run_le (hw : ∀ t < n, 0 ≤ w t) (hp : 0 ≤ prev) {t : Nat} {x : ℚ} (ht : t < n) (hx : RunUpTo b w prev t x) :
    0 ≤ x ∧ x ≤ prev + ∑ k ∈ Finset.range (t + 1), w k := by
  have hnn : 0 ≤ ∑ k ∈ Finset.range (t + 1), w k :=
    Finset.sum_nonneg fun k hk => hw k (by have := Finset.mem_range.1 hk; omega)
  cases hx with
  | idle _ => exact ⟨le_rfl, by linarith⟩
  | started hs _h0 _hon =>
    rename_i s
    have h1 : 0 ≤ ∑ k ∈ Finset.Icc (s + 1) t, w k :=
      Finset.sum_nonneg fun k hk => hw k (by have := Finset.mem_Icc.1 hk; omega)
    have h2 : ∑ k ∈ Finset.Icc (s + 1) t, w k ≤ ∑ k ∈ Finset.range (t + 1), w k := by
      apply Finset.sum_le_sum_of_subset_of_nonneg
      · intro k hk; have := Finset.mem_Icc.1 hk; exact Finset.mem_range.2 (by omega)
      · intro k hk _; exact hw k (by have := Finset.mem_range.1 hk; omega)
    exact ⟨h1, by linarith⟩
  | carried _ => exact ⟨by linarith, le_rfl⟩

/-- A schedule whose runs respect the limits satisfies all rows with its run lengths. -/
theorem dur_complete (hn : 0 < n) (hw : ∀ t < n, 0 ≤ w t) (hp : 0 ≤ prev)
    (hmega : mega = ∑ k ∈ Finset.range n, w k + prev)
    (hb : ∀ t < n, b t = 0 ∨ b t = 1) (hd : ∀ t < n, RunUpTo b w prev t (d t))
    (hmax : ∀ m, maxD = some m → ∀ t < n, d t ≤ m.at t)
    (hmin : ∀ m, minD = some m → ∀ t, t + 1 < n → b t = 1 → b (t + 1) = 0 → m.at t ≤ d t)
    (hmin0 : ∀ m, minD = some m → ∀ t, t + 1 < n → 0 ≤ m.at t)
    (hkeep : ∀ m, minD = some m → 0 < prev → prev < m.at 0 → b 0 = 1) :
    DurRows n w b d prev mega minD maxD := by
  have hle : ∀ t < n, d t ≤ mega := by
    intro t ht
    have h1 := (run_le hw hp ht (hd t ht)).2
    have : ∑ k ∈ Finset.range (t + 1), w k ≤ ∑ k ∈ Finset.range n, w k := by
      apply Finset.sum_le_sum_of_subset_of_nonneg
      · intro k hk; have := Finset.mem_range.1 hk; exact Finset.mem_range.2 (by omega)
      · intro k hk _; exact hw k (Finset.mem_range.1 hk)
    linarith
  have hnn : ∀ t < n, 0 ≤ d t := fun t ht => (run_le hw hp ht (hd t ht)).1
  have hoff : ∀ t < n, b t = 0 → d t = 0 := fun t ht h0 => run_unique (hd t ht) (.idle h0)
  have hon : ∀ t, t + 1 < n → b (t + 1) = 1 → d (t + 1) = d t + w (t + 1) := fun t ht h1 =>
    run_unique (hd (t + 1) ht) (run_succ_on h1 (hd t (by omega)))
  refine ⟨hnn, hmax, fun _ => hle, ?_, ?_, ?_, ?_, hkeep, ?_⟩
  · intro t ht
    rcases hb t ht with h | h
    · rw [hoff t ht h, h]; simp
    · rw [h, mul_one]; exact hle t ht
  · intro t ht
    rcases hb (t + 1) ht with h | h
    · rw [hoff _ ht h]; have := hnn t (by omega); have := hw (t + 1) ht; linarith
    · rw [hon t ht h]
  · intro t ht
    rcases hb (t + 1) ht with h | h
    · rw [hoff _ ht h, h]
      have h1 := (run_le hw hp (by omega) (hd t (by omega))).2
      have h2 : ∑ k ∈ Finset.range (t + 2), w k ≤ ∑ k ∈ Finset.range n, w k := by
        apply Finset.sum_le_sum_of_subset_of_nonneg
        · intro k hk; have := Finset.mem_range.1 hk; exact Finset.mem_range.2 (by omega)
        · intro k hk _; exact hw k (Finset.mem_range.1 hk)
      rw [Finset.sum_range_succ] at h2
      linarith
    · rw [hon t ht h, h]; simp
  · intro m hm t ht
    rcases hb t (by omega) with h | h <;> rcases hb (t + 1) ht with h' | h'
    · rw [h, h']; simp; exact hnn t (by omega)
    · rw [h, h']; have := hmin0 m hm t ht; have := hnn t (by omega); linarith
    · rw [h, h']; have := hmin m hm t ht h h'; linarith
    · rw [h, h']; simp; exact hnn t (by omega)
  · rcases hb 0 hn with h | h
    · rw [hoff 0 hn h, h]; simp
    · rw [run_unique (hd 0 hn) (run_zero_on h), h]; ring

end Flix
