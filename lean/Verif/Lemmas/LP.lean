import Mathlib.Algebra.BigOperators.Fin
import Mathlib.Algebra.Order.Field.Basic
import Mathlib.Algebra.Order.Field.Rat
import Mathlib.Data.Finset.Max
import Mathlib.Tactic.Linarith
import Mathlib.Tactic.FieldSimp
import Mathlib.Tactic.Ring

/-!
# Linear programs over the rationals attain their minimum

Elimination of one variable after the other (Fourier and Motzkin).
-/

namespace Flix.LP

/-- `∑ coef i * x i + par * z + const ≤ 0`, with a parameter `z`. -/
structure Form (n : Nat) where
  coef : Fin n → ℚ
  par : ℚ
  const : ℚ

def Form.val {n : Nat} (f : Form n) (x : Fin n → ℚ) (z : ℚ) : ℚ := ∑ i, f.coef i * x i + f.par * z + f.const

def Holds {n : Nat} (L : List (Form n)) (x : Fin n → ℚ) (z : ℚ) : Prop := ∀ f ∈ L, f.val x z ≤ 0

/-- The form without its first variable. -/
def Form.rest {n : Nat} (f : Form (n + 1)) : Form n := ⟨fun i => f.coef i.succ, f.par, f.const⟩

theorem val_cons {n : Nat} (f : Form (n + 1)) (y : ℚ) (x : Fin n → ℚ) (z : ℚ) : f.val (Fin.cons y x) z = f.coef 0 * y + f.rest.val x z := by
  unfold Form.val Form.rest
  rw [Fin.sum_univ_succ]
  simp only [Fin.cons_zero, Fin.cons_succ]
  ring

/-- `a * f + b * g`. -/
def Form.comb {n : Nat} (a b : ℚ) (f g : Form n) : Form n := ⟨fun i => a * f.coef i + b * g.coef i, a * f.par + b * g.par, a * f.const + b * g.const⟩

theorem val_comb {n : Nat} (a b : ℚ) (f g : Form n) (x : Fin n → ℚ) (z : ℚ) : (Form.comb a b f g).val x z = a * f.val x z + b * g.val x z := by
  unfold Form.val Form.comb
  simp only [add_mul, Finset.sum_add_distrib, mul_assoc, ← Finset.mul_sum]
  ring

/-- Eliminate the first variable. -/
def elim {n : Nat} (L : List (Form (n + 1))) : List (Form n) :=
  (L.filter fun f => f.coef 0 = 0).map Form.rest ++
    ((L.filter fun f => 0 < f.coef 0).map fun p => (L.filter fun f => f.coef 0 < 0).map fun q => Form.comb (p.coef 0) (-q.coef 0) q.rest p.rest).flatten

theorem between (ls us : List ℚ) (h : ∀ l ∈ ls, ∀ u ∈ us, l ≤ u) : ∃ y, (∀ l ∈ ls, l ≤ y) ∧ ∀ u ∈ us, y ≤ u := by
  by_cases hl : ls = []
  · subst hl
    by_cases hu : us = []
    · subst hu; exact ⟨0, by simp, by simp⟩
    · obtain ⟨m, hm, hmin⟩ := us.toFinset.exists_min_image id (by simpa using hu)
      exact ⟨m, by simp, fun u hu => hmin u (by simpa using hu)⟩
  · obtain ⟨m, hm, hmax⟩ := ls.toFinset.exists_max_image id (by simpa using hl)
    exact ⟨m, fun l hl => hmax l (by simpa using hl), fun u hu => h m (by simpa using hm) u hu⟩

theorem elim_iff {n : Nat} (L : List (Form (n + 1))) (x : Fin n → ℚ) (z : ℚ) : Holds (elim L) x z ↔ ∃ y, Holds L (Fin.cons y x) z := by
  constructor
  · intro h
    have h0 : ∀ f ∈ L, f.coef 0 = 0 → f.rest.val x z ≤ 0 := fun f hf e =>
      h _ (List.mem_append_left _ (List.mem_map.2 ⟨f, List.mem_filter.2 ⟨hf, by simpa using e⟩, rfl⟩))
    have h1 : ∀ p ∈ L, ∀ q ∈ L, 0 < p.coef 0 → q.coef 0 < 0 → p.coef 0 * q.rest.val x z + -q.coef 0 * p.rest.val x z ≤ 0 := by
      intro p hp q hq e1 e2
      rw [← val_comb]
      refine h _ (List.mem_append_right _ (List.mem_flatten.2 ⟨_, List.mem_map.2 ⟨p, List.mem_filter.2 ⟨hp, by simpa using e1⟩, rfl⟩, ?_⟩))
      exact List.mem_map.2 ⟨q, List.mem_filter.2 ⟨hq, by simpa using e2⟩, rfl⟩
    obtain ⟨y, hy1, hy2⟩ := between ((L.filter fun f => f.coef 0 < 0).map fun q => q.rest.val x z / (-q.coef 0))
      ((L.filter fun f => 0 < f.coef 0).map fun p => -p.rest.val x z / p.coef 0) (by
        simp only [List.mem_map, List.mem_filter, decide_eq_true_eq]
        rintro _ ⟨q, ⟨hq, e2⟩, rfl⟩ _ ⟨p, ⟨hp, e1⟩, rfl⟩
        rw [div_le_div_iff₀ (by linarith) e1]
        nlinarith [h1 p hp q hq e1 e2])
    simp only [List.mem_map, List.mem_filter, decide_eq_true_eq] at hy1 hy2
    refine ⟨y, fun f hf => ?_⟩
    rw [val_cons]
    rcases lt_trichotomy (f.coef 0) 0 with e | e | e
    · have := hy1 _ ⟨f, ⟨hf, e⟩, rfl⟩
      rw [div_le_iff₀ (by linarith)] at this
      linarith
    · rw [e, zero_mul, zero_add]
      exact h0 f hf e
    · have := hy2 _ ⟨f, ⟨hf, e⟩, rfl⟩
      rw [le_div_iff₀ e] at this
      linarith
  · rintro ⟨y, hy⟩ f hf
    have hval : ∀ g ∈ L, g.coef 0 * y + g.rest.val x z ≤ 0 := fun g hg => by rw [← val_cons]; exact hy g hg
    rcases List.mem_append.1 hf with hf | hf
    · obtain ⟨g, hg, rfl⟩ := List.mem_map.1 hf
      obtain ⟨hg, e⟩ := List.mem_filter.1 hg
      have e : g.coef 0 = 0 := by simpa using e
      have := hval g hg
      rw [e] at this
      linarith
    · obtain ⟨l, hl, hf⟩ := List.mem_flatten.1 hf
      obtain ⟨p, hp, rfl⟩ := List.mem_map.1 hl
      obtain ⟨q, hq, rfl⟩ := List.mem_map.1 hf
      obtain ⟨hp, e1⟩ := List.mem_filter.1 hp
      obtain ⟨hq, e2⟩ := List.mem_filter.1 hq
      have e1 : 0 < p.coef 0 := by simpa using e1
      have e2 : q.coef 0 < 0 := by simpa using e2
      rw [val_comb]
      have k1 := mul_le_mul_of_nonneg_left (hval q hq) e1.le
      have k2 := mul_le_mul_of_nonneg_left (hval p hp) (by linarith : 0 ≤ -q.coef 0)
      nlinarith

/-- Eliminate all variables: what remains are conditions on the parameter. -/
theorem project : ∀ (n : Nat) (L : List (Form n)), ∃ M : List (ℚ × ℚ), ∀ z, (∃ x, Holds L x z) ↔ ∀ q ∈ M, q.1 * z + q.2 ≤ 0
  | 0, L => by
    refine ⟨L.map fun f => (f.par, f.const), fun z => ?_⟩
    constructor
    · rintro ⟨x, hx⟩ q hq
      obtain ⟨f, hf, rfl⟩ := List.mem_map.1 hq
      have := hx f hf
      simpa [Form.val] using this
    · intro h
      refine ⟨Fin.elim0, fun f hf => ?_⟩
      have := h _ (List.mem_map.2 ⟨f, hf, rfl⟩)
      simpa [Form.val] using this
  | n + 1, L => by
    obtain ⟨M, hM⟩ := project n (elim L)
    refine ⟨M, fun z => ?_⟩
    rw [← hM z]
    constructor
    · rintro ⟨x, hx⟩
      refine ⟨Fin.tail x, (elim_iff L _ z).2 ⟨x 0, ?_⟩⟩
      rw [Fin.cons_self_tail]
      exact hx
    · rintro ⟨x, hx⟩
      obtain ⟨y, hy⟩ := (elim_iff L x z).1 hx
      exact ⟨_, hy⟩

/-- A nonempty set of numbers given by finitely many inequalities that is bounded below has a least element. -/
theorem least (M : List (ℚ × ℚ)) {z₀ : ℚ} (h₀ : ∀ q ∈ M, q.1 * z₀ + q.2 ≤ 0) {b : ℚ} (hb : ∀ z, (∀ q ∈ M, q.1 * z + q.2 ≤ 0) → b ≤ z) :
    ∃ z, (∀ q ∈ M, q.1 * z + q.2 ≤ 0) ∧ ∀ z', (∀ q ∈ M, q.1 * z' + q.2 ≤ 0) → z ≤ z' := by
  by_cases hn : ∃ q ∈ M, q.1 < 0
  · let ls := ((M.filter fun q => q.1 < 0).map fun q => q.2 / (-q.1)).toFinset
    obtain ⟨z, hz, hmax⟩ := ls.exists_max_image id (by
      obtain ⟨q, hq, e⟩ := hn
      exact ⟨q.2 / (-q.1), by simp only [ls, List.mem_toFinset]; exact List.mem_map.2 ⟨q, List.mem_filter.2 ⟨hq, by simpa using e⟩, rfl⟩⟩)
    have hlow : ∀ z', (∀ q ∈ M, q.1 * z' + q.2 ≤ 0) → z ≤ z' := by
      intro z' hz'
      simp only [ls, List.mem_toFinset] at hz
      obtain ⟨q, hq, rfl⟩ := List.mem_map.1 hz
      obtain ⟨hq, e⟩ := List.mem_filter.1 hq
      have e : q.1 < 0 := by simpa using e
      rw [div_le_iff₀ (by linarith)]
      linarith [hz' q hq]
    refine ⟨z, fun q hq => ?_, hlow⟩
    rcases lt_or_ge q.1 0 with e | e
    · have := hmax (q.2 / (-q.1)) (by simp only [ls, List.mem_toFinset]; exact List.mem_map.2 ⟨q, List.mem_filter.2 ⟨hq, by simpa using e⟩, rfl⟩)
      simp only [id] at this
      rw [div_le_iff₀ (by linarith)] at this
      linarith
    · have := mul_le_mul_of_nonneg_left (hlow z₀ h₀) e
      linarith [h₀ q hq]
  · push Not at hn
    exfalso
    have hle : b ≤ z₀ := hb z₀ h₀
    have := hb (b - 1) fun q hq => by
      have := mul_le_mul_of_nonneg_left (by linarith : b - 1 ≤ z₀) (hn q hq)
      linarith [h₀ q hq]
    linarith

/-- A linear program with a solution and a lower bound of its objective attains its minimum. -/
theorem attained {n : Nat} (L : List (Form n)) (hpar : ∀ f ∈ L, f.par = 0) (c : Fin n → ℚ) {x₀ : Fin n → ℚ} (h₀ : Holds L x₀ 0) {b : ℚ}
    (hb : ∀ x, Holds L x 0 → b ≤ ∑ i, c i * x i) : ∃ x, Holds L x 0 ∧ ∀ x', Holds L x' 0 → ∑ i, c i * x i ≤ ∑ i, c i * x' i := by
  let up : Form n := ⟨c, -1, 0⟩
  let dn : Form n := ⟨fun i => -c i, 1, 0⟩
  have hval : ∀ x z, Holds (up :: dn :: L) x z ↔ Holds L x 0 ∧ ∑ i, c i * x i = z := by
    intro x z
    have e1 : up.val x z = ∑ i, c i * x i - z := by simp only [up, Form.val]; ring
    have e2 : dn.val x z = z - ∑ i, c i * x i := by simp only [dn, Form.val, neg_mul, Finset.sum_neg_distrib]; ring
    have e3 : ∀ f ∈ L, f.val x z = f.val x 0 := by
      intro f hf
      simp only [Form.val, hpar f hf]
      ring
    unfold Holds
    simp only [List.mem_cons, forall_eq_or_imp, e1, e2]
    constructor
    · rintro ⟨a, b, h⟩
      exact ⟨fun f hf => by rw [← e3 f hf]; exact h f hf, by linarith⟩
    · rintro ⟨h, e⟩
      exact ⟨by linarith, by linarith, fun f hf => by rw [e3 f hf]; exact h f hf⟩
  obtain ⟨M, hM⟩ := project n (up :: dn :: L)
  obtain ⟨z, hz, hmin⟩ := least M (z₀ := ∑ i, c i * x₀ i) ((hM _).1 ⟨x₀, (hval _ _).2 ⟨h₀, rfl⟩⟩) (b := b) (by
    intro z hz
    obtain ⟨x, hx⟩ := (hM z).2 hz
    obtain ⟨a, e⟩ := (hval _ _).1 hx
    rw [← e]; exact hb x a)
  obtain ⟨x, hx⟩ := (hM z).2 hz
  obtain ⟨hx, e⟩ := (hval _ _).1 hx
  refine ⟨x, hx, fun x' hx' => ?_⟩
  rw [e]
  exact hmin _ ((hM _).1 ⟨x', (hval _ _).2 ⟨hx', rfl⟩⟩)

end Flix.LP
