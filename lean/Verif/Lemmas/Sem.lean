import Verif.Lemmas.Build
import Verif.Props.Core
import Verif.Model.Tree
import Mathlib.Algebra.BigOperators.Intervals

/-! # Reading constraints row by row -/

namespace Flix

theorem opsLen_from (n : Nat) : ∀ (ops : List Op) (L : Nat), (L = 1 ∨ L = n) →
    (∀ op ∈ ops, op.len = 1 ∨ op.len = n) → (L = n ∨ ∃ op ∈ ops, op.len = n) →
    ops.foldl (fun L op => if L = 1 then op.len else L) L = n
  | [], L, _, _, hex => by
    rcases hex with h | ⟨op, h, _⟩
    · exact h
    · simp at h
  | op :: ops, L, hL, hn, hex => by
    simp only [List.foldl_cons]
    apply opsLen_from n ops
    · split
      · exact hn op (by simp)
      · exact hL
    · exact fun o ho => hn o (by simp [ho])
    · by_cases h1 : L = 1
      · simp only [h1, if_true]
        rcases hex with h | ⟨o, ho, hl⟩
        · rcases hn op (by simp) with h' | h'
          · left; omega
          · left; exact h'
        · rcases List.mem_cons.1 ho with rfl | ho
          · left; exact hl
          · right; exact ⟨o, ho, hl⟩
      · simp only [h1, if_false]
        exact Or.inl (hL.resolve_left h1)

theorem opsLen_eq {n : Nat} {ops : List Op} (hn : ∀ op ∈ ops, op.len = 1 ∨ op.len = n)
    (hex : ∃ op ∈ ops, op.len = n) : opsLen ops = n :=
  opsLen_from n ops 1 (Or.inl rfl) hn (Or.inr hex)

/-- Row `t` of an accepted constraint with `n` rows. -/
theorem ConReq.Ok.row {r : ConReq} {σ : Assignment} (h : r.Ok σ) (n : Nat) (hw : ∀ op ∈ r.ops, op.WholeSum)
    (hn : ∀ op ∈ r.ops, op.len = 1 ∨ op.len = n) (hex : ∃ op ∈ r.ops, op.len = n) {t : Nat} (ht : t < n) :
    r.kind.rel (opsLhs σ t r.ops) (opsRhs t r.ops) :=
  sem_of_ok hw h t (by rw [opsLen_eq hn hex]; exact ht)

theorem ConReq.Ok.shape {r : ConReq} {σ : Assignment} (h : r.Ok σ) {x f idx a}
    (hm : Op.summand x f idx a ∈ r.ops) :
    f.len = 1 ∨ (idxOf x idx).length = 1 ∨ f.len = (idxOf x idx).length := by
  obtain ⟨c, rows, hb, _, _⟩ := h
  have hB := build_built hb
  have : Op.summand x f idx a ∈ r.ops.filter Op.isSummand := List.mem_filter.2 ⟨hm, rfl⟩
  obtain ⟨i, hi, hi'⟩ := List.mem_iff_getElem.1 this
  obtain ⟨sm, _, x', f', idx', a', he, hmk⟩ := (forall₂_get hB.hsums).2 i _ (by rw [List.getElem?_eq_getElem hi, hi'])
  cases he
  obtain ⟨len, h1, _⟩ := bind_ok.1 hmk
  have := (checkLength_ok h1)
  unfold idxOf
  unfold checkLength at h1
  split at h1
  · right; right; omega
  · split at h1
    · left; assumption
    · split at h1
      · right; left; assumption
      · simp at h1

@[simp] theorem at_s (x : ℚ) (i : Nat) : (Num.s x).at i = x := rfl

@[simp] theorem len_s (x : ℚ) : (Num.s x).len = 1 := rfl

@[simp] theorem len_v (xs : List ℚ) : (Num.v xs).len = xs.length := rfl

theorem at_v {xs : List ℚ} {i : Nat} (h : i < xs.length) : (Num.v xs).at i = xs.getD i 0 := by
  rw [num_at_v h]
  simp [List.getD, h]

/-- `-1 * a` (also outside the range). -/
theorem at_neg (a : Num) (i : Nat) : (a.map (-1 * ·)).at i = -(a.at i) := by
  cases a with
  | s x => simp [Num.map, Num.at]
  | v xs =>
    match xs with
    | [] => simp [Num.map, Num.at]
    | [x] => simp [Num.map, Num.at]
    | x :: y :: xs =>
      simp only [Num.map, Num.at, List.map_cons]
      rw [← List.map_cons, ← List.map_cons]
      simp only [List.getD_eq_getElem?_getD, List.getElem?_map]
      cases (x :: y :: xs)[i]? <;> simp

/-- `a * k` (also outside the range). -/
theorem at_mulr (a : Num) (k : ℚ) (i : Nat) : (a.map (· * k)).at i = a.at i * k := by
  cases a with
  | s x => simp [Num.map, Num.at]
  | v xs =>
    match xs with
    | [] => simp [Num.map, Num.at]
    | [x] => simp [Num.map, Num.at]
    | x :: y :: xs =>
      simp only [Num.map, Num.at, List.map_cons]
      rw [← List.map_cons (f := fun x => x * k), ← List.map_cons (f := fun x => x * k)]
      simp only [List.getD_eq_getElem?_getD, List.getElem?_map]
      cases (x :: y :: xs)[i]? <;> simp

/-- `a / k` (also outside the range). -/
theorem at_divr (a : Num) (k : ℚ) (i : Nat) : (a.map (· / k)).at i = a.at i / k := by
  simp only [div_eq_mul_inv]; exact at_mulr a _ i

@[simp] theorem idxOf_some (x : Var) (l : List Nat) : idxOf x (some l) = l := rfl

@[simp] theorem idxAt_single (k i : Nat) : idxAt [k] i = k := rfl

theorem idxAt_range' {s m k : Nat} (h : k < m) : idxAt (List.range' s m) k = s + k := by
  have : (List.range' s m)[k]? = some (s + k) := by simp [h]
  by_cases h1 : m = 1
  · subst h1
    have : k = 0 := by omega
    subst this
    rfl
  · have := idxAt_many (l := List.range' s m) (i := k) (by simpa using h1) (by simpa using h)
    simp [h] at this
    omega

theorem list_sum_range (n : Nat) (f : Nat → ℚ) : ((List.range n).map f).sum = ∑ i ∈ Finset.range n, f i := by
  induction n with
  | zero => simp
  | succ n ih => simp [List.range_succ, Finset.sum_range_succ, ih]

/-- A sum over the whole variable. -/
theorem lhs_sum {σ : Assignment} {x : Var} {f : Num} {i n : Nat} (hx : x.length = n) (hf : f.len = 1 ∨ f.len = n) :
    (sSum x f).lhs σ i = ∑ k ∈ Finset.range n, f.at k * σ x.label k := by
  simp only [sSum, Op.lhs, idxOf_none, List.length_range, hx]
  have : (if f.len = 1 then n else f.len) = n := by split <;> omega
  rw [this, list_sum_range]
  apply Finset.sum_congr rfl
  intro k hk
  rw [idxAt_range (by simpa using hk)]

/-! ## Variables -/

theorem checked_ok {x y : Var} (h : x.checked = .ok y) : y = x := by
  unfold Var.checked at h
  cases hf : x.fixedValue with
  | none => simp [hf] at h; exact h.symm
  | some fv =>
    simp only [hf] at h
    obtain ⟨a, _, h⟩ := bind_ok.1 h
    obtain ⟨b, _, h⟩ := bind_ok.1 h
    split at h
    · simp at h; exact h.symm
    · simp at h

/-- What `create_variable` returns. -/
theorem mkVar_ok {p label n b fv lb ub prev x} (h : mkVar p label n b fv lb ub prev = .ok x) :
    x = { label := p ++ "_" ++ label, length := n, isBinary := b, fixedValue := fv, lb, ub,
          previous := if n > 1 then prev else none } ∧ x.checked = .ok x := by
  unfold mkVar at h
  split at h
  · rename_i hn
    unfold Var.checkedTS at h
    split at h
    · have := checked_ok h
      rw [← this] at h
      exact ⟨by rw [this]; simp [hn], h⟩
    · rename_i h'; exact absurd hn h'
  · rename_i hn
    have := checked_ok h
    rw [← this] at h
    exact ⟨by rw [this]; simp [hn], h⟩

/-- Creating a variable without a fixed value never fails. -/
theorem mkVar_free (p label n b lb ub prev) :
    mkVar p label n b none lb ub prev =
      .ok { label := p ++ "_" ++ label, length := n, isBinary := b, fixedValue := none, lb, ub,
            previous := if n > 1 then prev else none } := by
  unfold mkVar
  split <;> rename_i hn
  · simp [Var.checkedTS, Var.checked, hn]
  · simp [Var.checked]

/-- The number of entries of a bound fits the length of the variable. -/
def FitsBound (n : Nat) (b : Option Num) : Prop := ∀ a, b = some a → a.isScalar = true ∨ a.len = n

theorem asVectorOpt_fits {b : Option Num} {n : Nat} (h : FitsBound n b) :
    ∃ ys, asVectorOpt b n = .ok ys ∧ ys.length = n ∧ ∀ i < n, ys[i]? = some (b.map (·.at i)) := by
  cases b with
  | none => exact ⟨_, rfl, by simp, by intro i hi; simp [hi]⟩
  | some a =>
    obtain ⟨xs, hx⟩ := asVector_good (h a rfl)
    have : asVectorOpt (some a) n = .ok (xs.map some) := by simp [asVectorOpt, hx, Except.map]
    obtain ⟨h1, h2, h3⟩ := asVectorOpt_some this
    exact ⟨_, this, h2, fun i hi => by simpa using h3 i hi⟩

/-- A free variable is satisfied when all entries are inside the bounds (and binary). -/
theorem var_ok_of {σ : Assignment} {x : Var} (hf : x.fixedValue = none) (hlb : FitsBound x.length x.lb)
    (hub : FitsBound x.length x.ub)
    (h : ∀ i < x.length, (∀ lb, x.lb = some lb → lb.at i ≤ σ x.label i) ∧
      (∀ ub, x.ub = some ub → σ x.label i ≤ ub.at i) ∧
      (x.isBinary = true → σ x.label i = 0 ∨ σ x.label i = 1)) : x.Ok σ := by
  obtain ⟨lbv, h1, h1l, h1'⟩ := asVectorOpt_fits hlb
  obtain ⟨ubv, h2, h2l, h2'⟩ := asVectorOpt_fits hub
  obtain ⟨fvv, h3, h3l, h3'⟩ := asVectorOpt_fits (n := x.length) (b := x.fixedValue) (by simp [hf, FitsBound])
  have key : x.translate = .ok ((List.range x.length).map fun i =>
      Dom.bounds (x.lb.map (·.at i)) (x.ub.map (·.at i))) := by
    unfold Var.translate
    rw [h1, h2, h3]
    simp only [bind, Except.bind]
    rw [mapM_ok]
    apply forall₂_map_self
    intro i hi
    have hi : i < x.length := by simpa using hi
    have e3 : pyGet fvv i = .ok none := by rw [pyGet_ok, h3' i hi, hf]; rfl
    have e1 : pyGet lbv i = .ok (x.lb.map (·.at i)) := by rw [pyGet_ok, h1' i hi]
    have e2 : pyGet ubv i = .ok (x.ub.map (·.at i)) := by rw [pyGet_ok, h2' i hi]
    rw [e3, e1, e2]
    rfl
  refine ⟨_, key, ?_⟩
  intro i d hd
  rw [List.getElem?_map] at hd
  by_cases hi : i < x.length
  · simp [hi] at hd
    subst hd
    obtain ⟨a, b, c⟩ := h i hi
    refine ⟨⟨?_, ?_⟩, fun hb _ => c hb⟩
    · intro l hl
      cases hx : x.lb with
      | none => simp [hx] at hl
      | some lb => simp [hx] at hl; rw [← hl]; exact a lb hx
    · intro l hl
      cases hx : x.ub with
      | none => simp [hx] at hl
      | some ub => simp [hx] at hl; rw [← hl]; exact b ub hx
  · simp [hi] at hd

theorem var_fits {σ : Assignment} {x : Var} (h : x.Ok σ) : FitsBound x.length x.lb ∧ FitsBound x.length x.ub := by
  obtain ⟨ds, ht, _⟩ := h
  obtain ⟨lbv, h1, ht⟩ := bind_ok.1 ht
  obtain ⟨ubv, h2, ht⟩ := bind_ok.1 ht
  constructor
  · intro a ha
    rw [ha] at h1
    exact (asVectorOpt_some h1).1
  · intro a ha
    rw [ha] at h2
    exact (asVectorOpt_some h2).1

end Flix
