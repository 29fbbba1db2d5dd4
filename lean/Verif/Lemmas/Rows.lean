import Verif.Lemmas.Sem
import Mathlib.Tactic.Linarith

/-! # Constraints as relations between rows, in both directions -/

namespace Flix

/-- A scalar or a series with one entry per time step. -/
def Num.Fits (n : Nat) (a : Num) : Prop := a.isScalar = true ∨ a.len = n

@[simp] theorem fits_s (n : Nat) (x : ℚ) : (Num.s x).Fits n := Or.inl rfl

@[simp] theorem fits_map {n : Nat} {a : Num} {f : ℚ → ℚ} : (a.map f).Fits n ↔ a.Fits n := by
  simp [Num.Fits]

theorem Num.Fits.len {n : Nat} {a : Num} (h : a.Fits n) : a.len = 1 ∨ a.len = n := by
  rcases h with h | h
  · exact Or.inl (scalar_len h)
  · exact Or.inr h

theorem at_map {n : Nat} {f : ℚ → ℚ} {a : Num} {i : Nat} (h : a.Fits n) (hi : i < n) : (a.map f).at i = f (a.at i) := by
  apply num_at_map
  rcases h with h | h
  · exact Or.inl (scalar_len h)
  · right; omega

theorem good_len {n : Nat} {op : Op} (h : op.Good n) : op.len = 1 ∨ op.len = n := by
  cases op with
  | const k =>
    rcases h with h | h
    · exact Or.inl (scalar_len h)
    · exact Or.inr h
  | summand x f idx a =>
    cases a with
    | true => exact Or.inl rfl
    | false =>
      obtain ⟨_, h2, h3⟩ := h
      simp only [Op.len]
      split
      · exact h3
      · rename_i h1
        rcases h2 with h | h | h
        · exact absurd (scalar_len h) h1
        · rw [h]; exact h3
        · exact Or.inr h.2

/-- An accepted constraint with well-shaped parts holds iff every row does. -/
theorem ok_iff_rows {n : Nat} {σ : Assignment} {r : ConReq} (hg : ∀ op ∈ r.ops, op.Good n)
    (hex : ∃ op ∈ r.ops, op.len = n) :
    r.Ok σ ↔ ∀ t < n, r.kind.rel (opsLhs σ t r.ops) (opsRhs t r.ops) := by
  rw [ok_iff_sem (n := n) hg]
  unfold ConReq.Sem
  rw [opsLen_eq (fun op ho => good_len (hg op ho)) hex]

/-! ## Shapes of the usual calls -/

theorem good_sAll {n : Nat} {x : Var} {f : Num} (hx : x.length = n) (hf : f.Fits n) : (sAll x f).Good n := by
  refine ⟨?_, ?_, ?_⟩
  · simp [idxOf_none]
  · rcases hf with h | h
    · exact Or.inl h
    · right; left; simp [idxOf_none, hx, h]
  · right; simp [idxOf_none, hx]

/-- A variable of length 1 used in every row. -/
theorem good_sAll1 {n : Nat} {x : Var} {f : Num} (hx : x.length = 1) (hf : f.Fits n) : (sAll x f).Good n := by
  refine ⟨?_, ?_, ?_⟩
  · simp [idxOf_none]
  · rcases hf with h | h
    · exact Or.inl h
    · right; right; simp [idxOf_none, hx, h]
  · left; simp [idxOf_none, hx]

theorem good_sIdx {n : Nat} {x : Var} {f : Num} {idx : List Nat} (hk : ∀ k ∈ idx, k < x.length)
    (hf : f.Fits n) (hi : idx.length = n) : (sIdx x f idx).Good n := by
  refine ⟨hk, ?_, Or.inr hi⟩
  rcases hf with h | h
  · exact Or.inl h
  · right; left; simp [h, hi]

theorem good_sIdx1 {n : Nat} {x : Var} {f : Num} {k : Nat} (hk : k < x.length)
    (hf : f.Fits n) : (sIdx x f [k]).Good n := by
  refine ⟨by simpa using hk, ?_, Or.inl rfl⟩
  rcases hf with h | h
  · exact Or.inl h
  · right; right; exact ⟨rfl, h⟩

theorem good_sSum {n : Nat} {x : Var} {f : Num} (hf : f.Fits x.length) : (sSum x f).Good n :=
  ⟨rfl, hf⟩

theorem good_const {n : Nat} {f : Num} (hf : f.Fits n) : (Op.const f).Good n := hf

theorem len_sAll {x : Var} {f : Num} : (sAll x f).len = if f.len = 1 then x.length else f.len := by
  simp [sAll, Op.len, idxOf_none]

theorem len_sAll' {n : Nat} {x : Var} {f : Num} (hx : x.length = n) (hf : f.Fits n) : (sAll x f).len = n := by
  rw [len_sAll]; rcases hf.len with h | h <;> split <;> omega

theorem len_sIdx {x : Var} {f : Num} {idx : List Nat} : (sIdx x f idx).len = if f.len = 1 then idx.length else f.len := by
  simp [sIdx, Op.len]

theorem len_sIdx' {n : Nat} {x : Var} {f : Num} {idx : List Nat} (hx : idx.length = n) (hf : f.Fits n) :
    (sIdx x f idx).len = n := by
  rw [len_sIdx]; rcases hf.len with h | h <;> split <;> omega

/-! ## Values of the usual calls -/

theorem lhs_sAll {σ : Assignment} {x : Var} {f : Num} {t : Nat} (ht : t < x.length) :
    (sAll x f).lhs σ t = f.at t * σ x.label t := by
  simp only [sAll, Op.lhs, idxOf_none]
  rw [idxAt_range ht]

theorem lhs_sAll1 {σ : Assignment} {x : Var} {f : Num} {t : Nat} (hx : x.length = 1) :
    (sAll x f).lhs σ t = f.at t * σ x.label 0 := by
  simp only [sAll, Op.lhs, idxOf_none, hx]
  rfl

theorem lhs_sIdx {σ : Assignment} {x : Var} {f : Num} {idx : List Nat} {t : Nat} :
    (sIdx x f idx).lhs σ t = f.at t * σ x.label (idxAt idx t) := rfl

@[simp] theorem lhs_const {σ : Assignment} {c : Num} {t : Nat} : (Op.const c).lhs σ t = 0 := rfl

@[simp] theorem rhs_const {c : Num} {t : Nat} : (Op.const c).rhs t = c.at t := rfl

@[simp] theorem rhs_sAll {x : Var} {f : Num} {t : Nat} : (sAll x f).rhs t = 0 := rfl

@[simp] theorem rhs_sIdx {x : Var} {f : Num} {idx} {t : Nat} : (sIdx x f idx).rhs t = 0 := rfl

@[simp] theorem rhs_sSum {x : Var} {f : Num} {t : Nat} : (sSum x f).rhs t = 0 := rfl

@[simp] theorem opsLhs_nil {σ : Assignment} {t : Nat} : opsLhs σ t [] = 0 := rfl

@[simp] theorem opsLhs_cons {σ : Assignment} {t : Nat} {op : Op} {ops : List Op} :
    opsLhs σ t (op :: ops) = op.lhs σ t + opsLhs σ t ops := by simp [opsLhs]

@[simp] theorem opsRhs_nil {t : Nat} : opsRhs t [] = 0 := rfl

@[simp] theorem opsRhs_cons {t : Nat} {op : Op} {ops : List Op} :
    opsRhs t (op :: ops) = op.rhs t + opsRhs t ops := by simp [opsRhs]

@[simp] theorem mkEq_ops (p l ops) : (mkEq p l ops).ops = ops := rfl
@[simp] theorem mkIneq_ops (p l ops) : (mkIneq p l ops).ops = ops := rfl
@[simp] theorem mkEq_kind (p l ops) : (mkEq p l ops).kind = .eq := rfl
@[simp] theorem mkIneq_kind (p l ops) : (mkIneq p l ops).kind = .ineq := rfl
@[simp] theorem rel_eq (a b : ℚ) : Kind.eq.rel a b ↔ a = b := Iff.rfl
@[simp] theorem rel_ineq (a b : ℚ) : Kind.ineq.rel a b ↔ a ≤ b := Iff.rfl

/-- All rows of an equation. -/
theorem ok_eq {n : Nat} {σ : Assignment} {p l : String} {ops : List Op} (hg : ∀ op ∈ ops, op.Good n)
    (hex : ∃ op ∈ ops, op.len = n) :
    (mkEq p l ops).Ok σ ↔ ∀ t < n, opsLhs σ t ops = opsRhs t ops := ok_iff_rows hg hex

theorem ok_ineq {n : Nat} {σ : Assignment} {p l : String} {ops : List Op} (hg : ∀ op ∈ ops, op.Good n)
    (hex : ∃ op ∈ ops, op.len = n) :
    (mkIneq p l ops).Ok σ ↔ ∀ t < n, opsLhs σ t ops ≤ opsRhs t ops := ok_iff_rows hg hex

/-- Scalar constraints. -/
theorem ok_eq1 {σ : Assignment} {p l : String} {ops : List Op} (hg : ∀ op ∈ ops, op.Good 1) (hne : ops ≠ []) :
    (mkEq p l ops).Ok σ ↔ opsLhs σ 0 ops = opsRhs 0 ops := by
  rw [ok_eq hg]
  · exact ⟨fun h => h 0 (by omega), fun h t ht => by have : t = 0 := by omega
                                                     subst this; exact h⟩
  · obtain ⟨op, ho⟩ := List.exists_mem_of_ne_nil _ hne
    exact ⟨op, ho, by rcases good_len (hg op ho) with h | h <;> exact h⟩

theorem ok_ineq1 {σ : Assignment} {p l : String} {ops : List Op} (hg : ∀ op ∈ ops, op.Good 1) (hne : ops ≠ []) :
    (mkIneq p l ops).Ok σ ↔ opsLhs σ 0 ops ≤ opsRhs 0 ops := by
  rw [ok_ineq hg]
  · exact ⟨fun h => h 0 (by omega), fun h t ht => by have : t = 0 := by omega
                                                     subst this; exact h⟩
  · obtain ⟨op, ho⟩ := List.exists_mem_of_ne_nil _ hne
    exact ⟨op, ho, by rcases good_len (hg op ho) with h | h <;> exact h⟩

/-! ## Variables in both directions -/

/-- A free variable is satisfied iff every entry is inside the bounds (and binary). -/
theorem var_iff {σ : Assignment} {x : Var} (hf : x.fixedValue = none) (hlb : FitsBound x.length x.lb)
    (hub : FitsBound x.length x.ub) :
    x.Ok σ ↔ ∀ i < x.length, (∀ lb, x.lb = some lb → lb.at i ≤ σ x.label i) ∧
      (∀ ub, x.ub = some ub → σ x.label i ≤ ub.at i) ∧ (x.isBinary = true → σ x.label i = 0 ∨ σ x.label i = 1) := by
  constructor
  · intro h i hi
    have hc : x.checked = .ok x := by simp [Var.checked, hf]
    obtain ⟨h1, h2, h3, h4⟩ := C04_bounds hc h i hi
    exact ⟨h1, h2, fun hb => h4 hb hf⟩
  · exact var_ok_of hf hlb hub

theorem fitsBound_none (n : Nat) : FitsBound n none := by simp [FitsBound]

theorem fitsBound_some {n : Nat} {a : Num} (h : a.Fits n) : FitsBound n (some a) := by
  intro b hb; cases hb; exact h

theorem fitsBound_map {n : Nat} (a : Option ℚ) : FitsBound n (a.map .s) := by
  intro b hb
  cases a with
  | none => simp at hb
  | some x => simp at hb; subst hb; exact Or.inl rfl

/-- Change one variable. -/
def Assignment.set (σ : Assignment) (label : String) (f : Nat → ℚ) : Assignment :=
  fun l i => if l = label then f i else σ l i

@[simp] theorem set_same (σ : Assignment) (l : String) (f : Nat → ℚ) (i : Nat) : σ.set l f l i = f i := by
  simp [Assignment.set]

theorem set_other (σ : Assignment) {l l' : String} (f : Nat → ℚ) (i : Nat) (h : l ≠ l') : σ.set l' f l i = σ l i := by
  simp [Assignment.set, h]

end Flix
