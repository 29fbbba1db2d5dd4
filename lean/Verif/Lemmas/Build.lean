import Verif.Lemmas.Core

/-! # Executing and translating constraint requests -/

namespace Flix

theorem except_pure {ε α} (a : α) : (pure a : Except ε α) = .ok a := rfl

theorem mkSummand_ok {x f idx a sm} (h : mkSummand x f idx a = .ok sm) :
    sm.var = x ∧ sm.indices = idxOf x idx ∧ sm.asSum = a ∧
    ∃ len, checkLength f (idxOf x idx) = .ok len ∧ asVector f len = .ok sm.factorVec ∧
      sm.length = if a then 1 else len := by
  obtain ⟨len, h1, h⟩ := bind_ok.1 h
  obtain ⟨fv, h2, h⟩ := bind_ok.1 h
  simp only [except_pure, Except.ok.injEq] at h
  subst h
  exact ⟨rfl, rfl, rfl, len, h1, h2, rfl⟩

theorem checkLength_ok {f : Num} {l : List Nat} {len} (h : checkLength f l = .ok len) :
    len = (if f.len = 1 then l.length else f.len) ∧ (f.len = 1 ∨ l.length = 1 ∨ f.len = l.length) := by
  unfold checkLength at h
  split at h
  · simp at h; split <;> omega
  · split at h
    · simp at h; split <;> omega
    · split at h
      · simp at h; split <;> omega
      · simp at h

theorem updateLength_ok {c n L} (h : updateLength c n = .ok L) :
    L = (if c = 1 then n else c) ∧ (c = 1 ∨ n = 1 ∨ n = c) := by
  unfold updateLength at h
  split at h
  · simp at h; subst h; simp [*]
  · split at h
    · simp at h; subst h; simp [*]
    · simp at h

/-- The call adds a summand. -/
def Op.isSummand : Op → Bool
  | .summand .. => true
  | .const _ => false

/-- State of a constraint object after the calls `ops`. -/
structure Built (label : String) (kind : Kind) (ops : List Op) (c : Constraint) : Prop where
  hlabel : c.label = label
  hkind : c.kind = kind
  hlen : c.length = opsLen ops
  hsums : List.Forall₂
    (fun op sm => ∃ x f i a, op = Op.summand x f i a ∧ mkSummand x f i a = .ok sm)
    (ops.filter Op.isSummand) c.summands
  hslen : ∀ sm ∈ c.summands, sm.length = 1 ∨ sm.length = c.length
  hclen : c.constant.len = 1 ∨ c.constant.len = c.length
  hconst : ∀ i, c.constant.len = 1 ∨ i < c.constant.len → c.constant.at i = opsRhs i ops

theorem opsLen_append (ops : List Op) (op : Op) :
    opsLen (ops ++ [op]) = if opsLen ops = 1 then op.len else opsLen ops := by
  unfold opsLen; rw [List.foldl_append]; rfl

theorem opsRhs_append (i : Nat) (ops : List Op) (op : Op) :
    opsRhs i (ops ++ [op]) = opsRhs i ops + op.rhs i := by
  simp [opsRhs]

theorem built_nil (label kind) : Built label kind [] { label := label, kind := kind } where
  hlabel := rfl
  hkind := rfl
  hlen := rfl
  hsums := .nil
  hslen := by simp
  hclen := .inl rfl
  hconst := by intro i _; simp [opsRhs, Num.at]

theorem forall₂_snoc {α β} {R : α → β → Prop} {l r a b} (h : List.Forall₂ R l r) (hab : R a b) :
    List.Forall₂ R (l ++ [a]) (r ++ [b]) := by
  induction h with
  | nil => exact .cons hab .nil
  | cons h _ ih => exact .cons h ih

theorem mkSummand_len {x f i a sm} (h : mkSummand x f i a = .ok sm) :
    sm.length = (Op.summand x f i a).len := by
  obtain ⟨_, _, _, len, h1, _, h3⟩ := mkSummand_ok h
  cases a
  · simp at h3
    rw [h3, (checkLength_ok h1).1]; rfl
  · simpa [Op.len] using h3

theorem built_step {label kind ops op c c'} (hb : Built label kind ops c) (h : op.run c = .ok c') :
    Built label kind (ops ++ [op]) c' := by
  cases op with
  | summand x f i a =>
    simp only [Op.run, Constraint.addSummand] at h
    obtain ⟨sm, h1, h⟩ := bind_ok.1 h
    obtain ⟨L, h2, h⟩ := bind_ok.1 h
    simp only [except_pure, Except.ok.injEq] at h
    subst h
    obtain ⟨hL, hL'⟩ := updateLength_ok h2
    have hsl := mkSummand_len h1
    refine ⟨hb.hlabel, hb.hkind, ?_, ?_, ?_, ?_, ?_⟩
    · rw [opsLen_append, ← hb.hlen]
      simp only [hL, hsl]
    · rw [List.filter_append]
      exact forall₂_snoc hb.hsums ⟨x, f, i, a, rfl, h1⟩
    · intro s hs
      simp only [List.mem_append, List.mem_singleton] at hs
      rcases hs with hs | rfl
      · have := hb.hslen s hs
        simp only [hL]
        split <;> omega
      · simp only [hL]
        split <;> omega
    · have := hb.hclen
      simp only [hL]
      split <;> omega
    · intro i hi
      rw [opsRhs_append]
      simp [Op.rhs, hb.hconst i hi]
  | const k =>
    simp only [Op.run, Constraint.addConstant, Constraint.addConstantFull] at h
    cases h1 : Num.add c.constant k with
    | error e => simp [h1] at h
    | ok v =>
      simp only [h1] at h
      cases h2 : updateLength c.length v.len with
      | error e => simp [h2] at h
      | ok L =>
        simp only [h2, Except.ok.injEq] at h
        subst h
        obtain ⟨hL, hL'⟩ := updateLength_ok h2
        obtain ⟨hv, hv'⟩ := zip_len h1
        have hc := hb.hclen
        refine ⟨hb.hlabel, hb.hkind, ?_, ?_, ?_, ?_, ?_⟩
        · rw [opsLen_append, ← hb.hlen]
          simp only [hL, Op.len]
          split
          · rename_i h1
            rw [hv, if_pos (by omega)]
          · rfl
        · rw [List.filter_append]
          simpa [Op.isSummand] using hb.hsums
        · intro s hs
          have := hb.hslen s hs
          simp only [hL]
          split <;> omega
        · simp only [hL]
          split <;> omega
        · intro i hi
          rw [opsRhs_append, zip_at h1 hi, hb.hconst i]
          · rfl
          · by_cases hc1 : c.constant.len = 1
            · exact .inl hc1
            · right; rw [hv, if_neg hc1] at hi; omega

theorem built_ops {label kind} : ∀ {ops pre c c'}, Built label kind pre c → runOps c ops = .ok c' →
    Built label kind (pre ++ ops) c'
  | [], pre, c, c', hb, h => by
    simp only [runOps, Except.ok.injEq] at h
    subst h; simpa using hb
  | op :: ops, pre, c, c', hb, h => by
    obtain ⟨c1, h1, h⟩ := bind_ok.1 h
    have := built_ops (built_step hb h1) h
    simpa using this

theorem build_built {r : ConReq} {c} (h : r.build = .ok c) : Built r.label r.kind r.ops c := by
  simpa using built_ops (built_nil r.label r.kind) h

/-! ## Value of one summand -/

theorem idxAt_one {l : List Nat} {i} (h : l.length = 1) : l[0]? = some (idxAt l i) := by
  obtain ⟨k, rfl⟩ := List.length_eq_one_iff.1 h
  rfl

theorem idxAt_many {l : List Nat} {i} (h : l.length ≠ 1) (hi : i < l.length) : l[i]? = some (idxAt l i) := by
  match l with
  | [] => simp at hi
  | [a] => simp at h
  | a :: b :: l =>
    simp only [idxAt, List.getD_eq_getElem?_getD]
    rw [List.getElem?_eq_getElem hi]
    rfl

theorem at_one {f : Num} (i j : Nat) (h : f.len = 1) : f.at i = f.at j := by
  match f with
  | .s x => rfl
  | .v [] => simp [Num.len] at h
  | .v [x] => rfl
  | .v (x :: y :: xs) => simp [Num.len] at h

theorem pyTerm_ok {x i f t} (h : pyTerm x i f = .ok t) : t = (f, x.label, i) ∧ i < x.length := by
  unfold pyTerm at h
  split at h
  · simp at h; exact ⟨h.symm, by assumption⟩
  · simp at h

/-- The three non-sum branches of `_summand_math_expression` all give the intended term. -/
theorem expr_plain {x f idx sm i ts} (σ : Assignment) (hm : mkSummand x f idx false = .ok sm)
    (h : sm.expr i = .ok ts) :
    termsVal σ ts = (Op.summand x f idx false).lhs σ i := by
  obtain ⟨hv, hidx, hs, len, h1, h2, h3⟩ := mkSummand_ok hm
  simp at h3
  obtain ⟨hl, hl'⟩ := checkLength_ok h1
  obtain ⟨hfl, hfv⟩ := asVector_ok h2
  simp only [Summand.expr, hs, Bool.false_eq_true, if_false] at h
  simp only [Op.lhs]
  rw [hidx] at h
  have key : ∀ k j, idxAt (idxOf x idx) i = k → f.at i = j →
      (do let t ← pyTerm sm.var k j; pure [t]) = (.ok ts : Except Err _) →
      termsVal σ ts = f.at i * σ x.label (idxAt (idxOf x idx) i) := by
    rintro k j rfl rfl h
    obtain ⟨t, ht, h⟩ := bind_ok.1 h
    simp only [except_pure, Except.ok.injEq] at h
    subst h
    obtain ⟨rfl, _⟩ := pyTerm_ok ht
    simp [termsVal, hv]
  split at h
  · rename_i hlen
    rw [h3] at hlen
    obtain ⟨k, hk, h⟩ := bind_ok.1 h
    obtain ⟨j, hj, h⟩ := bind_ok.1 h
    rw [pyGet_ok] at hk hj
    have hil : (idxOf x idx).length = 1 := by split at hl <;> omega
    have hf1 : f.len = 1 := by split at hl <;> omega
    rw [idxAt_one (i := i) hil] at hk
    rw [hfv 0 (by omega)] at hj
    simp at hk hj
    exact key k j hk (by rw [at_one i 0 hf1]; exact hj) h
  · rename_i hlen
    rw [h3] at hlen
    split at h
    · rename_i hil
      obtain ⟨k, hk, h⟩ := bind_ok.1 h
      obtain ⟨j, hj, h⟩ := bind_ok.1 h
      rw [pyGet_ok] at hk hj
      rw [idxAt_one (i := i) hil] at hk
      have hi : i < len := by
        by_contra hc
        rw [List.getElem?_eq_none (by omega)] at hj
        simp at hj
      rw [hfv i hi] at hj
      simp at hk hj
      exact key k j hk hj h
    · rename_i hil
      obtain ⟨k, hk, h⟩ := bind_ok.1 h
      obtain ⟨j, hj, h⟩ := bind_ok.1 h
      rw [pyGet_ok] at hk hj
      have hi : i < (idxOf x idx).length := by
        by_contra hc
        rw [List.getElem?_eq_none (by omega)] at hk
        simp at hk
      rw [idxAt_many hil hi] at hk
      rw [hfv i (by split at hl <;> omega)] at hj
      simp at hk hj
      exact key k j hk hj h

theorem idxOf_none (x : Var) : idxOf x none = List.range x.length := rfl

theorem idxAt_range {n k : Nat} (h : k < n) : idxAt (List.range n) k = k := by
  by_cases h1 : n = 1
  · subst h1
    have : k = 0 := by omega
    subst this; rfl
  · have := idxAt_many (l := List.range n) (i := k) (by simpa using h1) (by simpa using h)
    rw [List.getElem?_range h] at this
    simp at this; exact this.symm

theorem termsVal_forall₂ {σ : Assignment} {l : List Nat} {ts} {g : Nat → ℚ × String × Nat}
    (h : List.Forall₂ (fun j t => t = g j) l ts) :
    termsVal σ ts = (l.map fun j => (g j).1 * σ (g j).2.1 (g j).2.2).sum := by
  induction h with
  | nil => rfl
  | cons h _ ih => subst h; simp only [termsVal, List.map_cons, List.sum_cons] at *; rw [ih]

theorem forall₂_imp' {α β} {R S : α → β → Prop} {l r} (h : List.Forall₂ R l r)
    (hi : ∀ a ∈ l, ∀ b, R a b → S a b) : List.Forall₂ S l r := by
  induction h with
  | nil => exact .nil
  | cons h _ ih =>
    exact .cons (hi _ (by simp) _ h) (ih fun a ha b => hi a (by simp [ha]) b)

/-- A sum over the whole variable gives the intended sum. -/
theorem expr_sum_whole {x f sm i ts} (σ : Assignment) (hm : mkSummand x f none true = .ok sm)
    (hf : f.len = 1 ∨ f.len = x.length) (h : sm.expr i = .ok ts) :
    termsVal σ ts = (Op.summand x f none true).lhs σ i := by
  obtain ⟨hv, hidx, hs, len, h1, h2, h3⟩ := mkSummand_ok hm
  obtain ⟨hl, hl'⟩ := checkLength_ok h1
  obtain ⟨hfl, hfv⟩ := asVector_ok h2
  simp only [Summand.expr, hs, if_true] at h
  rw [hidx, idxOf_none, mapM_ok] at h
  rw [idxOf_none] at hl
  simp only [List.length_range] at hl
  have hlx : len = x.length := by split at hl <;> omega
  have : List.Forall₂ (fun j t => t = (f.at j, x.label, j)) (List.range x.length) ts := by
    refine forall₂_imp' h ?_
    intro j hj t ht
    simp only [List.mem_range] at hj
    obtain ⟨k, hk, ht⟩ := bind_ok.1 ht
    obtain ⟨g, hg, ht⟩ := bind_ok.1 ht
    rw [pyGet_ok] at hk hg
    rw [List.getElem?_range hj] at hk
    rw [hfv j (by omega)] at hg
    simp at hk hg
    subst hk hg
    rw [hv] at ht
    exact (pyTerm_ok ht).1
  rw [termsVal_forall₂ this]
  simp only [Op.lhs, idxOf_none, List.length_range]
  have hmax : (if f.len = 1 then x.length else f.len) = x.length := by split <;> omega
  rw [hmax]
  congr 1
  apply List.map_congr_left
  intro k hk
  simp at hk
  rw [idxAt_range hk]

/-! ## Rows of a translated constraint -/

theorem expr_ok {op : Op} {x f idx a sm i ts} (σ : Assignment) (ho : op = .summand x f idx a)
    (hw : op.WholeSum) (hm : mkSummand x f idx a = .ok sm) (h : sm.expr i = .ok ts) :
    termsVal σ ts = op.lhs σ i := by
  subst ho
  cases a with
  | false => exact expr_plain σ hm h
  | true =>
    obtain ⟨rfl, hf⟩ := hw
    exact expr_sum_whole σ hm hf h

theorem termsVal_append (σ : Assignment) (a b) : termsVal σ (a ++ b) = termsVal σ a + termsVal σ b := by
  simp [termsVal]

theorem opsLhs_filter (σ : Assignment) (i : Nat) (ops : List Op) :
    opsLhs σ i (ops.filter Op.isSummand) =
      opsLhs σ i ops := by
  induction ops with
  | nil => rfl
  | cons op ops ih =>
    cases op with
    | summand x f idx a =>
      simp only [opsLhs] at ih
      simp [opsLhs, ih, show Op.isSummand (.summand x f idx a) = true from rfl]
    | const k =>
      simp only [opsLhs] at ih
      simp [opsLhs, ih, Op.lhs, show Op.isSummand (.const k) = false from rfl]

theorem terms_sum {σ : Assignment} {i : Nat} : ∀ {ops : List Op} {sms : List Summand} {tss},
    List.Forall₂ (fun op sm => ∃ x f i a, op = Op.summand x f i a ∧ mkSummand x f i a = .ok sm) ops sms →
    (∀ op ∈ ops, op.WholeSum) →
    List.Forall₂ (fun sm ts => Summand.expr sm i = .ok ts) sms tss →
    termsVal σ tss.flatten = opsLhs σ i ops
  | [], _, _, .nil, _, .nil => rfl
  | op :: ops, _, _, .cons h1 h2, hw, .cons h3 h4 => by
    obtain ⟨x, f, idx, a, ho, hm⟩ := h1
    have e1 := expr_ok σ ho (hw op (by simp)) hm h3
    have e2 := terms_sum (σ := σ) h2 (fun o ho => hw o (by simp [ho])) h4
    rw [List.flatten_cons, termsVal_append, e1, e2]
    simp [opsLhs]

theorem forall₂_get {α β} {R : α → β → Prop} : ∀ {l : List α} {r : List β}, List.Forall₂ R l r →
    l.length = r.length ∧ ∀ (i : Nat) a, l[i]? = some a → ∃ b, r[i]? = some b ∧ R a b
  | _, _, .nil => ⟨rfl, by simp⟩
  | _, _, .cons h t => by
    obtain ⟨h1, h2⟩ := forall₂_get t
    refine ⟨by simp [h1], ?_⟩
    intro i a ha
    cases i with
    | zero => simp at ha; subst ha; exact ⟨_, rfl, h⟩
    | succ i => simp at ha; simpa using h2 i a ha

/-- Every row of a translated constraint says what the calls say. -/
theorem rows_spec {r : ConReq} {c rows} (hw : ∀ op ∈ r.ops, op.WholeSum) (hb : r.build = .ok c)
    (ht : c.translate = .ok rows) :
    rows.length = opsLen r.ops ∧
    ∀ i < opsLen r.ops, ∃ row, rows[i]? = some row ∧ row.kind = r.kind ∧ row.rhs = opsRhs i r.ops ∧
      ∀ σ, termsVal σ row.terms = opsLhs σ i r.ops := by
  have hB := build_built hb
  obtain ⟨cv, h1, h2⟩ := bind_ok.1 ht
  rw [mapM_ok] at h2
  obtain ⟨hlen, hget⟩ := forall₂_get h2
  obtain ⟨hcl, hcv⟩ := asVector_ok h1
  rw [List.length_range] at hlen
  refine ⟨by rw [← hlen, hB.hlen], ?_⟩
  intro i hi
  rw [← hB.hlen] at hi
  obtain ⟨row, hr, hrow⟩ := hget i i (List.getElem?_range hi)
  obtain ⟨tss, h3, h4⟩ := bind_ok.1 hrow
  obtain ⟨rhs, h5, h6⟩ := bind_ok.1 h4
  simp only [except_pure, Except.ok.injEq] at h6
  subst h6
  rw [pyGet_ok, hcv i hi] at h5
  simp at h5
  rw [mapM_ok] at h3
  refine ⟨_, hr, hB.hkind, ?_, ?_⟩
  · rw [← h5]
    apply hB.hconst
    have := hB.hclen
    omega
  · intro σ
    simp only
    rw [terms_sum hB.hsums _ h3, opsLhs_filter]
    intro op ho
    exact hw op (List.mem_filter.1 ho).1

theorem rows_sem {r : ConReq} {c rows} (σ : Assignment) (hw : ∀ op ∈ r.ops, op.WholeSum)
    (hb : r.build = .ok c) (ht : c.translate = .ok rows) :
    (∀ row ∈ rows, row.Holds σ) ↔ r.Sem σ := by
  obtain ⟨hl, hr⟩ := rows_spec hw hb ht
  constructor
  · intro h i hi
    obtain ⟨row, h1, h2, h3, h4⟩ := hr i hi
    have := h row (List.mem_of_getElem? h1)
    unfold Row.Holds at this
    rwa [h2, h3, h4] at this
  · intro h row hrow
    obtain ⟨i, hi, hri⟩ := List.mem_iff_getElem.1 hrow
    obtain ⟨row', h1, h2, h3, h4⟩ := hr i (by omega)
    rw [List.getElem?_eq_getElem hi, hri] at h1
    simp at h1
    subst h1
    have := h i (by omega)
    unfold Row.Holds
    rwa [h2, h3, h4]

theorem sem_of_ok {σ : Assignment} {r : ConReq} (hw : ∀ op ∈ r.ops, op.WholeSum) (h : r.Ok σ) :
    r.Sem σ := by
  obtain ⟨c, rows, hb, ht, h⟩ := h
  exact (rows_sem σ hw hb ht).1 h

/-! ## Well-shaped requests can be executed and translated -/

theorem checkLength_good {f : Num} {l : List Nat} (h : f.len = 1 ∨ l.length = 1 ∨ f.len = l.length) :
    checkLength f l = .ok (if f.len = 1 then l.length else f.len) := by
  unfold checkLength
  split
  · split
    · rfl
    · simp; omega
  · split
    · rfl
    · split
      · rfl
      · omega

theorem scalar_len {f : Num} (h : f.isScalar = true) : f.len = 1 := by
  cases f <;> simp [Num.isScalar, Num.len] at *

theorem forall₂_map_self {α β} {R : α → β → Prop} {g : α → β} :
    ∀ {l : List α}, (∀ a ∈ l, R a (g a)) → List.Forall₂ R l (l.map g)
  | [], _ => .nil
  | a :: l, h => .cons (h a (by simp)) (forall₂_map_self fun b hb => h b (by simp [hb]))

/-- Summands that can be translated for every row below `n`. -/
def GoodSummand (n : Nat) (sm : Summand) : Prop :=
  (sm.length = 1 ∨ sm.length = n) ∧ ∀ i, (sm.length = 1 ∨ i < n) → ∃ ts, sm.expr i = .ok ts

theorem mkSummand_good {n x f idx a} (h : (Op.summand x f idx a).Good n) :
    ∃ sm, mkSummand x f idx a = .ok sm ∧ GoodSummand n sm := by
  cases a with
  | false =>
    obtain ⟨hk, hf, hl⟩ := h
    have hcl : checkLength f (idxOf x idx) = .ok (if f.len = 1 then (idxOf x idx).length else f.len) := by
      apply checkLength_good
      rcases hf with hf | hf | hf
      · exact .inl (scalar_len hf)
      · exact .inr (.inr hf)
      · exact .inr (.inl hf.1)
    obtain ⟨fv, hfv⟩ : ∃ fv, asVector f (if f.len = 1 then (idxOf x idx).length else f.len) = .ok fv := by
      apply asVector_good
      rcases hf with hf | hf | hf
      · exact .inl hf
      · right; split <;> omega
      · right; split <;> omega
    obtain ⟨hfl, hfv'⟩ := asVector_ok hfv
    refine ⟨⟨x, fv, idxOf x idx, if f.len = 1 then (idxOf x idx).length else f.len, false⟩, ?_, ?_, ?_⟩
    · unfold mkSummand
      change (do let len ← checkLength f (idxOf x idx); _) = _
      rw [hcl]
      simp only [bind, Except.bind]
      rw [hfv]
      rfl
    · simp only
      rcases hf with hf | hf | hf
      · have := scalar_len hf
        split <;> omega
      · split <;> omega
      · split <;> omega
    · intro i hi
      have hget : ∀ {k}, k < (idxOf x idx).length → ∃ j, pyGet (idxOf x idx) k = .ok j ∧ j < x.length := by
        intro k hk'
        refine ⟨(idxOf x idx)[k], ?_, hk _ (List.getElem_mem hk')⟩
        rw [pyGet_ok, List.getElem?_eq_getElem hk']
      have hfg : ∀ {k}, k < fv.length → ∃ j, pyGet fv k = .ok j := by
        intro k hk'
        refine ⟨fv[k], ?_⟩
        rw [pyGet_ok, List.getElem?_eq_getElem hk']
      have fin : ∀ {k l}, k < (idxOf x idx).length → l < fv.length →
          ∃ ts, (do
            let i ← pyGet (idxOf x idx) k
            let f ← pyGet fv l
            let t ← pyTerm x i f
            pure [t] : Except Err (List (ℚ × String × Nat))) = .ok ts := by
        intro k l h1 h2
        obtain ⟨j, hj, hjx⟩ := hget h1
        obtain ⟨g, hg⟩ := hfg h2
        refine ⟨[(g, x.label, j)], ?_⟩
        rw [hj, hg]
        simp only [bind, Except.bind]
        unfold pyTerm
        rw [if_pos hjx]; rfl
      have hfs := fun h => scalar_len (f := f) h
      have hL : (if f.len = 1 then (idxOf x idx).length else f.len) = 1 ∨
        (if f.len = 1 then (idxOf x idx).length else f.len) = n := by
        rcases hf with hf | hf | hf
        · have := hfs hf
          split <;> omega
        · split <;> omega
        · split <;> omega
      have hL2 : (if f.len = 1 then (idxOf x idx).length else f.len) = 1 → (idxOf x idx).length = 1 := by
        split <;> omega
      have hL3 : (if f.len = 1 then (idxOf x idx).length else f.len) = (idxOf x idx).length ∨
          (idxOf x idx).length = 1 := by
        rcases hf with hf | hf | hf
        · have := hfs hf
          split <;> omega
        · split <;> omega
        · split <;> omega
      simp only at hi
      simp only [Summand.expr, Bool.false_eq_true, if_false]
      generalize (if f.len = 1 then (idxOf x idx).length else f.len) = L at *
      by_cases h1 : L = 1
      · rw [if_pos h1]
        apply fin <;> omega
      · rw [if_neg h1]
        by_cases h2 : (idxOf x idx).length = 1
        · rw [if_pos h2]
          apply fin <;> omega
        · rw [if_neg h2]
          apply fin <;> omega
  | true =>
    obtain ⟨rfl, hf⟩ := h
    have hcl : checkLength f (idxOf x none) = .ok x.length := by
      rw [checkLength_good]
      · simp only [idxOf_none, List.length_range]
        congr 1
        rcases hf with hf | hf
        · rw [if_pos (scalar_len hf)]
        · split <;> omega
      · simp only [idxOf_none, List.length_range]
        rcases hf with hf | hf
        · exact .inl (scalar_len hf)
        · exact .inr (.inr hf)
    obtain ⟨fv, hfv⟩ := asVector_good (a := f) (n := x.length) hf
    obtain ⟨hfl, hfv'⟩ := asVector_ok hfv
    refine ⟨⟨x, fv, idxOf x none, 1, true⟩, ?_, .inl rfl, ?_⟩
    · unfold mkSummand
      change (do let len ← checkLength f (idxOf x none); _) = _
      rw [hcl]
      simp only [bind, Except.bind]
      rw [hfv]
      rfl
    · intro i _
      simp only [Summand.expr, if_true, idxOf_none]
      refine ⟨(List.range x.length).map fun j => (f.at j, x.label, j), ?_⟩
      rw [mapM_ok]
      refine forall₂_map_self ?_
      intro j hj
      simp at hj
      have e1 : pyGet (List.range x.length) j = .ok j := by rw [pyGet_ok, List.getElem?_range hj]
      have e2 : pyGet fv j = .ok (f.at j) := by rw [pyGet_ok, hfv' j hj]
      rw [e1, e2]
      simp only [bind, Except.bind]
      unfold pyTerm
      rw [if_pos hj]

/-- Invariant of well-shaped call histories. -/
structure GoodC (n : Nat) (c : Constraint) : Prop where
  hlen : c.length = 1 ∨ c.length = n
  hsm : ∀ sm ∈ c.summands, GoodSummand n sm
  hlens : ∀ sm ∈ c.summands, sm.length = 1 ∨ sm.length = c.length
  hconst : c.constant.isScalar = true ∨ (c.constant.len = n ∧ c.length = n)

theorem zip_scalar {f} {a b c : Num} (h : Num.zip f a b = .ok c) (ha : a.isScalar = true)
    (hb : b.isScalar = true) : c.isScalar = true := by
  cases a <;> cases b <;> simp [Num.isScalar] at ha hb
  simp [Num.zip] at h
  subst h; rfl

theorem updateLength_good {c n} (h : c = 1 ∨ n = 1 ∨ n = c) :
    updateLength c n = .ok (if c = 1 then n else c) := by
  unfold updateLength
  split
  · rfl
  · rw [if_pos (by omega)]

theorem good_step {n c op} (hc : GoodC n c) (ho : Op.Good n op) : ∃ c', op.run c = .ok c' ∧ GoodC n c' := by
  obtain ⟨h1, h2, h2', h3⟩ := hc
  cases op with
  | summand x f idx a =>
    obtain ⟨sm, hm, hg⟩ := mkSummand_good ho
    have hg1 := hg.1
    have hu := updateLength_good (c := c.length) (n := sm.length) (by omega)
    refine ⟨{ c with summands := c.summands ++ [sm],
                     length := if c.length = 1 then sm.length else c.length }, ?_, ?_, ?_, ?_, ?_⟩
    · simp only [Op.run, Constraint.addSummand, hm, bind, Except.bind, hu]
      rfl
    · simp only; split <;> omega
    · intro s hs
      simp at hs
      rcases hs with hs | rfl
      · exact h2 s hs
      · exact hg
    · intro s hs
      simp at hs
      simp only
      rcases hs with hs | rfl
      · have := h2' s hs
        split <;> omega
      · split <;> omega
    · simp only
      rcases h3 with h3 | h3
      · exact .inl h3
      · right; refine ⟨h3.1, ?_⟩; split <;> omega
  | const k =>
    have hk : k.isScalar = true ∨ k.len = n := ho
    have hks := fun h => scalar_len (f := k) h
    have hcs := fun h => scalar_len (f := c.constant) h
    obtain ⟨v, hv⟩ : ∃ v, Num.zip (· + ·) c.constant k = .ok v := by
      apply zip_good
      rcases hk with hk | hk
      · have := hks hk; omega
      · rcases h3 with h3 | h3
        · have := hcs h3; omega
        · omega
    obtain ⟨hvl, hvl'⟩ := zip_len hv
    have hvn : v.isScalar = true ∨ v.len = n := by
      rcases hk with hk | hk
      · rcases h3 with h3 | h3
        · exact .inl (zip_scalar hv h3 hk)
        · have := hks hk
          right; rw [hvl]; split <;> omega
      · rcases h3 with h3 | h3
        · have := hcs h3
          right; rw [hvl]; split <;> omega
        · right; rw [hvl]; split <;> omega
    have hvs := fun h => scalar_len (f := v) h
    have hu := updateLength_good (c := c.length) (n := v.len) (by
      rcases hvn with hvn | hvn
      · have := hvs hvn; omega
      · omega)
    refine ⟨{ c with constant := v, length := if c.length = 1 then v.len else c.length }, ?_, ?_, ?_, ?_, ?_⟩
    · simp only [Op.run, Constraint.addConstant, Constraint.addConstantFull, Num.add, hv, hu]
    · simp only
      rcases hvn with hvn | hvn
      · have := hvs hvn
        split <;> omega
      · split <;> omega
    · exact h2
    · intro s hs
      have := h2' s hs
      simp only
      rcases hvn with hvn | hvn
      · have := hvs hvn
        split <;> omega
      · split <;> omega
    · simp only
      rcases hvn with hvn | hvn
      · exact .inl hvn
      · right; refine ⟨hvn, ?_⟩; split <;> omega

theorem good_ops {n} : ∀ {ops c}, GoodC n c → (∀ op ∈ ops, Op.Good n op) → ∃ c', runOps c ops = .ok c' ∧ GoodC n c'
  | [], c, hc, _ => ⟨c, rfl, hc⟩
  | op :: ops, c, hc, h => by
    obtain ⟨c1, h1, hc1⟩ := good_step hc (h op (by simp))
    obtain ⟨c2, h2, hc2⟩ := good_ops (ops := ops) hc1 fun o ho => h o (by simp [ho])
    exact ⟨c2, by simp only [runOps, h1, bind, Except.bind, h2], hc2⟩

theorem mapM_good {ε α β} {f : α → Except ε β} : ∀ {l : List α}, (∀ a ∈ l, ∃ b, f a = .ok b) → ∃ r, l.mapM f = .ok r
  | [], _ => ⟨[], rfl⟩
  | a :: l, h => by
    obtain ⟨b, hb⟩ := h a (by simp)
    obtain ⟨r, hr⟩ := mapM_good (f := f) (l := l) fun x hx => h x (by simp [hx])
    exact ⟨b :: r, by rw [mapM_ok] at *; exact .cons hb hr⟩

theorem good_translate {n c} (hc : GoodC n c) : ∃ rows, c.translate = .ok rows := by
  obtain ⟨cv, hcv⟩ := asVector_good (a := c.constant) (n := c.length) (by
    rcases hc.hconst with h | h
    · exact .inl h
    · right; omega)
  obtain ⟨hl, _⟩ := asVector_ok hcv
  unfold Constraint.translate
  rw [hcv]
  simp only [bind, Except.bind]
  apply mapM_good
  intro i hi
  simp at hi
  obtain ⟨tss, ht⟩ := mapM_good (f := fun sm : Summand => sm.expr i) (l := c.summands) (by
    intro sm hsm
    apply (hc.hsm sm hsm).2
    have := hc.hlens sm hsm
    have := hc.hlen
    omega)
  have hg : pyGet cv i = .ok (cv[i]'(by omega)) := by rw [pyGet_ok, List.getElem?_eq_getElem]
  rw [ht, hg]
  exact ⟨_, rfl⟩

/-- A request all of whose calls are well-shaped. -/
def ConReq.Good (n : Nat) (r : ConReq) : Prop := ∀ op ∈ r.ops, Op.Good n op

theorem good_build {n} {r : ConReq} (h : r.Good n) : ∃ c rows, r.build = .ok c ∧ c.translate = .ok rows := by
  obtain ⟨c, h1, h2⟩ := good_ops (n := n) (c := { label := r.label, kind := r.kind }) (ops := r.ops)
    ⟨.inl rfl, by simp, by simp, .inl rfl⟩ h
  obtain ⟨rows, h3⟩ := good_translate h2
  exact ⟨c, rows, h1, h3⟩

theorem good_whole {n op} (h : Op.Good n op) : op.WholeSum := by
  cases op with
  | const k => trivial
  | summand x f idx a =>
    cases a with
    | false => trivial
    | true =>
      refine ⟨h.1, ?_⟩
      rcases h.2 with h | h
      · exact .inl (scalar_len h)
      · exact .inr h

/-- For well-shaped requests "can be built, translated, and all rows hold" is the intended meaning. -/
theorem ok_iff_sem {n} {σ : Assignment} {r : ConReq} (h : r.Good n) : r.Ok σ ↔ r.Sem σ := by
  constructor
  · exact sem_of_ok fun op ho => good_whole (h op ho)
  · intro hs
    obtain ⟨c, rows, hb, ht⟩ := good_build h
    exact ⟨c, rows, hb, ht, (rows_sem σ (fun op ho => good_whole (h op ho)) hb ht).2 hs⟩

end Flix
