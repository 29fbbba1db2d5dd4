import Verif.Lemmas.Build
import Mathlib.Tactic.Linarith
import Mathlib.Tactic.NormNum
import Mathlib.Algebra.Order.Floor.Ring
import Mathlib.Data.Rat.Floor

/-! # C01–C05: variables, constraints, translation, results -/

namespace Flix

/-! ## Small models used in the examples -/

def exX : Var := { label := "x", length := 3 }
def exY : Var := { label := "y", length := 1 }
def exReq : ConReq :=
  { label := "e", kind := .eq,
    ops := [.summand exX (.v [1, 2, 3]) none false, .summand exY (.s 5) none false, .const (.s 7),
            .summand exX (.s 1) none true, .summand exX (.s 4) (some [1]) false, .const (.v [1, 0, 1])] }

/-! ## C01 -/

/-- C01: a constraint built by any sequence of successful calls is handed over as exactly `opsLen` rows, of the right
kind, and row `i` states, for every assignment, that the sum of `factor[i] * variable[index i]` equals (is at most) the
sum of the constants at `i`. -/
theorem C01_rows {r : ConReq} {c rows} (hw : ∀ op ∈ r.ops, op.WholeSum) (hb : r.build = .ok c)
    (ht : c.translate = .ok rows) :
    rows.length = opsLen r.ops ∧
    ∀ (σ : Assignment) (i : Nat) (row : Row), rows[i]? = some row →
      (row.Holds σ ↔ match r.kind with
        | .eq => (r.ops.map (Op.lhs σ i)).sum = (r.ops.map (Op.rhs i)).sum
        | .ineq => (r.ops.map (Op.lhs σ i)).sum ≤ (r.ops.map (Op.rhs i)).sum) := by
  obtain ⟨h1, h2⟩ := rows_spec hw hb ht
  refine ⟨h1, ?_⟩
  intro σ i row hrow
  have hi : i < rows.length := by
    by_contra hc
    rw [List.getElem?_eq_none (by omega)] at hrow
    simp at hrow
  obtain ⟨row', h3, h4, h5, h6⟩ := h2 i (by omega)
  rw [hrow] at h3
  simp at h3
  subst h3
  unfold Row.Holds
  rw [h4, h5, h6]
  cases r.kind <;> rfl

/-- C01: every well-shaped request is accepted and translated (so `C01_rows` is not about failing builds), and the
whole vector constraint then means the conjunction of its rows. -/
theorem C01_accepted {n} {r : ConReq} (h : ∀ op ∈ r.ops, op.Good n) (σ : Assignment) :
    r.Ok σ ↔ ∀ i < opsLen r.ops, match r.kind with
        | .eq => (r.ops.map (Op.lhs σ i)).sum = (r.ops.map (Op.rhs i)).sum
        | .ineq => (r.ops.map (Op.lhs σ i)).sum ≤ (r.ops.map (Op.rhs i)).sum := by
  rw [ok_iff_sem (n := n) h]
  unfold ConReq.Sem
  cases r.kind <;> rfl

example : ∀ op ∈ exReq.ops, op.Good 3 := by
  simp [exReq, Op.Good, exX, exY, idxOf, Num.isScalar, Num.len]

example : ∃ c rows, exReq.build = .ok c ∧ c.translate = .ok rows ∧ rows.length = 3 :=
  ⟨_, _, rfl, rfl, rfl⟩

/-! ## C02 -/

/-- The value a summed summand should have: the sum over the *requested* indices with their factors. -/
def sumMeaning (σ : Assignment) (x : Var) (f : Num) (idx : List Nat) : ℚ :=
  ((List.range idx.length).map fun k => f.at k * σ x.label (idx.getD k 0)).sum

/-- What the code produces for any list of indices it translates: the loop variable is an index *value* that is used as
a position, so the sum runs over `f[j] * x[idx[j]]` for `j ∈ idx`. -/
theorem C02_exact {x f idx sm i ts} (hm : mkSummand x f (some idx) true = .ok sm) (h : sm.expr i = .ok ts)
    (σ : Assignment) :
    termsVal σ ts = (idx.map fun j => f.at j * σ x.label (idx.getD j 0)).sum := by
  obtain ⟨hv, hidx, hs, len, h1, h2, h3⟩ := mkSummand_ok hm
  obtain ⟨hfl, hfv⟩ := asVector_ok h2
  simp only [Summand.expr, hs, if_true] at h
  rw [hidx, mapM_ok] at h
  simp only [idxOf, Option.getD_some] at h
  have : List.Forall₂ (fun j t => t = (f.at j, x.label, idx.getD j 0)) idx ts := by
    refine forall₂_imp' h ?_
    intro j hj t ht
    obtain ⟨k, hk, ht⟩ := bind_ok.1 ht
    obtain ⟨g, hg, ht⟩ := bind_ok.1 ht
    rw [pyGet_ok] at hk hg
    have hjl : j < len := by
      by_contra hc
      rw [List.getElem?_eq_none (by omega)] at hg
      simp at hg
    rw [hfv j hjl] at hg
    simp at hg
    rw [hv] at ht
    rw [(pyTerm_ok ht).1, ← hg]
    simp [List.getD_eq_getElem?_getD, hk]
  rw [termsVal_forall₂ this]

/-- C02 (partial): for whole variables, and for index lists that are a permutation of `0, ..., m-1`, `as_sum=True`
contributes the sum over exactly the requested indices.  Missing: all other index lists, see `C02_wrong_sum`,
`C02_refused`. -/
theorem C02_sum_partial {x f idx sm i ts} (hp : idx.Perm (List.range idx.length))
    (hm : mkSummand x f (some idx) true = .ok sm) (h : sm.expr i = .ok ts) (σ : Assignment) :
    termsVal σ ts = sumMeaning σ x f idx := by
  rw [C02_exact hm h σ]
  unfold sumMeaning
  exact (hp.map fun j => f.at j * σ x.label (idx.getD j 0)).sum_eq

theorem C02_whole_partial {x f sm i ts} (hf : f.len = 1 ∨ f.len = x.length)
    (hm : mkSummand x f none true = .ok sm) (h : sm.expr i = .ok ts) (σ : Assignment) :
    termsVal σ ts = ((List.range x.length).map fun k => f.at k * σ x.label k).sum := by
  rw [expr_sum_whole σ hm hf h]
  simp only [Op.lhs, idxOf_none, List.length_range]
  have hmax : (if f.len = 1 then x.length else f.len) = x.length := by split <;> omega
  rw [hmax]
  congr 1
  apply List.map_congr_left
  intro k hk
  simp at hk
  rw [idxAt_range hk]

example : ∃ sm ts, mkSummand exX (.v [5, 6, 7]) (some [2, 0, 1]) true = .ok sm ∧ sm.expr 0 = .ok ts ∧
    [2, 0, 1].Perm (List.range 3) ∧ exX.length = 3 :=
  ⟨_, _, rfl, rfl, by decide, rfl⟩

/-- C02 is false of the code: an index list that is accepted and summed wrongly (twice index 0 and once index 1
is requested, but index 0 is summed three times). -/
theorem C02_wrong_sum : ∃ (x : Var) (f : Num) (idx : List Nat) (sm : Summand) (ts : _) (σ : Assignment),
    mkSummand x f (some idx) true = .ok sm ∧ sm.expr 0 = .ok ts ∧ termsVal σ ts ≠ sumMeaning σ x f idx := by
  refine ⟨exX, .s 1, [0, 0, 1], _, _, fun _ i => i, rfl, rfl, ?_⟩
  simp [termsVal, sumMeaning, exX, List.range_succ, Num.at]

/-- C02 is false of the code: a harmless request (indices 1 and 2 of a variable with three entries) is accepted by
`add_summand` and then makes the translation fail. -/
theorem C02_refused : ∃ (x : Var) (f : Num) (idx : List Nat) (sm : Summand),
    (∀ i ∈ idx, i < x.length) ∧
    mkSummand x f (some idx) true = .ok sm ∧ sm.expr 0 = .error .index :=
  ⟨exX, .s 1, [1, 2], _, by decide, rfl, rfl⟩

/-! ## C03 -/

/-- The vector lengths that occur among the stored parts. -/
def Constraint.partLengths (c : Constraint) : List Nat := c.summands.map (·.length)

theorem runHistory_inv : ∀ (ops : List Op) (c : Constraint),
    (∀ sm ∈ c.summands, sm.length = 1 ∨ sm.length = c.length) →
    ∀ sm ∈ (runHistory c ops).2.summands, sm.length = 1 ∨ sm.length = (runHistory c ops).2.length
  | [], c, h => h
  | op :: ops, c, h => by
    apply runHistory_inv ops
    cases op with
    | summand x f i a =>
      simp only [Op.runFull, Constraint.addSummandFull]
      cases hc : c.addSummand x f i a with
      | error e => exact h
      | ok c' =>
        simp only [Constraint.addSummand] at hc
        obtain ⟨sm, h1, hc⟩ := bind_ok.1 hc
        obtain ⟨L, h2, hc⟩ := bind_ok.1 hc
        simp only [except_pure, Except.ok.injEq] at hc
        subst hc
        obtain ⟨hL, hL'⟩ := updateLength_ok h2
        intro s hs
        simp only [List.mem_append, List.mem_singleton] at hs
        rcases hs with hs | rfl
        · have := h s hs
          simp only [hL]; split <;> omega
        · simp only [hL]; split <;> omega
    | const k =>
      simp only [Op.runFull, Constraint.addConstantFull]
      cases h1 : Num.add c.constant k with
      | error e => exact h
      | ok v =>
        simp only
        cases h2 : updateLength c.length v.len with
        | error e => exact h
        | ok L =>
          obtain ⟨hL, hL'⟩ := updateLength_ok h2
          intro s hs
          have := h s hs
          simp only [hL]; split <;> omega

/-- C03, first part: after any history of calls on a new constraint (failing calls included) the length is 1 or the
common length of all vector parts of the left side. -/
theorem C03_common_length (label kind) (ops : List Op) :
    ∀ sm ∈ (runHistory { label := label, kind := kind } ops).2.summands,
      sm.length = 1 ∨ sm.length = (runHistory { label := label, kind := kind } ops).2.length :=
  runHistory_inv ops _ (by simp)

/-- C03, replay: after any history of `add_summand` calls, failing ones included, the constraint is the one that the successful calls alone would have built. -/
theorem C03_replay : ∀ (ops : List Op) (c : Constraint), (∀ op ∈ ops, ∀ k, op ≠ .const k) →
    (runHistory c ops).1.foldlM (fun (d : Constraint) (op : Op) => op.run d) c = .ok (runHistory c ops).2
  | [], _, _ => rfl
  | .const k :: ops, c, h => absurd rfl (h (.const k) List.mem_cons_self k)
  | .summand x f i a :: ops, c, h => by
    have ih := fun d => C03_replay ops d fun op hop => h op (List.mem_cons_of_mem _ hop)
    cases hc : c.addSummand x f i a with
    | error e =>
      have e1 : runHistory c (.summand x f i a :: ops) = runHistory c ops := by simp [runHistory, Op.runFull, Constraint.addSummandFull, hc]
      rw [e1]
      exact ih c
    | ok d =>
      have e1 : runHistory c (.summand x f i a :: ops) = (.summand x f i a :: (runHistory d ops).1, (runHistory d ops).2) := by
        simp [runHistory, Op.runFull, Constraint.addSummandFull, hc]
      rw [e1, List.foldlM_cons, show Op.run c (.summand x f i a) = .ok d from hc]
      exact ih d

/-- C03, second part: in every state a call that raises leaves the left side and the length unchanged. -/
theorem C03_failed_call (c : Constraint) (op : Op) (e : Err) (h : (op.runFull c).2 = some e) :
    (op.runFull c).1.summands = c.summands ∧ (op.runFull c).1.length = c.length := by
  cases op with
  | summand x f i a =>
    simp only [Op.runFull, Constraint.addSummandFull] at *
    split <;> simp_all
  | const k =>
    simp only [Op.runFull, Constraint.addConstantFull] at *
    split
    · simp
    · rename_i v hv
      rw [hv] at h
      simp only at h
      split <;> simp_all

/-- C03, third part: a call is refused exactly when its vector length fits neither 1 nor the length of the
constraint. -/
theorem C03_refused_iff (c : Constraint) (x : Var) (f : Num) (idx : Option (List Nat)) (a : Bool) (sm : Summand)
    (hm : mkSummand x f idx a = .ok sm) :
    (c.addSummandFull x f idx a).2 = none ↔ (c.length = 1 ∨ sm.length = 1 ∨ sm.length = c.length) := by
  unfold Constraint.addSummandFull Constraint.addSummand
  rw [hm]
  simp only [bind, Except.bind]
  by_cases hf : c.length = 1 ∨ sm.length = 1 ∨ sm.length = c.length
  · simp [hf, updateLength_good hf, pure, Except.pure]
  · have : updateLength c.length sm.length = .error .value := by
      unfold updateLength
      rw [if_neg (by omega), if_neg (by omega)]
    simp [hf, this]

/-- Calls that mention no one-element array as a constant, whose indices exist and whose sums are over whole
variables. -/
def Op.Clean : Op → Prop
  | .summand x _ idx false => ∀ k ∈ idxOf x idx, k < x.length
  | .summand x f idx true => idx = none ∧ (f.len = 1 ∨ f.len = x.length)
  | .const k => k.isScalar = true ∨ k.len ≠ 1

theorem clean_const_step {c c' : Constraint} {op : Op} (ho : op.Clean) (h : op.run c = .ok c')
    (hc : c.constant.isScalar = true ∨ c.constant.len ≠ 1) :
    c'.constant.isScalar = true ∨ c'.constant.len ≠ 1 := by
  cases op with
  | summand x f i a =>
    simp only [Op.run, Constraint.addSummand] at h
    obtain ⟨sm, h1, h⟩ := bind_ok.1 h
    obtain ⟨L, h2, h⟩ := bind_ok.1 h
    simp only [except_pure, Except.ok.injEq] at h
    subst h
    exact hc
  | const k =>
    simp only [Op.run, Constraint.addConstant, Constraint.addConstantFull] at h
    cases h1 : Num.add c.constant k with
    | error e => simp [h1] at h
    | ok v =>
      simp only [h1] at h
      cases h2 : updateLength c.length v.len with
      | error e => simp [h2] at h
      | ok L =>
        simp only [h2, Except.ok.injEq] at h
        subst h
        simp only
        have ho' : k.isScalar = true ∨ k.len ≠ 1 := ho
        obtain ⟨hl, hl'⟩ := zip_len h1
        rcases hc with hc | hc
        · have := scalar_len hc
          rcases ho' with hk | hk
          · exact .inl (zip_scalar h1 hc hk)
          · right; rw [hl, if_pos this]; exact hk
        · right; rw [hl, if_neg hc]; exact hc

theorem clean_const : ∀ {ops : List Op} {c c' : Constraint}, (∀ op ∈ ops, op.Clean) → runOps c ops = .ok c' →
    (c.constant.isScalar = true ∨ c.constant.len ≠ 1) →
    (c'.constant.isScalar = true ∨ c'.constant.len ≠ 1)
  | [], c, c', _, h, hc => by
    simp only [runOps, Except.ok.injEq] at h
    subst h; exact hc
  | op :: ops, c, c', ho, h, hc => by
    obtain ⟨c1, h1, h⟩ := bind_ok.1 h
    exact clean_const (fun o h => ho o (by simp [h])) h (clean_const_step (ho op (by simp)) h1 hc)

theorem clean_expr {op : Op} {x f idx a sm i n} (ho : op = .summand x f idx a) (hc : op.Clean)
    (hm : mkSummand x f idx a = .ok sm) (hl : sm.length = 1 ∨ sm.length = n) (hi : i < n) :
    ∃ ts, sm.expr i = .ok ts := by
  subst ho
  obtain ⟨hv, hidx, hs, len, h1, h2, h3⟩ := mkSummand_ok hm
  obtain ⟨hl1, hl2⟩ := checkLength_ok h1
  have hsc : f.isScalar = true ∨ f.len = len := by
    cases f with
    | s y => exact .inl rfl
    | v xs =>
      right
      simp only [asVector] at h2
      split at h2
      · simp at h2
      · simp only [Num.len]; omega
  cases a with
  | false =>
    simp at h3
    have hgood : (Op.summand x f idx false).Good len := by
      refine ⟨hc, ?_, ?_⟩
      · rcases hsc with h | h
        · exact .inl h
        · by_cases hh : (idxOf x idx).length = 1
          · exact .inr (.inr ⟨hh, h⟩)
          · split at hl1 <;> omega
      · split at hl1 <;> omega
    obtain ⟨sm', hm', hg⟩ := mkSummand_good hgood
    rw [hm] at hm'
    simp at hm'
    subst hm'
    apply hg.2
    omega
  | true =>
    have hgood : (Op.summand x f idx true).Good n := by
      refine ⟨hc.1, ?_⟩
      rcases hsc with h | h
      · exact .inl h
      · rw [hc.1] at hl1
        rw [idxOf_none, List.length_range] at hl1
        right
        have := hc.2
        split at hl1 <;> omega
    obtain ⟨sm', hm', hg⟩ := mkSummand_good hgood
    rw [hm] at hm'
    simp at hm'
    subst hm'
    exact hg.2 i (by simp at h3; omega)

/-- C03, fourth part (partial): a constraint assembled without exception from such calls is translated without exception.
Missing: one-element arrays as constants, see `C03_untranslatable`; partial sums, see `C02_refused`. -/
theorem C03_translatable_partial {r : ConReq} {c} (hcl : ∀ op ∈ r.ops, op.Clean) (hb : r.build = .ok c) :
    ∃ rows, c.translate = .ok rows ∧ rows.length = c.length := by
  have hB := build_built hb
  have hconst := clean_const hcl hb (.inl rfl)
  obtain ⟨cv, hcv⟩ := asVector_good (a := c.constant) (n := c.length) (by
    rcases hconst with h | h
    · exact .inl h
    · have := hB.hclen; right; omega)
  obtain ⟨hl, _⟩ := asVector_ok hcv
  suffices h : ∃ rows, c.translate = .ok rows by
    obtain ⟨rows, h⟩ := h
    refine ⟨rows, h, ?_⟩
    obtain ⟨_, _, h'⟩ := bind_ok.1 h
    rw [mapM_ok] at h'
    have := (forall₂_get h').1
    simpa using this.symm
  unfold Constraint.translate
  rw [hcv]
  simp only [bind, Except.bind]
  apply mapM_good
  intro i hi
  simp at hi
  obtain ⟨tss, ht⟩ := mapM_good (f := fun sm : Summand => sm.expr i) (l := c.summands) (by
    intro sm hsm
    obtain ⟨k, hk, hk'⟩ := List.mem_iff_getElem.1 hsm
    obtain ⟨hlen, _⟩ := forall₂_get hB.hsums
    have hk2 : k < (r.ops.filter Op.isSummand).length := by
      omega
    obtain ⟨sm', h1, x, f, idx, a, ho, hm⟩ :=
      (forall₂_get hB.hsums).2 k _ (List.getElem?_eq_getElem hk2)
    rw [List.getElem?_eq_getElem hk, hk'] at h1
    simp at h1
    subst h1
    have hmem : (r.ops.filter Op.isSummand)[k] ∈ r.ops :=
      (List.mem_filter.1 (List.getElem_mem hk2)).1
    exact clean_expr ho (hcl _ hmem) hm (hB.hslen _ hsm) hi)
  have hg : pyGet cv i = .ok (cv[i]'(by omega)) := by rw [pyGet_ok, List.getElem?_eq_getElem]
  rw [ht, hg]
  exact ⟨_, rfl⟩

example : (∀ op ∈ exReq.ops, op.Clean) ∧ ∃ c, exReq.build = .ok c ∧ c.length = 3 :=
  ⟨by simp [exReq, Op.Clean, exX, exY, idxOf, Num.isScalar, Num.len], _, rfl, rfl⟩

/-- C03 is false of the code in general: a constant given as a one-element array is accepted in a constraint of three
rows, and the translation then raises. -/
theorem C03_untranslatable : ∃ (r : ConReq) (c : Constraint), r.build = .ok c ∧ c.translate = .error .exception :=
  ⟨{ label := "e", kind := .eq, ops := [.summand exX (.s 1) none false, .const (.v [5])] }, _, rfl, rfl⟩

/-- C03, the constant: an `add_summand` call that raises leaves the constraint as it was, and so does an `add_constant` call whose
sum raises; an `add_constant` call that raises because of the length has already replaced the constant. -/
theorem C03_failed_constant (c : Constraint) (op : Op) (e : Err) (h : (op.runFull c).2 = some e) :
    (op.runFull c).1 = c ∨
    ∃ v k, op = .const v ∧ Num.add c.constant v = .ok k ∧ k.len ≠ 1 ∧ k.len ≠ c.length ∧ (op.runFull c).1 = { c with constant := k } := by
  cases op with
  | summand x f i a =>
    simp only [Op.runFull, Constraint.addSummandFull] at *
    split <;> simp_all
  | const v =>
    simp only [Op.runFull, Constraint.addConstantFull] at *
    cases hk : Num.add c.constant v with
    | error e' => exact .inl rfl
    | ok k =>
      right
      simp only [hk] at h
      unfold updateLength at h
      refine ⟨v, k, rfl, hk, ?_⟩
      by_cases h1 : c.length = 1
      · rw [if_pos h1] at h; simp at h
      · rw [if_neg h1] at h
        by_cases h2 : k.len = 1 ∨ k.len = c.length
        · rw [if_pos h2] at h; simp at h
        · rw [not_or] at h2
          refine ⟨h2.1, h2.2, ?_⟩
          have : updateLength c.length k.len = .error .value := by
            unfold updateLength
            rw [if_neg h1, if_neg (by rw [not_or]; exact h2)]
          simp only [this]

def exC3 : Constraint :=
  { label := "e", kind := .eq, summands := [⟨exX, [1, 1, 1], [0, 1, 2], 3, false⟩], length := 3 }

/-- C03 is false of the code for caught exceptions: a refused `add_constant` call leaves a constraint of three rows whose translation
raises, although the constraint could be translated before the call. -/
theorem C03_failed_constant_wrong : ∃ (c : Constraint) (k : Num) (e : Err),
    (∃ rows, c.translate = .ok rows) ∧ (c.addConstantFull k).2 = some e ∧ (c.addConstantFull k).1.translate = .error .exception := by
  refine ⟨exC3, .v [1, 2], .value, ⟨_, rfl⟩, rfl, rfl⟩

/-! ## C04 -/

theorem asVectorOpt_some {a : Num} {n ys} (h : asVectorOpt (some a) n = .ok ys) :
    (a.isScalar = true ∨ a.len = n) ∧ ys.length = n ∧ ∀ i < n, ys[i]? = some (some (a.at i)) := by
  simp only [asVectorOpt] at h
  cases ha : asVector a n with
  | error e => simp [ha, Except.map] at h
  | ok xs =>
    simp only [ha, Except.map, Except.ok.injEq] at h
    subst h
    obtain ⟨h1, h2⟩ := asVector_ok ha
    refine ⟨?_, by simpa using h1, ?_⟩
    · cases a with
      | s y => exact .inl rfl
      | v xs =>
        right
        simp only [asVector] at ha
        split at ha
        · simp at ha
        · simp only [Num.len]; omega
    · intro i hi
      rw [List.getElem?_map, h2 i hi]; rfl

theorem asVectorOpt_none {n ys} (h : asVectorOpt none n = .ok ys) :
    ys.length = n ∧ ∀ i < n, ys[i]? = some none := by
  simp only [asVectorOpt, Except.ok.injEq] at h
  subst h
  refine ⟨by simp, ?_⟩
  intro i hi
  simp [hi]

theorem npAll_true {r : ℚ → ℚ → Bool} {a b : Num} {i n : Nat} (h : npAll r a b = .ok true)
    (ha : a.isScalar = true ∨ a.len = n) (hb : b.isScalar = true ∨ b.len = n) (hi : i < n) :
    r (a.at i) (b.at i) = true := by
  unfold npAll at h
  have hz : ∀ c, Num.zip (fun x y => if r x y then 1 else 0) a b = .ok c → c.len = 1 ∨ i < c.len := by
    intro c hc
    obtain ⟨h1, h2⟩ := zip_len hc
    have := fun h => scalar_len (f := a) h
    have := fun h => scalar_len (f := b) h
    rcases ha with ha | ha <;> rcases hb with hb | hb <;> simp_all <;> split <;> omega
  cases hc : Num.zip (fun x y => if r x y then 1 else 0) a b with
  | error e => simp [hc] at h
  | ok c =>
    rw [hc] at h
    have hat := zip_at hc (hz c hc)
    have h1 : c.at i = 1 := by
      cases c with
      | s y => simpa [Num.at] using h
      | v ys =>
        simp at h
        have hz' := hz _ hc
        simp only [Num.len] at hz'
        match ys, h, hz' with
        | [], _, hz' => simp at hz'
        | [y], h, _ => simpa [Num.at] using h
        | y :: z :: ys, h, hz' =>
          rw [num_at_v (by simpa using hz')]
          exact h _ (List.getElem_mem _)
    rw [h1] at hat
    by_contra hn
    simp [hn] at hat

/-- C04: a variable created without exception has, in every solution, each entry within its bounds; a fixed variable has
exactly its value; an unfixed binary is 0 or 1. -/
theorem C04_bounds {x : Var} {σ : Assignment} (hx : x.checked = .ok x) (h : x.Ok σ) (i : Nat) (hi : i < x.length) :
    (∀ lb, x.lb = some lb → lb.at i ≤ σ x.label i) ∧
    (∀ ub, x.ub = some ub → σ x.label i ≤ ub.at i) ∧
    (∀ f, x.fixedValue = some f → σ x.label i = f.at i) ∧
    (x.isBinary = true → x.fixedValue = none → σ x.label i = 0 ∨ σ x.label i = 1) := by
  obtain ⟨ds, ht, hd⟩ := h
  obtain ⟨lbv, h1, ht⟩ := bind_ok.1 ht
  obtain ⟨ubv, h2, ht⟩ := bind_ok.1 ht
  obtain ⟨fvv, h3, ht⟩ := bind_ok.1 ht
  rw [mapM_ok] at ht
  obtain ⟨d, hdi, ht⟩ := (forall₂_get ht).2 i i (List.getElem?_range hi)
  have hold := hd i d hdi
  obtain ⟨fv, hfv, ht⟩ := bind_ok.1 ht
  rw [pyGet_ok] at hfv
  cases hf : x.fixedValue with
  | some f =>
    rw [hf] at h3
    obtain ⟨hs3, _, h3'⟩ := asVectorOpt_some h3
    rw [h3' i hi] at hfv
    simp at hfv
    subst hfv
    simp only [except_pure, Except.ok.injEq] at ht
    subst ht
    have hval : σ x.label i = f.at i := hold.1
    unfold Var.checked at hx
    simp only [hf] at hx
    obtain ⟨above, hab, hx⟩ := bind_ok.1 hx
    obtain ⟨below, hbe, hx⟩ := bind_ok.1 hx
    have hboth : above = true ∧ below = true := by
      split at hx
      · rename_i hh; simpa using hh
      · simp at hx
    obtain ⟨rfl, rfl⟩ := hboth
    refine ⟨?_, ?_, ?_, by simp⟩
    · intro lb hlb
      rw [hlb] at hab h1
      obtain ⟨hs1, _, _⟩ := asVectorOpt_some h1
      have := npAll_true hab hs3 hs1 hi
      simp at this
      rw [hval]; exact this
    · intro ub hub
      rw [hub] at hbe h2
      obtain ⟨hs2, _, _⟩ := asVectorOpt_some h2
      have := npAll_true hbe hs3 hs2 hi
      simp at this
      rw [hval]; exact this
    · intro f' hf'
      simp at hf'
      rw [← hf']; exact hval
  | none =>
    rw [hf] at h3
    obtain ⟨_, h3'⟩ := asVectorOpt_none h3
    rw [h3' i hi] at hfv
    simp at hfv
    subst hfv
    obtain ⟨lb', hl, ht⟩ := bind_ok.1 ht
    obtain ⟨ub', hu, ht⟩ := bind_ok.1 ht
    rw [pyGet_ok] at hl hu
    simp only [except_pure, Except.ok.injEq] at ht
    subst ht
    refine ⟨?_, ?_, by simp, ?_⟩
    · intro lb hlb
      rw [hlb] at h1
      obtain ⟨_, _, h1'⟩ := asVectorOpt_some h1
      rw [h1' i hi] at hl
      simp at hl
      exact hold.1.1 _ hl.symm
    · intro ub hub
      rw [hub] at h2
      obtain ⟨_, _, h2'⟩ := asVectorOpt_some h2
      rw [h2' i hi] at hu
      simp at hu
      exact hold.1.2 _ hu.symm
    · intro hbin _
      exact hold.2 hbin (by simp)

/-- C04: a fixed value outside the bounds is refused when the variable is created. -/
theorem C04_refused {x : Var} {f : Num} (hf : x.fixedValue = some f)
    (hfs : f.isScalar = true ∨ f.len = x.length)
    (i : Nat) (hi : i < x.length)
    (hout : (∃ lb, x.lb = some lb ∧ (lb.isScalar = true ∨ lb.len = x.length) ∧ f.at i < lb.at i) ∨
            (∃ ub, x.ub = some ub ∧ (ub.isScalar = true ∨ ub.len = x.length) ∧ ub.at i < f.at i)) :
    ∃ e, x.checked = .error e := by
  cases hx : x.checked with
  | error e => exact ⟨e, rfl⟩
  | ok y =>
    exfalso
    unfold Var.checked at hx
    simp only [hf] at hx
    obtain ⟨above, hab, hx⟩ := bind_ok.1 hx
    obtain ⟨below, hbe, hx⟩ := bind_ok.1 hx
    have hboth : above = true ∧ below = true := by
      split at hx
      · rename_i hh; simpa using hh
      · simp at hx
    obtain ⟨rfl, rfl⟩ := hboth
    rcases hout with ⟨lb, hlb, hs, hlt⟩ | ⟨ub, hub, hs, hlt⟩
    · rw [hlb] at hab
      have := npAll_true hab hfs hs hi
      simp at this
      linarith
    · rw [hub] at hbe
      have := npAll_true hbe hfs hs hi
      simp at this
      linarith

example : ∃ (x : Var) (σ : Assignment), x.checked = .ok x ∧ x.Ok σ ∧ x.length = 3 ∧ x.ub = some (.v [1, 2, 3]) := by
  refine ⟨{ label := "x", length := 3, lb := some (.s 0), ub := some (.v [1, 2, 3]) }, fun _ i => i, rfl, ?_, rfl, rfl⟩
  refine ⟨_, rfl, ?_⟩
  intro i d hd
  match i, hd with
  | 0, hd => simp at hd; subst hd; simp [Dom.Holds]
  | 1, hd => simp at hd; subst hd; simp [Dom.Holds]
  | 2, hd => simp at hd; subst hd; norm_num [Dom.Holds]
  | (k + 3), hd => simp at hd

example : ∃ (x : Var) (f ub : Num), x.fixedValue = some f ∧ (f.isScalar = true ∨ f.len = x.length) ∧ 1 < x.length ∧
    x.ub = some ub ∧ (ub.isScalar = true ∨ ub.len = x.length) ∧ ub.at 1 < f.at 1 :=
  ⟨{ label := "x", length := 3, fixedValue := some (.v [1, 5, 2]), ub := some (.s 4) }, .v [1, 5, 2], .s 4, rfl,
    .inr rfl, by decide, rfl, .inl rfl, by norm_num [Num.at]⟩

/-! ## C05 -/

theorem toInt8_near {raw : ℚ} (h : -1 < raw ∧ raw < 2) : toInt8 raw = if 1 ≤ raw then 1 else 0 := by
  unfold toInt8
  split
  · split
    · rw [show raw.floor = ⌊raw⌋ from rfl, Int.floor_eq_iff]; constructor <;> norm_num <;> linarith
    · rw [show raw.floor = ⌊raw⌋ from rfl, Int.floor_eq_iff]; constructor <;> norm_num <;> linarith
  · rw [if_neg (by linarith)]
    rw [Rat.ceil_eq_neg_floor_neg, show (-raw).floor = ⌊-raw⌋ from rfl]
    have : ⌊-raw⌋ = 0 := by rw [Int.floor_eq_iff]; constructor <;> norm_num <;> linarith
    simp [this]

/-- The 0/1 value nearest to the value returned by the solver. -/
def nearestBin (raw : ℚ) : ℚ := if raw < 1 / 2 then 0 else 1

/-- C05 (partial), exact set of solver values for which the report is right: within `(-1, 2)` the reported value is the
nearest 0/1 value exactly when the solver's value is below one half or at least 1.  In particular exact integers and
values slightly above 0, below 0 or above 1 are right; every value slightly below 1 is reported as 0. -/
theorem C05_report_partial {raw : ℚ} (h : -1 < raw ∧ raw < 2) :
    reported true raw = nearestBin raw ↔ (raw < 1 / 2 ∨ 1 ≤ raw) := by
  simp only [reported, if_true, toInt8_near h, nearestBin]
  by_cases h1 : 1 ≤ raw
  · have : ¬ raw < 1 / 2 := by linarith
    simp [h1]; linarith
  · simp only [h1, if_false]
    by_cases h2 : raw < 1 / 2
    · simp
    · norm_num [h2]

example : (-1 : ℚ) < 999999 / 1000000 ∧ (999999 / 1000000 : ℚ) < 2 := by norm_num

/-- C05 is false of the code: any solver value `1 - δ` within the integrality tolerance is reported as 0. -/
theorem C05_wrong {δ : ℚ} (h0 : 0 < δ) (h1 : δ < 1 / 2) : reported true (1 - δ) = 0 ∧ nearestBin (1 - δ) = 1 := by
  constructor
  · have h2 := toInt8_near (raw := 1 - δ) ⟨by linarith, by linarith⟩
    simp only [reported, if_true, h2]
    rw [if_neg (by linarith)]; rfl
  · unfold nearestBin
    rw [if_neg (by linarith)]

example : (0 : ℚ) < 1 / 1000000 ∧ (1 / 1000000 : ℚ) < 1 / 2 := by norm_num

/-- C05: continuous variables are reported unchanged. -/
theorem C05_continuous (raw : ℚ) : reported false raw = raw := rfl

end Flix
