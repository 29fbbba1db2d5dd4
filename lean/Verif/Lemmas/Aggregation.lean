import Verif.Lemmas.Ties
import Verif.Lemmas.OnOffSem
import Verif.Lemmas.Rows

/-! # Meaning of the rows of `AggregationModel` -/

namespace Flix

theorem idxAt_get {l : List Nat} {i a : Nat} (h : l[i]? = some a) : idxAt l i = a := by
  match l with
  | [] => simp at h
  | [k] =>
    cases i with
    | zero => simpa [idxAt] using h
    | succ i => simp at h
  | a :: b :: l => simp only [idxAt, List.getD_eq_getElem?_getD, h, Option.getD_some]

/-- The pairs by position. -/
theorem zip_get {xs ys : List Nat} (hl : xs.length = ys.length) {i : Nat} (hi : i < xs.length) :
    (idxAt xs i, idxAt ys i) ∈ List.zip xs ys ∧ (List.zip xs ys)[i]? = some (idxAt xs i, idxAt ys i) := by
  have hi' : i < ys.length := by omega
  have e1 := idxAt_get (List.getElem?_eq_getElem hi)
  have e2 := idxAt_get (List.getElem?_eq_getElem hi')
  have : (List.zip xs ys)[i]? = some (idxAt xs i, idxAt ys i) := by
    rw [List.getElem?_zip_eq_some, e1, e2]
    exact ⟨List.getElem?_eq_getElem hi, List.getElem?_eq_getElem hi'⟩
  exact ⟨List.mem_of_getElem? this, this⟩

theorem forall_pairs {xs ys : List Nat} (hl : xs.length = ys.length) {P : Nat → Nat → Prop} :
    (∀ i < xs.length, P (idxAt xs i) (idxAt ys i)) ↔ ∀ a b, (a, b) ∈ List.zip xs ys → P a b := by
  constructor
  · intro h a b hab
    obtain ⟨i, hi⟩ := List.mem_iff_getElem?.1 hab
    rw [List.getElem?_zip_eq_some] at hi
    have hlt : i < xs.length := by
      by_contra hc
      rw [List.getElem?_eq_none (by omega)] at hi
      simp at hi
    have := h i hlt
    rwa [idxAt_get hi.1, idxAt_get hi.2] at this
  · intro h i hi
    exact h _ _ (zip_get hl hi).1

/-- The correction variable with prefix `k`. -/
def korrV (k : String) (n : Nat) (x : Var) : Var :=
  { label := aggEl ++ "_" ++ (k ++ x.label), length := n, isBinary := true }

theorem equate_inv {p : AggParams} {idx : List Nat × List Nat} {x : Var} {o : EquateOut} (h : equateIndices p idx x = .ok o) :
    idx.1.length = idx.2.length ∧
    ((x.isBinary = true ∧ 0 < p.percentage ∧ o.vars = [korrV "Korr1_" idx.1.length x, korrV "Korr0_" idx.1.length x] ∧
      o.cons = [
        mkEq aggEl ("Equate_indices_of_" ++ x.label) (tieOps idx x ++ [sAll (korrV "Korr1_" idx.1.length x) (.s 1), sAll (korrV "Korr0_" idx.1.length x) (.s (-1))]),
        mkIneq aggEl ("lock_K0andK1_" ++ x.label) [sAll (korrV "Korr0_" idx.1.length x) (.s 1), sAll (korrV "Korr1_" idx.1.length x) (.s 1), .const (.s (11 / 10))],
        mkIneq aggEl ("Nr_of_Corrections_" ++ x.label)
          [sSum (korrV "Korr1_" idx.1.length x) (.s 1), sSum (korrV "Korr0_" idx.1.length x) (.s 1), .const (.s (pyRound (p.percentage / 100 * idx.1.length)))]]) ∨
    (¬ (x.isBinary = true ∧ 0 < p.percentage) ∧ o.vars = [] ∧ o.cons = [mkEq aggEl ("Equate_indices_of_" ++ x.label) (tieOps idx x)])) := by
  unfold equateIndices at h
  split at h
  · simp at h
  · rename_i hl
    have hl : idx.1.length = idx.2.length := by simpa using hl
    refine ⟨hl, ?_⟩
    split at h
    · rename_i hc
      simp only [Bool.and_eq_true, decide_eq_true_eq] at hc
      left
      unfold equateCorrected at h
      rw [mkVar_free, ok_bind, mkVar_free, ok_bind] at h
      simp only [except_pure, Except.ok.injEq] at h
      subst h
      refine ⟨hc.1, hc.2, ?_, ?_⟩
      · simp [korrV]
      · simp [korrV]
    · rename_i hc
      simp only [Bool.and_eq_true, decide_eq_true_eq] at hc
      simp only [Except.ok.injEq] at h
      subst h
      exact .inr ⟨hc, rfl, rfl⟩

/-- The tie without corrections, from left to right: no assumption on the length of the variable. -/
theorem tie_eq {idx : List Nat × List Nat} (hl : idx.1.length = idx.2.length) {x : Var} {σ : Assignment} {l : String}
    (h : (mkEq aggEl l (tieOps idx x)).Ok σ) : ∀ a b, (a, b) ∈ List.zip idx.1 idx.2 → σ x.label a = σ x.label b := by
  rw [← forall_pairs hl]
  intro i hi
  have := h.row idx.1.length (by simp [mkEq, tieOps, sIdx, Op.WholeSum]) (by simp [mkEq, tieOps, len_sIdx, hl]) ⟨sIdx x (.s 1) idx.1, by simp [mkEq, tieOps], by simp [len_sIdx]⟩ hi
  simp only [mkEq, tieOps, Kind.rel, opsLhs_cons, opsLhs_nil, opsRhs_cons, opsRhs_nil, lhs_sIdx, at_s] at this
  have e : (sIdx x (.s 1) idx.1).rhs i = 0 ∧ (sIdx x (.s (-1)) idx.2).rhs i = 0 := ⟨rfl, rfl⟩
  rw [e.1, e.2] at this
  linarith

theorem tie_iff {idx : List Nat × List Nat} (hl : idx.1.length = idx.2.length) {x : Var} {σ : Assignment} {l : String}
    (hr1 : ∀ a ∈ idx.1, a < x.length) (hr2 : ∀ a ∈ idx.2, a < x.length) :
    (mkEq aggEl l (tieOps idx x)).Ok σ ↔ ∀ a b, (a, b) ∈ List.zip idx.1 idx.2 → σ x.label a = σ x.label b := by
  refine ⟨tie_eq hl, fun h => ?_⟩
  rw [ok_eq (n := idx.1.length)]
  · intro i hi
    have := (forall_pairs hl).2 h i hi
    simp only [tieOps, opsLhs_cons, opsLhs_nil, opsRhs_cons, opsRhs_nil, lhs_sIdx, at_s]
    have e : (sIdx x (.s 1) idx.1).rhs i = 0 ∧ (sIdx x (.s (-1)) idx.2).rhs i = 0 := ⟨rfl, rfl⟩
    rw [e.1, e.2]
    linarith
  · intro op ho
    simp only [tieOps, List.mem_cons, List.not_mem_nil, or_false] at ho
    rcases ho with rfl | rfl
    · exact good_sIdx hr1 (by simp) rfl
    · exact good_sIdx hr2 (by simp) hl.symm
  · exact ⟨_, List.mem_cons_self, len_sIdx' rfl (by simp)⟩

/-! ## Corrections -/

/-- What the rows with corrections say. -/
structure Corrected (σ : Assignment) (idx : List Nat × List Nat) (x : Var) (lim : ℚ) : Prop where
  bin1 : ∀ i < idx.1.length, σ (korrV "Korr1_" idx.1.length x).label i = 0 ∨ σ (korrV "Korr1_" idx.1.length x).label i = 1
  bin0 : ∀ i < idx.1.length, σ (korrV "Korr0_" idx.1.length x).label i = 0 ∨ σ (korrV "Korr0_" idx.1.length x).label i = 1
  tie : ∀ i < idx.1.length, σ x.label (idxAt idx.1 i) - σ x.label (idxAt idx.2 i) + σ (korrV "Korr1_" idx.1.length x).label i -
    σ (korrV "Korr0_" idx.1.length x).label i = 0
  lock : ∀ i < idx.1.length, σ (korrV "Korr0_" idx.1.length x).label i + σ (korrV "Korr1_" idx.1.length x).label i ≤ 11 / 10
  limit : ∑ i ∈ Finset.range idx.1.length, σ (korrV "Korr1_" idx.1.length x).label i +
    ∑ i ∈ Finset.range idx.1.length, σ (korrV "Korr0_" idx.1.length x).label i ≤ lim

theorem korr_ok {σ : Assignment} {k : String} {n : Nat} {x : Var} :
    (korrV k n x).Ok σ ↔ ∀ i < n, σ (korrV k n x).label i = 0 ∨ σ (korrV k n x).label i = 1 :=
  bin_var_iff rfl rfl rfl rfl

theorem equate_corrected {p : AggParams} {idx : List Nat × List Nat} {x : Var} {o : EquateOut} {σ : Assignment} (h : equateIndices p idx x = .ok o)
    (hb : x.isBinary = true) (hp : 0 < p.percentage) (hv : ∀ y ∈ o.vars, y.Ok σ) (hc : ∀ r ∈ o.cons, r.Ok σ) :
    Corrected σ idx x (pyRound (p.percentage / 100 * idx.1.length)) := by
  obtain ⟨hl, ⟨_, _, e1, e2⟩ | ⟨hn, _⟩⟩ := equate_inv h
  swap
  · exact absurd ⟨hb, hp⟩ hn
  simp only [e1, List.forall_mem_cons, List.not_mem_nil, false_imp_iff, implies_true, and_true, korr_ok] at hv
  simp only [e2, List.forall_mem_cons, List.not_mem_nil, false_imp_iff, implies_true, and_true] at hc
  obtain ⟨hc1, hc2, hc3⟩ := hc
  refine ⟨hv.1, hv.2, fun i hi => ?_, fun i hi => ?_, ?_⟩
  · have := hc1.row idx.1.length (by simp [tieOps, sIdx, sAll, Op.WholeSum]) (by simp [tieOps, len_sIdx, len_sAll, hl, korrV])
      ⟨sIdx x (.s 1) idx.1, by simp [tieOps], by simp [len_sIdx]⟩ hi
    simp only [mkEq_ops, mkEq_kind, rel_eq, tieOps, List.cons_append, List.nil_append, opsLhs_cons, opsLhs_nil, opsRhs_cons, opsRhs_nil, lhs_sIdx, at_s,
      rhs_sIdx, rhs_sAll, lhs_sAll (x := korrV "Korr1_" idx.1.length x) hi, lhs_sAll (x := korrV "Korr0_" idx.1.length x) hi] at this
    linarith
  · have := hc2.row idx.1.length (by simp [sAll, Op.WholeSum]) (by simp [sAll, Op.len, korrV, idxOf])
      ⟨sAll (korrV "Korr0_" idx.1.length x) (.s 1), by simp, by simp [len_sAll, korrV]⟩ hi
    simp only [mkIneq_ops, mkIneq_kind, rel_ineq, opsLhs_cons, opsLhs_nil, opsRhs_cons, opsRhs_nil, at_s, rhs_const, lhs_const,
      rhs_sAll, lhs_sAll (x := korrV "Korr1_" idx.1.length x) hi, lhs_sAll (x := korrV "Korr0_" idx.1.length x) hi] at this
    linarith
  · have := hc3.row 1 (by simp [sSum, Op.WholeSum]) (by simp [sSum, Op.len])
      ⟨sSum (korrV "Korr0_" idx.1.length x) (.s 1), by simp, by simp [sSum, Op.len]⟩ (t := 0) (by omega)
    simp only [mkIneq_ops, mkIneq_kind, rel_ineq, opsLhs_cons, opsLhs_nil, opsRhs_cons, opsRhs_nil, at_s, rhs_const, lhs_const, rhs_sSum,
      lhs_sum (x := korrV "Korr1_" idx.1.length x) (f := .s 1) (n := idx.1.length) rfl (.inl rfl), lhs_sum (x := korrV "Korr0_" idx.1.length x) (f := .s 1) (n := idx.1.length) rfl (.inl rfl), one_mul] at this
    linarith

theorem corrected_equate {p : AggParams} {idx : List Nat × List Nat} {x : Var} {o : EquateOut} {σ : Assignment} (h : equateIndices p idx x = .ok o)
    (hb : x.isBinary = true) (hp : 0 < p.percentage) (hr1 : ∀ a ∈ idx.1, a < x.length) (hr2 : ∀ a ∈ idx.2, a < x.length)
    (hC : Corrected σ idx x (pyRound (p.percentage / 100 * idx.1.length))) : (∀ y ∈ o.vars, y.Ok σ) ∧ ∀ r ∈ o.cons, r.Ok σ := by
  obtain ⟨hl, ⟨_, _, e1, e2⟩ | ⟨hn, _⟩⟩ := equate_inv h
  swap
  · exact absurd ⟨hb, hp⟩ hn
  simp only [e1, e2, List.forall_mem_cons, List.not_mem_nil, false_imp_iff, implies_true, and_true, korr_ok]
  refine ⟨⟨hC.bin1, hC.bin0⟩, ?_, ?_, ?_⟩
  · rw [ok_eq (n := idx.1.length)]
    · intro i hi
      have := hC.tie i hi
      simp only [tieOps, List.cons_append, List.nil_append, opsLhs_cons, opsLhs_nil, opsRhs_cons, opsRhs_nil, lhs_sIdx, at_s,
        rhs_sIdx, rhs_sAll, lhs_sAll (x := korrV "Korr1_" idx.1.length x) hi, lhs_sAll (x := korrV "Korr0_" idx.1.length x) hi]
      linarith
    · intro op ho
      simp only [tieOps, List.cons_append, List.nil_append, List.mem_cons, List.not_mem_nil, or_false] at ho
      rcases ho with rfl | rfl | rfl | rfl
      · exact good_sIdx hr1 (by simp) rfl
      · exact good_sIdx hr2 (by simp) hl.symm
      · exact good_sAll rfl (by simp)
      · exact good_sAll rfl (by simp)
    · exact ⟨_, List.mem_cons_self, len_sIdx' rfl (by simp)⟩
  · rw [ok_ineq (n := idx.1.length)]
    · intro i hi
      have := hC.lock i hi
      simp only [opsLhs_cons, opsLhs_nil, opsRhs_cons, opsRhs_nil, at_s, rhs_const, lhs_const,
        rhs_sAll, lhs_sAll (x := korrV "Korr1_" idx.1.length x) hi, lhs_sAll (x := korrV "Korr0_" idx.1.length x) hi]
      linarith
    · intro op ho
      simp only [List.mem_cons, List.not_mem_nil, or_false] at ho
      rcases ho with rfl | rfl | rfl
      · exact good_sAll rfl (by simp)
      · exact good_sAll rfl (by simp)
      · exact good_const (by simp)
    · exact ⟨_, List.mem_cons_self, len_sAll' rfl (by simp)⟩
  · rw [ok_ineq1]
    · have := hC.limit
      simp only [opsLhs_cons, opsLhs_nil, opsRhs_cons, opsRhs_nil, at_s, rhs_const, lhs_const, rhs_sSum,
        lhs_sum (x := korrV "Korr1_" idx.1.length x) (f := .s 1) (n := idx.1.length) rfl (.inl rfl), lhs_sum (x := korrV "Korr0_" idx.1.length x) (f := .s 1) (n := idx.1.length) rfl (.inl rfl), one_mul]
      linarith
    · intro op ho
      simp only [List.mem_cons, List.not_mem_nil, or_false] at ho
      rcases ho with rfl | rfl | rfl
      · exact good_sSum (by simp)
      · exact good_sSum (by simp)
      · exact good_const (by simp)
    · simp

/-- The corrections at a tie are determined by the deviation. -/
theorem Corrected.at {σ : Assignment} {idx : List Nat × List Nat} {x : Var} {lim : ℚ} (h : Corrected σ idx x lim) {i : Nat} (hi : i < idx.1.length) :
    (σ (korrV "Korr1_" idx.1.length x).label i = if σ x.label (idxAt idx.2 i) = σ x.label (idxAt idx.1 i) + 1 then 1 else 0) ∧
    (σ (korrV "Korr0_" idx.1.length x).label i = if σ x.label (idxAt idx.1 i) = σ x.label (idxAt idx.2 i) + 1 then 1 else 0) ∧
    (σ x.label (idxAt idx.2 i) = σ x.label (idxAt idx.1 i) ∨ σ x.label (idxAt idx.2 i) = σ x.label (idxAt idx.1 i) + 1 ∨
      σ x.label (idxAt idx.1 i) = σ x.label (idxAt idx.2 i) + 1) ∧
    σ (korrV "Korr1_" idx.1.length x).label i + σ (korrV "Korr0_" idx.1.length x).label i =
      if σ x.label (idxAt idx.1 i) ≠ σ x.label (idxAt idx.2 i) then 1 else 0 := by
  have t := h.tie i hi
  have l := h.lock i hi
  generalize σ x.label (idxAt idx.1 i) = A at *
  generalize σ x.label (idxAt idx.2 i) = B at *
  rcases h.bin1 i hi with e1 | e1 <;> rcases h.bin0 i hi with e0 | e0 <;> rw [e1, e0] at t l ⊢
  · have : B = A := by linarith
    subst this; simp
  · have : A = B + 1 := by linarith
    subst this
    refine ⟨?_, by simp, .inr (.inr rfl), by simp⟩
    rw [if_neg (by intro h; linarith)]
  · have : B = A + 1 := by linarith
    subst this
    refine ⟨by simp, ?_, .inr (.inl rfl), by simp⟩
    rw [if_neg (by intro h; linarith)]
  · norm_num at l

/-! ## Counting -/

theorem ties_at {c : ClusterData} {idx : List Nat × List Nat} (h : c.equationIndices true = .ok idx) {i : Nat} (hi : i < idx.1.length) :
    idxAt idx.2 i < c.total ∧ c.rep (idxAt idx.2 i) = some (idxAt idx.1 i) :=
  ((mem_ties h).2 _ _).1 (zip_get (mem_ties h).1 hi).1

theorem ties_of {c : ClusterData} {idx : List Nat × List Nat} (h : c.equationIndices true = .ok idx) {a b : Nat} (hb : b < c.total) (ha : c.rep b = some a) :
    ∃ i < idx.1.length, idxAt idx.1 i = a ∧ idxAt idx.2 i = b := by
  have := ((mem_ties h).2 a b).2 ⟨hb, ha⟩
  obtain ⟨i, hi⟩ := List.mem_iff_getElem?.1 this
  rw [List.getElem?_zip_eq_some] at hi
  refine ⟨i, ?_, idxAt_get hi.1, idxAt_get hi.2⟩
  by_contra hc
  rw [List.getElem?_eq_none (by omega)] at hi
  simp at hi

theorem sum_copies {c : ClusterData} (hkeys : c.keys.Nodup) {idx : List Nat × List Nat} (h : c.equationIndices true = .ok idx) (g : Nat → ℚ) :
    ∑ i ∈ Finset.range idx.1.length, g (idxAt idx.2 i) = ∑ b ∈ c.copies, g b := by
  refine Finset.sum_bij (fun i _ => idxAt idx.2 i) ?_ ?_ ?_ ?_
  · intro i hi
    obtain ⟨h1, h2⟩ := ties_at h (Finset.mem_range.1 hi)
    simp [ClusterData.copies, h1, h2]
  · intro i hi j hj e
    have hi := Finset.mem_range.1 hi
    have hj := Finset.mem_range.1 hj
    rw [(mem_ties h).1] at hi hj
    rw [idxAt_get (List.getElem?_eq_getElem hi), idxAt_get (List.getElem?_eq_getElem hj)] at e
    exact (List.Nodup.getElem_inj_iff (nodup_ties hkeys h)).1 e
  · intro b hb
    simp only [ClusterData.copies, Finset.mem_filter, Finset.mem_range, Option.isSome_iff_exists] at hb
    obtain ⟨hb, a, ha⟩ := hb
    obtain ⟨i, hi, _, e⟩ := ties_of h hb ha
    exact ⟨i, Finset.mem_range.2 hi, e⟩
  · intro i _; rfl

/-- The sum of all corrections is the number of deviations. -/
theorem Corrected.sum {c : ClusterData} (hkeys : c.keys.Nodup) {σ : Assignment} {idx : List Nat × List Nat} (hi : c.equationIndices true = .ok idx) {x : Var}
    {lim : ℚ} (h : Corrected σ idx x lim) :
    ∑ i ∈ Finset.range idx.1.length, σ (korrV "Korr1_" idx.1.length x).label i +
      ∑ i ∈ Finset.range idx.1.length, σ (korrV "Korr0_" idx.1.length x).label i = ((c.deviations σ x.label).card : ℚ) := by
  rw [← Finset.sum_add_distrib]
  have : ∀ i ∈ Finset.range idx.1.length, σ (korrV "Korr1_" idx.1.length x).label i + σ (korrV "Korr0_" idx.1.length x).label i =
      (fun b => if ∃ a ∈ c.rep b, σ x.label a ≠ σ x.label b then (1 : ℚ) else 0) (idxAt idx.2 i) := by
    intro i hm
    have hm := Finset.mem_range.1 hm
    rw [(h.at hm).2.2.2]
    simp only [(ties_at hi hm).2, Option.mem_def, Option.some.injEq, exists_eq_left']
  refine (Finset.sum_congr rfl this).trans ((sum_copies hkeys hi (fun b => if ∃ a ∈ c.rep b, σ x.label a ≠ σ x.label b then (1 : ℚ) else 0)).trans ?_)
  rw [Finset.sum_boole]
  rfl

/-! ## The whole aggregation model -/

mutual
  theorem mem_allVars (x : Var) : ∀ t : MTree, x ∈ t.allVars ↔ ∃ m, MTree.Within m t ∧ x ∈ m.vars
    | .node vs cs ss => by
      rw [MTree.allVars, List.mem_append, mem_allVarsAll x ss]
      constructor
      · rintro (h | ⟨t, ht, m, hm, hx⟩)
        · exact ⟨_, .refl _, h⟩
        · exact ⟨m, .sub ht hm, hx⟩
      · rintro ⟨m, hm, hx⟩
        cases hm with
        | refl => exact .inl hx
        | sub hs hm => exact .inr ⟨_, hs, m, hm, hx⟩
  theorem mem_allVarsAll (x : Var) : ∀ ts : List MTree, x ∈ MTree.allVarsAll ts ↔ ∃ t ∈ ts, ∃ m, MTree.Within m t ∧ x ∈ m.vars
    | [] => by simp [MTree.allVarsAll]
    | t :: ts => by
      rw [MTree.allVarsAll, List.mem_append, mem_allVars x t, mem_allVarsAll x ts]
      simp
end

/-- The variable is one that is to be tied. -/
def AggParams.Ties (p : AggParams) (c : AggComp) (x : Var) : Prop :=
  (c.isStorage = true → p.fixStorageFlows = true) ∧ (∃ m, MTree.Within m c.tree ∧ x ∈ m.vars) ∧ 1 < x.length ∧ (p.fixNonBinary = true ∨ x.isBinary = true)

theorem aggComponent_ok {p : AggParams} {idx : List Nat × List Nat} {c : AggComp} {outs : List EquateOut} (h : aggComponent p idx c = .ok outs) :
    ∃ xs : List Var, List.Forall₂ (fun x o => equateIndices p idx x = .ok o) xs outs ∧ ∀ x, x ∈ xs ↔ p.Ties c x := by
  unfold aggComponent at h
  split at h
  · rename_i hs
    simp only [Bool.and_eq_true, Bool.not_eq_true'] at hs
    simp only [Except.ok.injEq] at h
    subst h
    refine ⟨[], .nil, fun x => ⟨by simp, fun hx => ?_⟩⟩
    have := hx.1 hs.1
    rw [hs.2] at this
    simp at this
  · rename_i hs
    obtain ⟨vs, hvs, h⟩ := bind_ok.1 h
    have hm := mapM_ok.1 h
    rw [collect_eq] at hvs
    split at hvs
    swap
    · simp at hvs
    simp only [Except.ok.injEq] at hvs
    subst hvs
    have hst : c.isStorage = true → p.fixStorageFlows = true := by
      intro h1
      simpa [h1] using hs
    refine ⟨_, hm, fun x => ?_⟩
    rw [List.mem_filter, mem_allVars]
    constructor
    · rintro ⟨h1, h2⟩
      simp only [AggParams.relevant, Bool.and_eq_true, decide_eq_true_eq, Bool.or_eq_true] at h2
      exact ⟨hst, h1, h2⟩
    · rintro ⟨_, h1, h2, h3⟩
      exact ⟨h1, by simp [AggParams.relevant, h2, h3]⟩

theorem forall₂_flatten_exists {α β γ} {R : α → List β → Prop} {S : γ → β → Prop} {T : α → γ → Prop} {cs : List α} {os : List (List β)}
    (h : List.Forall₂ R cs os) (hR : ∀ c o, R c o → ∃ xs : List γ, List.Forall₂ S xs o ∧ ∀ x, x ∈ xs ↔ T c x) :
    ∃ xs : List γ, List.Forall₂ S xs os.flatten ∧ ∀ x, x ∈ xs ↔ ∃ c ∈ cs, T c x := by
  induction h with
  | nil => exact ⟨[], .nil, by simp⟩
  | cons hd _ ih =>
    obtain ⟨xs, h1, h2⟩ := hR _ _ hd
    obtain ⟨ys, h3, h4⟩ := ih
    exact ⟨xs ++ ys, List.rel_append h1 h3, fun x => by simp [h2, h4]⟩

theorem choose_ok {sel : List String} {comps cs : List AggComp} (h : chooseComponents sel comps = .ok cs) (hnd : (comps.map (·.label)).Nodup) :
    ∀ c, c ∈ cs ↔ c ∈ comps ∧ (sel = [] ∨ c.label ∈ sel) := by
  unfold chooseComponents at h
  split at h
  · rename_i hs
    simp only [Except.ok.injEq] at h
    subst h
    simp [hs]
  · rename_i hs
    have hm := mapM_ok.1 h
    have key : ∀ l c, (comps.find? fun c => c.label = l).elim (.error .attribute) .ok = (Except.ok c : Except Err AggComp) ↔
        c ∈ comps ∧ c.label = l := by
      intro l c
      cases hf : comps.find? fun c => c.label = l with
      | none =>
        simp only [Option.elim, reduceCtorEq, false_iff, not_and]
        intro hc he
        exact absurd he (by simpa using List.find?_eq_none.1 hf c hc)
      | some c' =>
        simp only [Option.elim, Except.ok.injEq]
        have h1 := List.mem_of_find?_eq_some hf
        have h2 : c'.label = l := by simpa using List.find?_some hf
        constructor
        · rintro rfl; exact ⟨h1, h2⟩
        · rintro ⟨h3, h4⟩
          exact List.inj_on_of_nodup_map hnd h1 h3 (h2.trans h4.symm)
    intro c
    constructor
    · intro hc
      obtain ⟨l, hl, e⟩ := forall₂_mem_right hm hc
      obtain ⟨h1, rfl⟩ := (key _ _).1 e
      exact ⟨h1, .inr hl⟩
    · rintro ⟨h1, h2 | h2⟩
      · exact absurd h2 hs
      · obtain ⟨c', hc', e⟩ := forall₂_mem_left hm h2
        obtain ⟨h3, h4⟩ := (key _ _).1 e
        rwa [List.inj_on_of_nodup_map hnd h1 h3 h4.symm]

/-- The variables tied by the aggregation model. -/
def Tied (p : AggParams) (sel : List String) (comps : List AggComp) (x : Var) : Prop :=
  ∃ c ∈ comps, (sel = [] ∨ c.label ∈ sel) ∧ p.Ties c x

theorem aggregation_ok {p : AggParams} {cl : ClusterData} {sel : List String} {comps : List AggComp} {o : Out} (h : aggregationModel p cl sel comps = .ok o)
    (hnd : (comps.map (·.label)).Nodup) :
    ∃ (idx : List Nat × List Nat) (xs : List Var) (outs : List EquateOut), cl.equationIndices true = .ok idx ∧
      List.Forall₂ (fun x e => equateIndices p idx x = .ok e) xs outs ∧ (∀ x, x ∈ xs ↔ Tied p sel comps x) ∧
      o.tree = .node (outs.map EquateOut.vars).flatten (outs.map EquateOut.cons).flatten [] ∧ o.shares = aggPenalties p (outs.map EquateOut.vars).flatten := by
  unfold aggregationModel at h
  peel h with cs, hcs
  peel h with idx, hidx
  peel h with outs, houts
  simp only [except_pure, Except.ok.injEq] at h
  have hc := choose_ok hcs hnd
  obtain ⟨xs, h1, h2⟩ := forall₂_flatten_exists (mapM_ok.1 houts) fun c o e => aggComponent_ok e
  refine ⟨idx, xs, outs.flatten, hidx, h1, fun x => ?_, by rw [← h], by rw [← h]⟩
  rw [h2]
  simp only [hc, Tied, and_assoc]

theorem aggregation_solves {outs : List EquateOut} {σ : Assignment} :
    (MTree.node (outs.map EquateOut.vars).flatten (outs.map EquateOut.cons).flatten []).Solves σ ↔
    ∀ e ∈ outs, (∀ y ∈ e.vars, y.Ok σ) ∧ ∀ r ∈ e.cons, r.Ok σ := by
  simp only [MTree.Solves, MTree.SolvesAll, and_true, List.mem_flatten, List.mem_map, exists_exists_and_eq_and]
  constructor
  · rintro ⟨h1, h2⟩ e he
    exact ⟨fun y hy => h1 y ⟨e, he, hy⟩, fun r hr => h2 r ⟨e, he, hr⟩⟩
  · intro h
    exact ⟨fun y ⟨e, he, hy⟩ => (h e he).1 y hy, fun r ⟨e, he, hr⟩ => (h e he).2 r hr⟩

end Flix
