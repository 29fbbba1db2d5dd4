import Verif.Lemmas.Comp
import Verif.Lemmas.Collection

/-! # The bus model -/

namespace Flix

theorem lhs_map_sAll {σ : Assignment} {xs : List Var} {n t : Nat} (h : ∀ x ∈ xs, x.length = n) (ht : t < n) (f : Num) :
    opsLhs σ t (xs.map fun x => sAll x f) = f.at t * (xs.map fun x => σ x.label t).sum := by
  induction xs with
  | nil => simp
  | cons x xs ih =>
    simp only [List.map_cons, opsLhs_cons, List.sum_cons]
    rw [ih fun y hy => h y (List.mem_cons_of_mem _ hy), lhs_sAll (by rw [h x List.mem_cons_self]; exact ht)]
    ring

theorem rhs_map_sAll {xs : List Var} {t : Nat} (f : Num) : opsRhs t (xs.map fun x => sAll x f) = 0 := by
  induction xs with
  | nil => simp
  | cons x xs ih => simp [ih]

theorem mul_fits {n : Nat} {a b r : Num} (ha : a.Fits n) (hb : b.Fits n) (h : Num.mul a b = .ok r) :
    (r.len = 1 ∨ r.len = n) ∧ (a.len = n ∨ b.len = n → r.len = n) ∧ ∀ t < n, r.at t = a.at t * b.at t := by
  obtain ⟨hlen, _⟩ := zip_len h
  have h1 := ha.len
  have h2 := hb.len
  have hr : r.len = 1 ∨ r.len = n := by split at hlen <;> omega
  refine ⟨hr, ?_, fun t ht => ?_⟩
  · intro hor; split at hlen <;> omega
  · exact zip_at h (by omega)

/-- A variable with the lower bound 0 and no other bounds. -/
theorem nonneg_var_iff {σ : Assignment} {x : Var} (hf : x.fixedValue = none) (hb : x.isBinary = false) (hl : x.lb = some (.s 0)) (hu : x.ub = none) :
    x.Ok σ ↔ ∀ t < x.length, 0 ≤ σ x.label t := by
  rw [var_iff hf (by rw [hl]; exact fitsBound_some (fits_s _ _)) (by rw [hu]; exact fitsBound_none _)]
  simp [hb, hl, hu]

/-- Total of the given flow rates in step `t`. -/
def flowSum (σ : Assignment) (xs : List Var) (t : Nat) : ℚ := (xs.map fun x => σ x.label t).sum

theorem bus_none {sys : Sys} {b : BusData} {ins outs : List Var} {o : BusOut} (h : busModel sys b ins outs = .ok o)
    (hp : b.excessPenalty = none) (hin : ∀ x ∈ ins, x.length = sys.n) (hout : ∀ x ∈ outs, x.length = sys.n) :
    o.excessInput = none ∧ o.excessOutput = none ∧ o.shares = [] ∧
      ∀ σ : Assignment, o.tree.Solves σ ↔ (ins = [] ∧ outs = []) ∨ ∀ t < sys.n, flowSum σ ins t = flowSum σ outs t := by
  unfold busModel at h
  rw [hp] at h
  simp only [Except.ok.injEq] at h
  subst h
  refine ⟨rfl, rfl, rfl, fun σ => ?_⟩
  simp only [MTree.Solves, MTree.SolvesAll, List.not_mem_nil, false_imp_iff, implies_true, true_and, and_true, List.mem_singleton,
    forall_eq]
  by_cases he : ins = [] ∧ outs = []
  · obtain ⟨rfl, rfl⟩ := he
    simp only [List.map_nil, List.append_nil, and_self, true_or, iff_true]
    exact ⟨_, _, rfl, rfl, by simp [Row.Holds, termsVal]⟩
  · simp only [he, false_or]
    rw [ok_eq (n := sys.n)]
    · refine forall_congr' fun t => forall_congr' fun ht => ?_
      rw [opsLhs_append, opsRhs_append', lhs_map_sAll hin ht, lhs_map_sAll hout ht, rhs_map_sAll, rhs_map_sAll]
      simp only [at_s, flowSum]
      constructor <;> intro h <;> linarith
    · intro op hop
      rcases List.mem_append.1 hop with hop | hop
      · obtain ⟨x, hx, rfl⟩ := List.mem_map.1 hop
        exact good_sAll (hin x hx) (fits_s _ _)
      · obtain ⟨x, hx, rfl⟩ := List.mem_map.1 hop
        exact good_sAll (hout x hx) (fits_s _ _)
    · cases ins with
      | cons x xs =>
        exact ⟨_, List.mem_append_left _ (List.mem_map.2 ⟨x, List.mem_cons_self, rfl⟩), len_sAll' (hin x List.mem_cons_self) (fits_s _ _)⟩
      | nil =>
        cases outs with
        | nil => simp at he
        | cons x xs =>
          exact ⟨_, List.mem_append_right _ (List.mem_map.2 ⟨x, List.mem_cons_self, rfl⟩), len_sAll' (hout x List.mem_cons_self) (fits_s _ _)⟩

/-- Labels of the excess variables. -/
def excessInL (b : String) : String := b ++ "_" ++ "excess_input"
def excessOutL (b : String) : String := b ++ "_" ++ "excess_output"

theorem bus_some {sys : Sys} (hv : sys.Valid) {b : BusData} {ins outs : List Var} {o : BusOut} (h : busModel sys b ins outs = .ok o) {pen : Num}
    (hp : b.excessPenalty = some pen) (hpf : pen.Fits sys.n) (hin : ∀ x ∈ ins, x.length = sys.n) (hout : ∀ x ∈ outs, x.length = sys.n) :
    ∃ ein eout f, o.excessInput = some ein ∧ o.excessOutput = some eout ∧ ein.label = excessInL b.label ∧ eout.label = excessOutL b.label ∧
      ein.length = sys.n ∧ eout.length = sys.n ∧ f.Fits sys.n ∧ (∀ t < sys.n, f.at t = sys.width t * pen.at t) ∧
      o.shares = [⟨.penalty, none, b.label ++ "__excess_input", some ein, f, true⟩, ⟨.penalty, none, b.label ++ "__excess_output", some eout, f, true⟩] ∧
      ∀ σ : Assignment, o.tree.Solves σ ↔ (∀ t < sys.n, 0 ≤ σ ein.label t) ∧ (∀ t < sys.n, 0 ≤ σ eout.label t) ∧
        ∀ t < sys.n, flowSum σ ins t + σ ein.label t = flowSum σ outs t + σ eout.label t := by
  unfold busModel at h
  rw [hp] at h
  simp only at h
  peel h with f, hf
  peel h with ein, hein
  peel h with eout, heout
  simp only [except_pure, Except.ok.injEq] at h
  subst h
  have m1 := (mkVar_ok hein).1
  have m2 := (mkVar_ok heout).1
  have hdt : (Num.v sys.dt).len = sys.n := hv.hdt
  obtain ⟨_, hfl, hfa⟩ := mul_fits (n := sys.n) (Or.inr hdt) hpf hf
  have l1 : ein.length = sys.n := by rw [m1]
  have l2 : eout.length = sys.n := by rw [m2]
  refine ⟨ein, eout, f, rfl, rfl, by rw [m1]; rfl, by rw [m2]; rfl, l1, l2, Or.inr (hfl (Or.inl hdt)), ?_, rfl, fun σ => ?_⟩
  · intro t ht
    rw [hfa t ht, at_v (by rw [hv.hdt]; exact ht)]; rfl
  · simp only [MTree.Solves, MTree.SolvesAll, and_true, List.mem_cons, List.not_mem_nil, or_false, forall_eq_or_imp, forall_eq]
    rw [nonneg_var_iff (by rw [m1]) (by rw [m1]) (by rw [m1]) (by rw [m1]), nonneg_var_iff (by rw [m2]) (by rw [m2]) (by rw [m2]) (by rw [m2]),
      l1, l2, and_assoc]
    refine and_congr_right fun _ => and_congr_right fun _ => ?_
    rw [ok_eq (n := sys.n)]
    · refine forall_congr' fun t => forall_congr' fun ht => ?_
      rw [opsLhs_append, opsLhs_append, opsRhs_append', opsRhs_append', lhs_map_sAll hin ht, lhs_map_sAll hout ht, rhs_map_sAll, rhs_map_sAll]
      simp only [at_s, flowSum, opsLhs_cons, opsLhs_nil, opsRhs_cons, opsRhs_nil, rhs_sAll, lhs_sAll (x := ein) (t := t) (by rw [l1]; exact ht),
        lhs_sAll (x := eout) (t := t) (by rw [l2]; exact ht)]
      constructor <;> intro h <;> linarith
    · intro op hop
      rcases List.mem_append.1 hop with hop | hop
      · rcases List.mem_append.1 hop with hop | hop
        · obtain ⟨x, hx, rfl⟩ := List.mem_map.1 hop
          exact good_sAll (hin x hx) (fits_s _ _)
        · obtain ⟨x, hx, rfl⟩ := List.mem_map.1 hop
          exact good_sAll (hout x hx) (fits_s _ _)
      · simp only [List.mem_cons, List.not_mem_nil, or_false] at hop
        rcases hop with rfl | rfl
        · exact good_sAll l2 (fits_s _ _)
        · exact good_sAll l1 (fits_s _ _)
    · exact ⟨sAll ein (.s 1), by simp, len_sAll' l1 (fits_s _ _)⟩

end Flix
