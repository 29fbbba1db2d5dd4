import Verif.Lemmas.SegSem

/-! # Segmented effects of an investment -/

namespace Flix

/-- Label of the variable of a segmented share. -/
def segShareL (el e : String) : String := el ++ "__" ++ "SegmentedShares" ++ "_" ++ (e ++ "_segmented")

def segShareVar (el e : String) : Var := { label := segShareL el e, length := 1 }

def numSegs (l : List (ℚ × ℚ)) : List (Num × Num) := l.map fun q => (Num.s q.1, Num.s q.2)

/-- The coupled variables. -/
def segSharePoints (el : String) (x : Var) (xs : List (ℚ × ℚ)) (shares : List (String × List (ℚ × ℚ))) :
    List (Var × List (Num × Num)) :=
  shares.map (fun e => (segShareVar el e.1, numSegs e.2)) ++ [(x, numSegs xs)]

/-- One share call. -/
def segCall (el e : String) (x : Var) : ShareCall where
  target := .invest
  effect := some e
  name := el ++ "__" ++ "segmented_effects"
  var := some x
  factor := .s (1 * 1)
  asSum := false

/-- The share calls. -/
def segShareCalls (el : String) (shares : List (String × List (ℚ × ℚ))) : List ShareCall :=
  shares.map fun e => segCall el e.1 (segShareVar el e.1)

theorem forall₂_eq_map {α β} {f : α → β} {l : List α} {r : List β} (h : List.Forall₂ (fun a b => b = f a) l r) : r = l.map f := by
  induction h with
  | nil => rfl
  | cons h _ ih => rw [h, ih]; rfl

theorem segmentedShares_inv {el : String} {x : Var} {xs : List (ℚ × ℚ)} {shares : List (String × List (ℚ × ℚ))} {out : Outside}
    {o : Out} (h : segmentedShares el x xs shares out = .ok o) :
    shares ≠ [] ∧ ∃ segs, multipleSegments el 1 (segSharePoints el x xs shares) out = .ok segs ∧
      o.tree = .node (shares.map fun e => segShareVar el e.1) [] [segs] ∧ o.shares = segShareCalls el shares := by
  unfold segmentedShares at h
  cases shares with
  | nil => simp at h
  | cons first rest =>
    simp only at h
    split at h
    · simp at h
    · peel h with vars, hvars
      peel h with segs, hsegs
      peel h with calls, hcalls
      simp only [except_pure, Except.ok.injEq] at h
      rw [mapM_ok] at hvars hcalls
      have hv : vars = (first :: rest).map fun e => (e.1, segShareVar el e.1, e.2) := by
        apply forall₂_eq_map
        refine forall₂_imp' hvars ?_
        intro e _ r hr
        peel hr with v, hv
        simp only [except_pure, Except.ok.injEq] at hr
        rw [← hr, (mkVar_ok hv).1]
        rfl
      have hc : calls = vars.map fun e => [segCall el e.1 e.2.1] := by
        apply forall₂_eq_map
        refine forall₂_imp' hcalls ?_
        intro e _ r hr
        simp [sharesTo, Num.mul, Num.zip, pure, Except.pure, bind, Except.bind] at hr
        rw [← hr]; simp [segCall]
      subst hc hv
      refine ⟨by simp, segs, ?_, ?_, ?_⟩
      · rw [← hsegs]
        simp [segSharePoints, numSegs, List.map_map, Function.comp_def]
      · rw [← h]; simp [List.map_map, Function.comp_def]
      · rw [← h]
        simp only [segShareCalls, List.map_map, Function.comp_def]
        generalize first :: rest = l
        induction l with
        | nil => rfl
        | cons a l ih => simp [ih]

theorem free_var {σ : Assignment} {l : String} {n : Nat} : ({ label := l, length := n } : Var).Ok σ := by
  rw [var_iff rfl (fitsBound_none _) (fitsBound_none _)]
  simp

/-- The complete meaning of segmented shares of a scalar variable. -/
theorem segmentedShares_iff {el : String} {x : Var} {xs : List (ℚ × ℚ)} {shares : List (String × List (ℚ × ℚ))} {out : Outside}
    {o : Out} (hx : x.length = 1) (hout : ∀ y, out = .use y → y.length = 1) (hnc : out ≠ .create)
    (h : segmentedShares el x xs shares out = .ok o) :
    ∃ nr, (∀ q ∈ segSharePoints el x xs shares, nr ≤ q.2.length) ∧
    (∃ q rest, segSharePoints el x xs shares = q :: rest ∧ nr = q.2.length) ∧
    ∀ σ : Assignment, o.tree.Solves σ ↔ SegRows el 1 nr (segSharePoints el x xs shares) (outsideTotal el σ out) σ := by
  obtain ⟨_, segs, hs, ht, _⟩ := segmentedShares_inv h
  obtain ⟨nr, h1, h2, h3⟩ := multiple_iff (by
    intro q hq
    simp only [segSharePoints, List.mem_append, List.mem_map, List.mem_cons, List.not_mem_nil, or_false] at hq
    rcases hq with ⟨e, _, rfl⟩ | rfl
    · rfl
    · exact hx) (by
    intro q hq s hs
    simp only [segSharePoints, List.mem_append, List.mem_map, List.mem_cons, List.not_mem_nil, or_false] at hq
    have : ∃ l, q.2 = numSegs l := by
      rcases hq with ⟨e, _, rfl⟩ | rfl <;> exact ⟨_, rfl⟩
    obtain ⟨l, hl⟩ := this
    rw [hl] at hs
    simp only [numSegs, List.mem_map] at hs
    obtain ⟨a, _, rfl⟩ := hs
    simp) (by norm_num) hout hs
  refine ⟨nr, h2, h1, fun σ => ?_⟩
  have h3' := h3 σ
  have : (out = Outside.create → ∀ t < 1, outsideTotal el σ out t = 0 ∨ outsideTotal el σ out t = 1) ↔ True := by
    simp [hnc]
  rw [this, and_true] at h3'
  rw [ht]
  simp only [MTree.Solves, MTree.SolvesAll, h3', List.not_mem_nil, false_imp_iff, implies_true, and_true, true_and]
  constructor
  · exact fun h => h.2
  · refine fun h => ⟨?_, h⟩
    rw [List.forall_mem_map]
    intro e _
    exact free_var

end Flix
