import Verif.Lemmas.Flow
import Verif.Lemmas.Assign
import Verif.Spec.Segments

/-! # Row readings of piecewise-linear features -/

namespace Flix

/-- Label of a variable of segment `i`. -/
def segL (el : String) (i : Nat) (k : String) : String := el ++ "__" ++ "Segment_" ++ toString i ++ "_" ++ k

def segNames : List String := ["inSegment", "lambda0", "lambda1"]

/-- The labels of all segment variables. -/
def segLabels (el : String) (nr : Nat) : List String :=
  ((List.range nr).map fun i => segNames.map (segL el i)).flatten

/-- The variables of segment `i`. -/
def segOf (el : String) (L i : Nat) : SegVars where
  inSegment := { label := segL el i "inSegment", length := L, isBinary := true }
  lambda0 := { label := segL el i "lambda0", length := L, lb := some (.s 0), ub := some (.s 1) }
  lambda1 := { label := segL el i "lambda1", length := L, lb := some (.s 0), ub := some (.s 1) }

def segTree (el : String) (L i : Nat) : MTree :=
  .node [(segOf el L i).inSegment, (segOf el L i).lambda0, (segOf el L i).lambda1]
    [mkEq (el ++ "__" ++ "Segment_" ++ toString i) "inSegment" [sAll (segOf el L i).inSegment (.s (-1)), sAll (segOf el L i).lambda0 (.s 1),
      sAll (segOf el L i).lambda1 (.s 1)]] []

theorem segment_ok {el : String} {L i : Nat} {r : SegVars × MTree} (h : segmentModel el L i = .ok r) :
    r = (segOf el L i, segTree el L i) := by
  unfold segmentModel at h
  peel h with a, ha
  peel h with b, hb
  peel h with c, hc
  simp only [except_pure, Except.ok.injEq] at h
  have h1 := (mkVar_ok ha).1
  have h2 := (mkVar_ok hb).1
  have h3 := (mkVar_ok hc).1
  subst h1 h2 h3
  rw [← h]
  simp [segOf, segTree, segL]

/-- What a segment says. -/
structure SegRow (el : String) (L i : Nat) (σ : Assignment) : Prop where
  bin : ∀ t < L, σ (segL el i "inSegment") t = 0 ∨ σ (segL el i "inSegment") t = 1
  l0 : ∀ t < L, 0 ≤ σ (segL el i "lambda0") t ∧ σ (segL el i "lambda0") t ≤ 1
  l1 : ∀ t < L, 0 ≤ σ (segL el i "lambda1") t ∧ σ (segL el i "lambda1") t ≤ 1
  sum : ∀ t < L, σ (segL el i "inSegment") t = σ (segL el i "lambda0") t + σ (segL el i "lambda1") t

theorem unit_var_iff {σ : Assignment} {x : Var} (hf : x.fixedValue = none) (hl : x.lb = some (.s 0)) (hu : x.ub = some (.s 1))
    (hb : x.isBinary = false) : x.Ok σ ↔ ∀ i < x.length, 0 ≤ σ x.label i ∧ σ x.label i ≤ 1 := by
  rw [var_iff hf (by rw [hl]; exact fitsBound_some (by simp)) (by rw [hu]; exact fitsBound_some (by simp))]
  simp [hl, hu, hb]

theorem segTree_iff {el : String} {L i : Nat} {σ : Assignment} : (segTree el L i).Solves σ ↔ SegRow el L i σ := by
  unfold segTree
  simp only [MTree.Solves, MTree.SolvesAll, List.forall_mem_cons, List.not_mem_nil, false_imp_iff, implies_true, and_true]
  rw [bin_var_iff (x := (segOf el L i).inSegment) rfl rfl rfl rfl, unit_var_iff (x := (segOf el L i).lambda0) rfl rfl rfl rfl,
    unit_var_iff (x := (segOf el L i).lambda1) rfl rfl rfl rfl, ok_eq (n := L)]
  · have hrow : (∀ t < L, opsLhs σ t [sAll (segOf el L i).inSegment (.s (-1)), sAll (segOf el L i).lambda0 (.s 1),
        sAll (segOf el L i).lambda1 (.s 1)] = opsRhs t [sAll (segOf el L i).inSegment (.s (-1)), sAll (segOf el L i).lambda0 (.s 1),
        sAll (segOf el L i).lambda1 (.s 1)]) ↔
        ∀ t < L, σ (segL el i "inSegment") t = σ (segL el i "lambda0") t + σ (segL el i "lambda1") t := by
      refine forall₂_congr fun t ht => ?_
      simp only [opsLhs_cons, opsRhs_cons, lhs_sAll (x := (segOf el L i).inSegment) ht, lhs_sAll (x := (segOf el L i).lambda0) ht,
        lhs_sAll (x := (segOf el L i).lambda1) ht, rhs_sAll, opsLhs_nil, opsRhs_nil, at_s]
      simp only [segOf]
      constructor <;> intro h <;> linarith
    rw [hrow]
    constructor
    · rintro ⟨⟨a, b, c⟩, d⟩; exact ⟨a, b, c, d⟩
    · rintro ⟨a, b, c, d⟩; exact ⟨⟨a, b, c⟩, d⟩
  · intro op ho
    simp only [List.mem_cons, List.not_mem_nil, or_false] at ho
    rcases ho with rfl | rfl | rfl <;> exact good_sAll rfl (by simp)
  · exact ⟨_, List.mem_cons_self, len_sAll' rfl (by simp)⟩

theorem zipWith_range {α β} (f : Nat → α → β) (d : α) : ∀ (n : Nat) (l : List α), l.length = n →
    List.zipWith f (List.range n) l = (List.range n).map fun i => f i (l.getD i d) := by
  intro n l hl
  apply List.ext_getElem
  · simp [hl]
  · intro i h1 h2
    simp at h1 h2
    simp [List.getD_eq_getElem?_getD, List.getElem?_eq_getElem (show i < l.length by omega)]

theorem opsLhs_flatten {σ : Assignment} {t : Nat} {ls : List (List Op)} :
    opsLhs σ t ls.flatten = (ls.map (opsLhs σ t)).sum := by
  induction ls with
  | nil => rfl
  | cons a l ih => simp [opsLhs_append, ih]

theorem opsRhs_zero {t : Nat} {ops : List Op} (h : ∀ op ∈ ops, op.rhs t = 0) : opsRhs t ops = 0 := by
  induction ops with
  | nil => rfl
  | cons a l ih => rw [opsRhs_cons, h a (by simp), ih fun o ho => h o (by simp [ho]), zero_add]

/-- The default sample point. -/
def seg0 : Num × Num := (.s 0, .s 0)

theorem lambdaOps_eq {el : String} {L nr : Nat} {pts : List (Num × Num)} (hl : pts.length = nr) :
    lambdaOps ((List.range nr).map (segOf el L)) pts = ((List.range nr).map fun i =>
      [sAll (segOf el L i).lambda0 (pts.getD i seg0).1, sAll (segOf el L i).lambda1 (pts.getD i seg0).2]).flatten := by
  unfold lambdaOps
  rw [List.zipWith_map_left, zipWith_range _ seg0 nr pts hl]

theorem lambdaOps_lhs {el : String} {L nr t : Nat} {pts : List (Num × Num)} {σ : Assignment} (hl : pts.length = nr) (ht : t < L) :
    opsLhs σ t (lambdaOps ((List.range nr).map (segOf el L)) pts) =
      ∑ i ∈ Finset.range nr, ((pts.getD i seg0).1.at t * σ (segL el i "lambda0") t +
        (pts.getD i seg0).2.at t * σ (segL el i "lambda1") t) := by
  rw [lambdaOps_eq hl, opsLhs_flatten, List.map_map, ← list_sum_range]
  congr 2
  funext i
  simp only [Function.comp, opsLhs_cons, opsLhs_nil, add_zero]
  rw [lhs_sAll (x := (segOf el L i).lambda0) ht, lhs_sAll (x := (segOf el L i).lambda1) ht]
  rfl

theorem lambdaOps_mem {el : String} {L nr : Nat} {pts : List (Num × Num)} (hl : pts.length = nr) {op : Op}
    (h : op ∈ lambdaOps ((List.range nr).map (segOf el L)) pts) :
    ∃ i < nr, ∃ s, pts[i]? = some s ∧ (op = sAll (segOf el L i).lambda0 s.1 ∨ op = sAll (segOf el L i).lambda1 s.2) := by
  rw [lambdaOps_eq hl] at h
  simp only [List.mem_flatten, List.mem_map, List.mem_range] at h
  obtain ⟨l, ⟨i, hi, rfl⟩, ho⟩ := h
  simp only [List.mem_cons, List.not_mem_nil, or_false] at ho
  have : pts[i]? = some (pts.getD i seg0) := by
    rw [List.getD_eq_getElem?_getD, List.getElem?_eq_getElem (by omega)]; rfl
  exact ⟨i, hi, _, this, ho⟩

theorem restructure_ok {nr : Nat} {pts r : List (Num × Num)} (h : restructure nr pts = .ok r) :
    r.length = nr ∧ r = pts.take nr ∧ nr ≤ pts.length := by
  unfold restructure at h
  rw [mapM_ok] at h
  obtain ⟨h1, h2⟩ := forall₂_get h
  rw [List.length_range] at h1
  have hget : ∀ i < nr, ∃ b, r[i]? = some b ∧ pts[i]? = some b := by
    intro i hi
    obtain ⟨b, hb, hb'⟩ := h2 i i (List.getElem?_range hi)
    exact ⟨b, hb, pyGet_ok.1 hb'⟩
  have hle : nr ≤ pts.length := by
    by_contra hc
    obtain ⟨b, _, hb⟩ := hget pts.length (by omega)
    simp at hb
  refine ⟨h1.symm, ?_, hle⟩
  apply List.ext_getElem?
  intro i
  by_cases hi : i < nr
  · obtain ⟨b, h3, h4⟩ := hget i hi
    rw [h3, List.getElem?_take_of_lt hi, h4]
  · rw [List.getElem?_eq_none (by omega), List.getElem?_eq_none (by simp; omega)]

/-- What the piecewise-linear coupling says: `total t` is the number of segments in use. -/
structure SegRows (el : String) (L nr : Nat) (points : List (Var × List (Num × Num))) (total : Nat → ℚ) (σ : Assignment) : Prop where
  row : ∀ i < nr, SegRow el L i σ
  lam : ∀ q ∈ points, ∀ t < L, σ q.1.label t = ∑ i ∈ Finset.range nr,
    ((q.2.getD i seg0).1.at t * σ (segL el i "lambda0") t + (q.2.getD i seg0).2.at t * σ (segL el i "lambda1") t)
  single : ∀ t < L, ∑ i ∈ Finset.range nr, σ (segL el i "inSegment") t = total t

/-- Variables and value of the right side, by the kind of `can_be_outside_segments`. -/
def outsideVar (el : String) (L : Nat) : Outside → Option Var
  | .no => none
  | .create => some { label := el ++ "__" ++ "MultipleSegments" ++ "_" ++ "outside_segments", length := L, isBinary := true }
  | .use x => some x

def outsideTotal (el : String) (σ : Assignment) (o : Outside) (t : Nat) : ℚ :=
  match outsideVar el 1 o with
  | none => 1
  | some x => σ x.label t

theorem outside_ok {el : String} {L : Nat} {o : Outside} {r : List Var × List Op}
    (h : outsidePart (el ++ "__" ++ "MultipleSegments") L o = .ok r) :
    r.1 = (match o with | .create => (outsideVar el L o).toList | _ => []) ∧
    r.2 = (match outsideVar el L o with | none => [.const (.s 1)] | some x => [sAll x (.s (-1))]) := by
  unfold outsidePart at h
  cases o with
  | no => simp at h; subst h; simp [outsideVar]
  | use x => simp at h; subst h; simp [outsideVar]
  | create =>
    simp only at h
    peel h with x, hx
    simp only [except_pure, Except.ok.injEq] at h
    have := (mkVar_ok hx).1
    subst this h
    simp [outsideVar]

theorem multiple_inv {el : String} {L : Nat} {points : List (Var × List (Num × Num))} {out : Outside} {tree : MTree}
    (h : multipleSegments el L points out = .ok tree) :
    ∃ nr, (∃ q rest, points = q :: rest ∧ nr = q.2.length) ∧ (∀ q ∈ points, nr ≤ q.2.length) ∧
      ∃ vs ops, outsidePart (el ++ "__" ++ "MultipleSegments") L out = .ok (vs, ops) ∧
      tree = .node vs
        (points.map (fun q => mkEq (el ++ "__" ++ "MultipleSegments") ("lambda_" ++ q.1.label)
            (sAll q.1 (.s (-1)) :: lambdaOps ((List.range nr).map (segOf el L)) (q.2.take nr))) ++
          [mkEq (el ++ "__" ++ "MultipleSegments") "in_single_Segment"
            (((List.range nr).map fun i => sAll (segOf el L i).inSegment (.s 1)) ++ ops)])
        ((List.range nr).map (segTree el L)) := by
  unfold multipleSegments at h
  peel h with nr, hnr
  peel h with pts, hpts
  peel h with segs, hsegs
  peel h with ⟨vs, ops⟩, hout
  simp only [except_pure, Except.ok.injEq] at h
  rw [mapM_ok] at hpts hsegs
  have hsegs' : segs = (List.range nr).map fun i => (segOf el L i, segTree el L i) := by
    have : List.Forall₂ (fun i r => r = (segOf el L i, segTree el L i)) (List.range nr) segs :=
      forall₂_imp' hsegs fun i _ r hr => segment_ok hr
    clear hsegs h
    revert this
    generalize List.range nr = l
    intro this
    induction this with
    | nil => rfl
    | cons h _ ih => rw [ih, h]; rfl
  have hp : List.Forall₂ (fun q r => r = (q.1, q.2.take nr) ∧ nr ≤ q.2.length) points pts := by
    refine forall₂_imp' hpts ?_
    intro q _ r hr
    peel hr with a, ha
    simp only [except_pure, Except.ok.injEq] at hr
    obtain ⟨_, h2, h3⟩ := restructure_ok ha
    exact ⟨by rw [← hr, h2], h3⟩
  have hp1 : pts = points.map fun q => (q.1, q.2.take nr) := by
    clear hpts hnr h
    induction hp with
    | nil => rfl
    | cons h _ ih => rw [h.1, ih]; rfl
  have hp2 : ∀ q ∈ points, nr ≤ q.2.length := by
    clear hpts hnr h hp1
    induction hp with
    | nil => simp
    | cons h _ ih => simp only [List.forall_mem_cons]; exact ⟨h.2, ih⟩
  refine ⟨nr, ?_, hp2, vs, ops, hout, ?_⟩
  · unfold nrOfSegments at hnr
    cases points with
    | nil => simp at hnr
    | cons q rest => simp at hnr; exact ⟨q, rest, rfl, hnr.symm⟩
  · rw [← h, hsegs', hp1]
    simp [List.map_map, Function.comp_def]

theorem getD_take {α} {l : List α} {n i : Nat} {d : α} (h : i < n) : (l.take n).getD i d = l.getD i d := by
  rw [List.getD_eq_getElem?_getD, List.getD_eq_getElem?_getD, List.getElem?_take_of_lt h]

/-- The complete meaning of a piecewise-linear coupling. -/
theorem multiple_iff {el : String} {L : Nat} {points : List (Var × List (Num × Num))} {out : Outside} {tree : MTree}
    (hlen : ∀ q ∈ points, q.1.length = L) (hfit : ∀ q ∈ points, ∀ s ∈ q.2, s.1.Fits L ∧ s.2.Fits L)
    (hL : L ≠ 0) (hout : ∀ x, out = .use x → x.length = L)
    (h : multipleSegments el L points out = .ok tree) :
    ∃ nr, (∃ q rest, points = q :: rest ∧ nr = q.2.length) ∧ (∀ q ∈ points, nr ≤ q.2.length) ∧
    ∀ σ : Assignment, tree.Solves σ ↔ SegRows el L nr points (outsideTotal el σ out) σ ∧
      (out = .create → ∀ t < L, outsideTotal el σ out t = 0 ∨ outsideTotal el σ out t = 1) := by
  obtain ⟨nr, h1, h2, vs, ops, ho, ht⟩ := multiple_inv h
  refine ⟨nr, h1, h2, fun σ => ?_⟩
  obtain ⟨hvs, hops⟩ := outside_ok ho
  simp only at hvs hops
  rw [ht]
  simp only [MTree.Solves, List.mem_append, or_imp, forall_and, List.forall_mem_map, List.forall_mem_cons, List.not_mem_nil,
    false_imp_iff, implies_true, and_true]
  have hA : (∀ x ∈ vs, x.Ok σ) ↔ (out = .create → ∀ t < L, outsideTotal el σ out t = 0 ∨ outsideTotal el σ out t = 1) := by
    rw [hvs]
    cases out with
    | no => simp
    | use x => simp
    | create =>
      simp only [outsideVar, Option.toList_some, List.forall_mem_cons, List.not_mem_nil, false_imp_iff, implies_true, and_true,
        forall_true_left]
      rw [bin_var_iff rfl rfl rfl rfl]
      rfl
  have hB : (∀ q ∈ points, (mkEq (el ++ "__" ++ "MultipleSegments") ("lambda_" ++ q.1.label)
            (sAll q.1 (.s (-1)) :: lambdaOps ((List.range nr).map (segOf el L)) (q.2.take nr))).Ok σ) ↔
      ∀ q ∈ points, ∀ t < L, σ q.1.label t = ∑ i ∈ Finset.range nr,
        ((q.2.getD i seg0).1.at t * σ (segL el i "lambda0") t + (q.2.getD i seg0).2.at t * σ (segL el i "lambda1") t) := by
    refine forall₂_congr fun q hq => ?_
    have htl : (q.2.take nr).length = nr := by simp [h2 q hq]
    rw [ok_eq (n := L)]
    · refine forall₂_congr fun t ht => ?_
      rw [opsLhs_cons, lhs_sAll (by rw [hlen q hq]; exact ht), lambdaOps_lhs htl ht, opsRhs_zero]
      · have : ∀ i ∈ Finset.range nr, (((q.2.take nr).getD i seg0).1.at t * σ (segL el i "lambda0") t +
            ((q.2.take nr).getD i seg0).2.at t * σ (segL el i "lambda1") t) =
            ((q.2.getD i seg0).1.at t * σ (segL el i "lambda0") t + (q.2.getD i seg0).2.at t * σ (segL el i "lambda1") t) := by
          intro i hi; rw [getD_take (Finset.mem_range.1 hi)]
        rw [Finset.sum_congr rfl this, at_s]
        constructor <;> intro h <;> linarith
      · intro op ho
        rcases List.mem_cons.1 ho with rfl | ho
        · rfl
        · obtain ⟨i, _, s, _, rfl | rfl⟩ := lambdaOps_mem htl ho <;> rfl
    · intro op ho
      rcases List.mem_cons.1 ho with rfl | ho
      · exact good_sAll (hlen q hq) (by simp)
      · obtain ⟨i, _, s, hs, ho⟩ := lambdaOps_mem htl ho
        have hs' : s ∈ q.2 := List.mem_of_mem_take (List.mem_of_getElem? hs)
        rcases ho with rfl | rfl
        · exact good_sAll rfl (hfit q hq s hs').1
        · exact good_sAll rfl (hfit q hq s hs').2
    · exact ⟨_, List.mem_cons_self, len_sAll' (hlen q hq) (by simp)⟩
  have hsumI : ∀ t < L, opsLhs σ t ((List.range nr).map fun i => sAll (segOf el L i).inSegment (.s 1)) =
      ∑ i ∈ Finset.range nr, σ (segL el i "inSegment") t := by
    intro t ht
    rw [← list_sum_range, opsLhs, List.map_map]
    congr 2
    funext i
    simp only [Function.comp]
    rw [lhs_sAll (x := (segOf el L i).inSegment) ht]
    simp [segOf]
  have hC : (mkEq (el ++ "__" ++ "MultipleSegments") "in_single_Segment"
            (((List.range nr).map fun i => sAll (segOf el L i).inSegment (.s 1)) ++ ops)).Ok σ ↔
      ∀ t < L, ∑ i ∈ Finset.range nr, σ (segL el i "inSegment") t = outsideTotal el σ out t := by
    have hg1 : ∀ op ∈ ((List.range nr).map fun i => sAll (segOf el L i).inSegment (.s 1)), op.Good L := by
      intro op ho
      simp only [List.mem_map, List.mem_range] at ho
      obtain ⟨i, _, rfl⟩ := ho
      exact good_sAll rfl (by simp)
    have hr1 : ∀ t, opsRhs t ((List.range nr).map fun i => sAll (segOf el L i).inSegment (.s 1)) = 0 := by
      intro t
      apply opsRhs_zero
      intro op ho
      simp only [List.mem_map, List.mem_range] at ho
      obtain ⟨i, _, rfl⟩ := ho
      rfl
    cases hov : outsideVar el L out with
    | some x =>
      have hxl : x.length = L := by
        cases out with
        | no => simp [outsideVar] at hov
        | create => simp [outsideVar] at hov; rw [← hov]
        | use y => simp [outsideVar] at hov; subst hov; exact hout y rfl
      have htot : ∀ t, outsideTotal el σ out t = σ x.label t := by
        intro t
        cases out with
        | no => simp [outsideVar] at hov
        | create => simp [outsideVar] at hov; rw [← hov]; rfl
        | use y => simp [outsideVar] at hov; subst hov; rfl
      simp only [hov] at hops
      rw [hops, ok_eq (n := L)]
      · refine forall₂_congr fun t ht => ?_
        rw [opsLhs_append, hsumI t ht, opsRhs_append, hr1, htot]
        simp only [opsLhs_cons, opsRhs_cons, opsLhs_nil, opsRhs_nil, lhs_sAll (x := x) (hxl ▸ ht), rhs_sAll, at_s]
        constructor <;> intro h <;> linarith
      · intro op ho
        rcases List.mem_append.1 ho with ho | ho
        · exact hg1 op ho
        · simp only [List.mem_cons, List.not_mem_nil, or_false] at ho
          subst ho; exact good_sAll hxl (by simp)
      · exact ⟨sAll x (.s (-1)), by simp, len_sAll' hxl (by simp)⟩
    | none =>
      have hno : out = .no := by cases out <;> simp [outsideVar] at hov ⊢
      subst hno
      have htot : ∀ t, outsideTotal el σ .no t = 1 := fun t => rfl
      simp only [hov] at hops
      rw [hops]
      by_cases hnr : nr = 0
      · subst hnr
        simp only [List.range_zero, List.map_nil, List.nil_append, Finset.range_zero, Finset.sum_empty]
        rw [ok_eq1]
        · simp only [opsLhs_cons, opsRhs_cons, opsLhs_nil, opsRhs_nil, lhs_const, rhs_const, at_s]
          constructor
          · intro h; norm_num at h
          · intro h
            have := h 0 (Nat.pos_of_ne_zero hL)
            rw [htot] at this
            norm_num at this
        · intro op ho
          simp only [List.mem_cons, List.not_mem_nil, or_false] at ho
          subst ho; exact good_const (by simp)
        · simp
      · rw [ok_eq (n := L)]
        · refine forall₂_congr fun t ht => ?_
          rw [opsLhs_append, hsumI t ht, opsRhs_append, hr1, htot]
          simp
        · intro op ho
          rcases List.mem_append.1 ho with ho | ho
          · exact hg1 op ho
          · simp only [List.mem_cons, List.not_mem_nil, or_false] at ho
            subst ho; exact good_const (by simp)
        · refine ⟨sAll (segOf el L 0).inSegment (.s 1), ?_, len_sAll' rfl (by simp)⟩
          rw [List.mem_append]; left
          exact List.mem_map.2 ⟨0, List.mem_range.2 (by omega), rfl⟩
  have hD : MTree.SolvesAll σ ((List.range nr).map (segTree el L)) ↔ ∀ i < nr, SegRow el L i σ := by
    rw [solvesAll_iff, List.forall_mem_map]
    simp only [List.mem_range, segTree_iff]
  rw [hA, hB, hC, hD]
  constructor
  · rintro ⟨a, ⟨b, c⟩, d⟩; exact ⟨⟨d, b, c⟩, a⟩
  · rintro ⟨⟨d, b, c⟩, a⟩; exact ⟨a, ⟨b, c⟩, d⟩

end Flix
