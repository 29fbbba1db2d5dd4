import Verif.Lemmas.Segments

/-! # Piecewise-linear rows and positions on segments -/

namespace Flix

theorem sum_bin_le {n : Nat} {f : Nat → ℚ} (hb : ∀ i < n, f i = 0 ∨ f i = 1) {i j : Nat} (hi : i < n) (hj : j < n) (hij : i ≠ j)
    (h1 : f i = 1) (h2 : f j = 1) : 2 ≤ ∑ k ∈ Finset.range n, f k := by
  have hnn : ∀ k ∈ Finset.range n, 0 ≤ f k := by
    intro k hk; rcases hb k (Finset.mem_range.1 hk) with h | h <;> rw [h] <;> norm_num
  have hsub : ({i, j} : Finset Nat) ⊆ Finset.range n := by
    intro k hk
    simp only [Finset.mem_insert, Finset.mem_singleton] at hk
    rcases hk with rfl | rfl <;> simpa
  have := Finset.sum_le_sum_of_subset_of_nonneg hsub (fun k hk _ => hnn k hk)
  rw [Finset.sum_pair hij, h1, h2] at this
  linarith

/-- In a solution the coupled variables are all zero (no segment in use) or lie at one common position of the only segment in use. -/
theorem seg_sound {el : String} {L nr t : Nat} {points : List (Var × List (Num × Num))} {total : Nat → ℚ} {σ : Assignment}
    (hr : SegRows el L nr points total σ) (hnr : ∀ q ∈ points, nr ≤ q.2.length) (ht : t < L) (htot : total t = 0 ∨ total t = 1) :
    (total t = 0 ∧ (∀ i < nr, σ (segL el i "inSegment") t = 0) ∧ ∀ q ∈ points, σ q.1.label t = 0) ∨
    (total t = 1 ∧ ∃ i < nr, (∀ j < nr, σ (segL el j "inSegment") t = if j = i then 1 else 0) ∧
      OnSegment points (fun x => σ x.label t) t i) := by
  have hs := hr.single t ht
  have hbin : ∀ i < nr, σ (segL el i "inSegment") t = 0 ∨ σ (segL el i "inSegment") t = 1 := fun i hi => (hr.row i hi).bin t ht
  have hnn : ∀ k ∈ Finset.range nr, 0 ≤ σ (segL el k "inSegment") t := by
    intro k hk; rcases hbin k (Finset.mem_range.1 hk) with h | h <;> rw [h] <;> norm_num
  have hlam : ∀ i < nr, σ (segL el i "inSegment") t = 0 → σ (segL el i "lambda0") t = 0 ∧ σ (segL el i "lambda1") t = 0 := by
    intro i hi h0
    have h1 := (hr.row i hi).l0 t ht
    have h2 := (hr.row i hi).l1 t ht
    have h3 := (hr.row i hi).sum t ht
    constructor <;> linarith
  rcases htot with h0 | h1
  · left
    rw [h0] at hs
    have hz : ∀ i < nr, σ (segL el i "inSegment") t = 0 := fun i hi =>
      (Finset.sum_eq_zero_iff_of_nonneg hnn).1 hs i (Finset.mem_range.2 hi)
    refine ⟨h0, hz, fun q hq => ?_⟩
    rw [hr.lam q hq t ht]
    refine Finset.sum_eq_zero fun i hi => ?_
    obtain ⟨a, b⟩ := hlam i (Finset.mem_range.1 hi) (hz i (Finset.mem_range.1 hi))
    rw [a, b]; ring
  · right
    rw [h1] at hs
    refine ⟨h1, ?_⟩
    have : ∃ i < nr, σ (segL el i "inSegment") t = 1 := by
      by_contra hc
      have hz : ∑ i ∈ Finset.range nr, σ (segL el i "inSegment") t = 0 := by
        refine Finset.sum_eq_zero fun i hi => ?_
        rcases hbin i (Finset.mem_range.1 hi) with h | h
        · exact h
        · exact absurd ⟨i, Finset.mem_range.1 hi, h⟩ hc
      rw [hz] at hs; norm_num at hs
    obtain ⟨i, hi, hi1⟩ := this
    have honly : ∀ j < nr, σ (segL el j "inSegment") t = if j = i then 1 else 0 := by
      intro j hj
      split
      · rename_i h; rw [h]; exact hi1
      · rename_i h
        rcases hbin j hj with h' | h'
        · exact h'
        · have := sum_bin_le hbin hi hj (fun e => h e.symm) hi1 h'
          linarith
    refine ⟨i, hi, honly, σ (segL el i "lambda1") t, ((hr.row i hi).l1 t ht).1, ((hr.row i hi).l1 t ht).2, fun q hq => ?_⟩
    have hq' := hnr q hq
    refine ⟨q.2.getD i seg0, ?_, ?_⟩
    · rw [List.getD_eq_getElem?_getD, List.getElem?_eq_getElem (by omega)]; rfl
    · show σ q.1.label t = _
      rw [hr.lam q hq t ht, Finset.sum_eq_single i]
      · have h3 := (hr.row i hi).sum t ht
        rw [hi1] at h3
        have h4 : σ (segL el i "lambda0") t = 1 - σ (segL el i "lambda1") t := by linarith
        rw [h4]; unfold between; ring
      · intro j hj hji
        have hj0 := honly j (Finset.mem_range.1 hj)
        rw [if_neg hji] at hj0
        obtain ⟨a, b⟩ := hlam j (Finset.mem_range.1 hj) hj0
        rw [a, b]; ring
      · intro h; exact absurd (Finset.mem_range.2 hi) h

theorem segL_inj {el : String} {i j : Nat} {k : String} (h : segL el i k = segL el j k) : i = j := by
  unfold segL at h
  rw [append_left_inj', append_left_inj', String.append_right_inj] at h
  exact toString_nat_inj h

theorem segL_ne01 {el : String} {i j : Nat} : segL el i "lambda0" ≠ segL el j "lambda1" := by
  unfold segL; exact append_ne_of_last (by decide) (by decide) (by decide)

theorem segL_neI0 {el : String} {i j : Nat} : segL el i "inSegment" ≠ segL el j "lambda0" := by
  unfold segL; exact append_ne_of_last (by decide) (by decide) (by decide)

theorem segL_neI1 {el : String} {i j : Nat} : segL el i "inSegment" ≠ segL el j "lambda1" := by
  unfold segL; exact append_ne_of_last (by decide) (by decide) (by decide)

/-- Values for the variables of segments; `pick t` is the segment in use at `t` with the position in it. -/
def segVals (el : String) (pick : Nat → Option (Nat × ℚ)) (i : Nat) : List (String × (Nat → ℚ)) :=
  [(segL el i "inSegment", fun t => match pick t with | some (j, _) => if i = j then 1 else 0 | none => 0),
   (segL el i "lambda0", fun t => match pick t with | some (j, u) => if i = j then 1 - u else 0 | none => 0),
   (segL el i "lambda1", fun t => match pick t with | some (j, u) => if i = j then u else 0 | none => 0)]

def segAll (el : String) (nr : Nat) (pick : Nat → Option (Nat × ℚ)) : List (String × (Nat → ℚ)) :=
  ((List.range nr).map (segVals el pick)).flatten

theorem segAll_labels (el : String) (nr : Nat) (pick) : (segAll el nr pick).map (·.1) = segLabels el nr := by
  unfold segAll segLabels
  rw [List.map_flatten, List.map_map]
  rfl

theorem segLabels_nodup (el : String) (nr : Nat) : (segLabels el nr).Nodup := by
  unfold segLabels
  rw [List.nodup_flatten]
  constructor
  · intro l hl
    simp only [List.mem_map, List.mem_range] at hl
    obtain ⟨i, _, rfl⟩ := hl
    simp only [segNames, List.map_cons, List.map_nil, List.nodup_cons, List.mem_cons, List.not_mem_nil, or_false, not_or,
      not_false_eq_true, List.nodup_nil, and_true]
    exact ⟨⟨segL_neI0, segL_neI1⟩, segL_ne01⟩
  · rw [List.pairwise_map]
    refine List.Pairwise.imp ?_ (List.nodup_range (n := nr))
    intro i j hij
    simp only [segNames, List.map_cons, List.map_nil, List.disjoint_cons_left, List.mem_cons, List.not_mem_nil, or_false, not_or,
      List.disjoint_nil_left, and_true]
    refine ⟨⟨fun h => hij (segL_inj h), segL_neI0, segL_neI1⟩, ⟨fun h => segL_neI0 h.symm, fun h => hij (segL_inj h), segL_ne01⟩,
      fun h => segL_neI1 h.symm, fun h => segL_ne01 h.symm, fun h => hij (segL_inj h)⟩

/-- Every assignment of the coupled variables to a common position of some segment extends to a solution. -/
theorem seg_complete {el : String} {L nr : Nat} {points : List (Var × List (Num × Num))} {total : Nat → ℚ} {σ : Assignment}
    (hlab : ∀ q ∈ points, q.1.label ∉ segLabels el nr)
    (hpos : ∀ t < L, (total t = 0 ∧ ∀ q ∈ points, σ q.1.label t = 0) ∨
      (total t = 1 ∧ ∃ i < nr, OnSegment points (fun x => σ x.label t) t i)) :
    ∃ τ : Assignment, (∀ l, l ∉ segLabels el nr → τ l = σ l) ∧ SegRows el L nr points total τ := by
  classical
  have hpick : ∀ t, ∃ p : Option (Nat × ℚ), t < L → match p with
      | none => total t = 0 ∧ ∀ q ∈ points, σ q.1.label t = 0
      | some (i, u) => total t = 1 ∧ i < nr ∧ 0 ≤ u ∧ u ≤ 1 ∧ ∀ q ∈ points, ∃ seg, q.2[i]? = some seg ∧
          σ q.1.label t = between seg u t := by
    intro t
    by_cases ht : t < L
    · rcases hpos t ht with h | ⟨h1, i, hi, u, h2, h3, h4⟩
      · exact ⟨none, fun _ => h⟩
      · exact ⟨some (i, u), fun _ => ⟨h1, hi, h2, h3, h4⟩⟩
    · exact ⟨none, fun h => absurd h ht⟩
  choose pick hp using hpick
  have hnd : ((segAll el nr pick).map (·.1)).Nodup := by rw [segAll_labels]; exact segLabels_nodup el nr
  have hmem : ∀ i < nr, ∀ q ∈ segVals el pick i, q ∈ segAll el nr pick := by
    intro i hi q hq
    exact List.mem_flatten.2 ⟨_, List.mem_map.2 ⟨i, List.mem_range.2 hi, rfl⟩, hq⟩
  refine ⟨assignAll σ (segAll el nr pick), fun l hl => assignAll_other (by rw [segAll_labels]; exact hl), ?_⟩
  have hI : ∀ i < nr, ∀ t, assignAll σ (segAll el nr pick) (segL el i "inSegment") t =
      (match pick t with | some (j, _) => if i = j then 1 else 0 | none => 0) := by
    intro i hi t
    rw [assignAll_mem hnd (hmem i hi _ (by simp only [segVals, List.mem_cons]; left; rfl))]
  have h0 : ∀ i < nr, ∀ t, assignAll σ (segAll el nr pick) (segL el i "lambda0") t =
      (match pick t with | some (j, u) => if i = j then 1 - u else 0 | none => 0) := by
    intro i hi t
    rw [assignAll_mem hnd (hmem i hi _ (by simp only [segVals, List.mem_cons]; right; left; rfl))]
  have h1 : ∀ i < nr, ∀ t, assignAll σ (segAll el nr pick) (segL el i "lambda1") t =
      (match pick t with | some (j, u) => if i = j then u else 0 | none => 0) := by
    intro i hi t
    rw [assignAll_mem hnd (hmem i hi _ (by simp only [segVals, List.mem_cons]; right; right; left; rfl))]
  have hq : ∀ q ∈ points, ∀ t, assignAll σ (segAll el nr pick) q.1.label t = σ q.1.label t := by
    intro q hq t
    rw [assignAll_other (by rw [segAll_labels]; exact hlab q hq)]
  refine ⟨fun i hi => ⟨?_, ?_, ?_, ?_⟩, ?_, ?_⟩
  · intro t ht
    rw [hI i hi]
    cases pick t with
    | none => left; rfl
    | some p => by_cases h : i = p.1 <;> simp [h]
  · intro t ht
    rw [h0 i hi]
    have := hp t ht
    cases hc : pick t with
    | none => simp
    | some p =>
      rw [hc] at this
      obtain ⟨_, _, a, b, _⟩ := this
      by_cases h : i = p.1
      · simp only [h, if_true]; constructor <;> linarith
      · simp [h]
  · intro t ht
    rw [h1 i hi]
    have := hp t ht
    cases hc : pick t with
    | none => simp
    | some p =>
      rw [hc] at this
      obtain ⟨_, _, a, b, _⟩ := this
      by_cases h : i = p.1
      · simp only [h, if_true]; exact ⟨a, b⟩
      · simp [h]
  · intro t ht
    rw [hI i hi, h0 i hi, h1 i hi]
    cases hc : pick t with
    | none => simp
    | some p => by_cases h : i = p.1 <;> simp [h]
  · intro q hq' t ht
    rw [hq q hq' t]
    have := hp t ht
    cases hc : pick t with
    | none =>
      rw [hc] at this
      rw [this.2 q hq', Finset.sum_eq_zero]
      intro i hi
      rw [h0 i (Finset.mem_range.1 hi), h1 i (Finset.mem_range.1 hi), hc]; simp
    | some p =>
      rw [hc] at this
      obtain ⟨_, hi, _, _, h⟩ := this
      obtain ⟨seg, hs, hv⟩ := h q hq'
      rw [hv, Finset.sum_eq_single p.1]
      · rw [h0 _ hi, h1 _ hi, hc, List.getD_eq_getElem?_getD, hs]
        simp [between]; ring
      · intro j hj hne
        rw [h0 j (Finset.mem_range.1 hj), h1 j (Finset.mem_range.1 hj), hc]; simp [hne]
      · intro h; exact absurd (Finset.mem_range.2 hi) h
  · intro t ht
    have := hp t ht
    cases hc : pick t with
    | none =>
      rw [hc] at this
      rw [this.1, Finset.sum_eq_zero]
      intro i hi
      rw [hI i (Finset.mem_range.1 hi), hc]
    | some p =>
      rw [hc] at this
      obtain ⟨h, hi, _⟩ := this
      rw [h, Finset.sum_eq_single p.1]
      · rw [hI _ hi, hc]; simp
      · intro j hj hne
        rw [hI j (Finset.mem_range.1 hj), hc]; simp [hne]
      · intro h; exact absurd (Finset.mem_range.2 hi) h

end Flix
