import Verif.Lemmas.OnOffComplete

/-! # The state and the run before the horizon -/

namespace Flix

theorem bin_split : ∀ (bs : List ℚ), (∀ x ∈ bs, x = 0 ∨ x = 1) →
    ∃ xs, bs = xs ++ List.replicate (trailingOnes bs) 1 ∧ (xs = [] ∨ ∃ ys, xs = ys ++ [0]) := by
  intro bs hb
  have key : ∀ rs : List ℚ, (∀ x ∈ rs, x = 0 ∨ x = 1) →
      ∃ xs, rs = List.replicate (rs.takeWhile (· = 1)).length 1 ++ xs ∧ (xs = [] ∨ ∃ ys, xs = 0 :: ys) := by
    intro rs
    induction rs with
    | nil => intro _; exact ⟨[], by simp⟩
    | cons r rs ih =>
      intro hr
      rcases hr r (by simp) with h | h
      · refine ⟨r :: rs, ?_, Or.inr ⟨rs, by rw [h]⟩⟩
        rw [List.takeWhile_cons_of_neg (by simp [h])]; simp
      · obtain ⟨xs, h1, h2⟩ := ih fun x hx => hr x (by simp [hx])
        refine ⟨xs, ?_, h2⟩
        rw [List.takeWhile_cons_of_pos (by simp [h]), List.length_cons, List.replicate_succ, List.cons_append, ← h1, h]
  obtain ⟨xs, h1, h2⟩ := key bs.reverse (by simpa using hb)
  refine ⟨xs.reverse, ?_, ?_⟩
  · have := congrArg List.reverse h1
    rw [List.reverse_reverse, List.reverse_append, List.reverse_replicate] at this
    exact this
  · rcases h2 with rfl | ⟨ys, rfl⟩
    · left; rfl
    · right; exact ⟨ys.reverse, by simp⟩

theorem lastDur_split {eps : ℚ} (h0 : 0 < eps) (h1 : eps < 1) (xs : List ℚ) (k : Nat)
    (hx : xs = [] ∨ ∃ ys, xs = ys ++ [0]) :
    lastDurationLength eps (xs ++ List.replicate k 1) = if xs = [] then k else xs.length := by
  have hnil : ∀ m, ((List.range k).map (m + ·)).filter
      (fun i => decide (|(List.replicate k (1 : ℚ)).getD (i - m) 0| ≤ eps)) = [] := by
    intro m
    rw [List.filter_eq_nil_iff]
    intro i hi
    obtain ⟨j, hj, rfl⟩ := List.mem_map.1 hi
    have hj := List.mem_range.1 hj
    simp [List.getD_eq_getElem?_getD, hj, not_le.2 h1]
  unfold lastDurationLength
  rcases hx with rfl | ⟨ys, rfl⟩
  · have := hnil 0
    simp only [Nat.zero_add, Nat.sub_zero, List.map_id_fun', id] at this
    simp only [List.nil_append, List.length_replicate, this]
    simp
  · have e : (List.range (ys ++ [0] ++ List.replicate k (1 : ℚ)).length).filter
        (fun i => decide (|(ys ++ [0] ++ List.replicate k (1 : ℚ)).getD i 0| ≤ eps)) =
        (List.range ys.length).filter (fun i => decide (|(ys ++ [0] ++ List.replicate k (1 : ℚ)).getD i 0| ≤ eps)) ++
          [ys.length] := by
      rw [List.length_append, List.length_replicate, List.range_add, List.filter_append]
      have e2 : ((List.range k).map ((ys ++ [(0 : ℚ)]).length + ·)).filter
          (fun i => decide (|(ys ++ [0] ++ List.replicate k (1 : ℚ)).getD i 0| ≤ eps)) = [] := by
        rw [← hnil (ys ++ [(0 : ℚ)]).length]
        apply List.filter_congr
        intro i hi
        obtain ⟨j, hj, rfl⟩ := List.mem_map.1 hi
        simp only [List.getD_eq_getElem?_getD]
        rw [List.getElem?_append_right (by omega)]
      rw [e2, List.append_nil, List.length_append, List.length_singleton, List.range_succ, List.filter_append]
      congr 1
      rw [List.filter_cons_of_pos]
      · rfl
      · simp [List.getD_eq_getElem?_getD, h0.le]
    rw [e, List.getLast?_concat]
    simp

theorem sum_ones (k : Nat) : (List.replicate k (1 : ℚ)).sum = k := by simp

/-- The entries the code multiplies with the width. -/
theorem consec_window (xs : List ℚ) (k : Nat) (hx : xs ≠ []) :
    lastK xs.length (xs ++ List.replicate k 1) = (xs ++ List.replicate k 1).drop k := by
  unfold lastK
  rw [if_neg (by simpa using hx)]
  simp

theorem mul_sum_list (d : ℚ) (l : List ℚ) : (l.map (· * d)).sum = l.sum * d := by
  induction l with
  | nil => simp
  | cons a l ih => simp [ih, add_mul]

theorem zip_zeros : ∀ (zs ds : List ℚ), (∀ x ∈ zs, x = 0) → (List.zipWith (· * ·) zs ds).sum = 0
  | [], _, _ => by simp
  | _ :: _, [], _ => by simp
  | z :: zs, d :: ds, h => by
    simp [zip_zeros zs ds fun x hx => h x (by simp [hx]), h z (by simp)]

theorem zip_ones : ∀ (k : Nat) (ds : List ℚ), ds.length = k → (List.zipWith (· * ·) (List.replicate k 1) ds).sum = ds.sum
  | 0, [], _ => by simp
  | k + 1, d :: ds, h => by
    simp only [List.length_cons, Nat.add_right_cancel_iff] at h
    simp [List.replicate_succ, zip_ones k ds h]

theorem lastK_len {α} {k : Nat} {xs : List α} (hk : 0 < k) (h : k ≤ xs.length) : (lastK k xs).length = k := by
  unfold lastK
  rw [if_neg (by omega), List.length_drop]; omega

/-- The result of the code on a history written as `xs` followed by `k` ones, scalar width. -/
theorem consec_scalar {eps : ℚ} (h0 : 0 < eps) (h1 : eps < 1) (xs : List ℚ) (k : Nat) (d : ℚ)
    (hx : xs = [] ∨ ∃ ys, xs = ys ++ [0]) :
    getConsecutiveDuration eps (.v (xs ++ List.replicate k 1)) (.s d) =
      .ok ((if xs = [] then (k : ℚ) else if k ≤ xs.length then (xs.drop k).sum + k else xs.length) * d) := by
  simp only [getConsecutiveDuration]
  rw [lastDur_split h0 h1 xs k hx, mul_sum_list]
  congr 2
  by_cases hn : xs = []
  · subst hn
    simp only [if_true, List.nil_append]
    unfold lastK
    split <;> simp
  · rw [if_neg hn, if_neg hn, consec_window xs k hn]
    split
    · rename_i hk
      rw [List.drop_append_of_le_length hk, List.sum_append]; simp
    · rename_i hk
      rw [List.drop_append, List.drop_eq_nil_of_le (by omega)]
      simp only [List.nil_append, List.drop_replicate, List.sum_replicate, nsmul_eq_mul, mul_one]
      congr 1; omega

theorem consec_vector {eps : ℚ} (h0 : 0 < eps) (h1 : eps < 1) (xs : List ℚ) (k : Nat) (ds : List ℚ) {h : ℚ}
    (hx : xs = [] ∨ ∃ ys, xs = ys ++ [0]) (hk : xs = [] ∨ k ≤ xs.length ∧ ∀ x ∈ xs.drop k, x = 0)
    (hc : getConsecutiveDuration eps (.v (xs ++ List.replicate k 1)) (.v ds) = .ok h) :
    h = (ds.drop (ds.length - k)).sum := by
  simp only [getConsecutiveDuration] at hc
  rw [lastDur_split h0 h1 xs k hx] at hc
  by_cases hn : xs = []
  · subst hn
    simp only [if_true, List.nil_append] at hc
    split at hc
    · simp at hc
    · rename_i hl
      simp only [Except.ok.injEq] at hc
      subst hc
      by_cases hk0 : k = 0
      · subst hk0; simp [lastK]
      · have e1 : lastK k (List.replicate k (1 : ℚ)) = List.replicate k 1 := by
          unfold lastK; rw [if_neg hk0]; simp
        rw [e1, zip_ones k _ (lastK_len (by omega) (by omega))]
        unfold lastK; rw [if_neg hk0]
  · rw [if_neg hn] at hc
    obtain ⟨hk1, hk2⟩ := hk.resolve_left hn
    split at hc
    · simp at hc
    · rename_i hl
      simp only [Except.ok.injEq] at hc
      subst hc
      have hxl : 0 < xs.length := List.length_pos_iff.2 hn
      rw [consec_window xs k hn, List.drop_append_of_le_length hk1]
      have hll := lastK_len hxl (xs := ds) (by omega)
      have e : lastK xs.length ds = (lastK xs.length ds).take (xs.length - k) ++ (lastK xs.length ds).drop (xs.length - k) := by
        rw [List.take_append_drop]
      rw [e, List.zipWith_append (by simp [hll]), List.sum_append, zip_zeros _ _ hk2, zip_ones _ _ (by simp [hll]; omega),
        zero_add]
      congr 1
      unfold lastK
      rw [if_neg (by omega), List.drop_drop]
      congr 1; omega

/-! ## The state before the horizon -/

theorem anyRows_arrays : ∀ (rows : List (List ℚ)) (m : Nat), rows ≠ [] → (∀ r ∈ rows, r.length = m) →
    (∀ r ∈ rows, ∀ x ∈ r, x = 0 ∨ x = 1) →
    (anyRows rows).length = m ∧ ∀ i < m, ((anyRows rows).getD i 0 = 1 ↔ ∃ r ∈ rows, r.getD i 0 = 1)
  | [], _, h, _, _ => absurd rfl h
  | [r], m, _, h, _ => by simpa [anyRows] using h r (by simp)
  | r :: r' :: rs, m, _, h, hb => by
    obtain ⟨h1, h2⟩ := anyRows_arrays (r' :: rs) m (by simp) (fun x hx => h x (by simp [hx])) (fun x hx => hb x (by simp [hx]))
    have hr := h r (by simp)
    have hab := anyRows_bin (r' :: rs) fun x hx => hb x (by simp [hx])
    simp only [anyRows]
    refine ⟨by simp [hr, h1], fun i hi => ?_⟩
    have e : (List.zipWith (fun a b : ℚ => if a = 0 ∧ b = 0 then (0 : ℚ) else 1) r (anyRows (r' :: rs))).getD i 0 =
        if r.getD i 0 = 0 ∧ (anyRows (r' :: rs)).getD i 0 = 0 then 0 else 1 := by
      simp only [List.getD_eq_getElem?_getD, List.getElem?_zipWith]
      rw [List.getElem?_eq_getElem (by omega), List.getElem?_eq_getElem (by omega)]
      simp
    rw [e]
    have hri : r.getD i 0 = 0 ∨ r.getD i 0 = 1 := by
      rw [List.getD_eq_getElem?_getD, List.getElem?_eq_getElem (by omega)]
      exact hb r (by simp) _ (List.getElem_mem _)
    have hai : (anyRows (r' :: rs)).getD i 0 = 0 ∨ (anyRows (r' :: rs)).getD i 0 = 1 := by
      rw [List.getD_eq_getElem?_getD, List.getElem?_eq_getElem (by omega)]
      exact hab _ (List.getElem_mem _)
    rw [List.exists_mem_cons_iff, ← h2 i hi]
    rcases hri with h | h <;> rcases hai with h' | h' <;> rw [h, h'] <;> simp

end Flix
