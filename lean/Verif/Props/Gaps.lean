import Verif.Props.Time

/-!
# C114: the widths of selected steps
-/

namespace Flix

theorem sum_diffs_window (xs : List Int) (a : Nat) : ∀ k, a + k < xs.length → (((diffs xs).drop a).take k).sum = xs.getD (a + k) 0 - xs.getD a 0
  | 0, _ => by simp
  | k + 1, h => by
    rw [List.take_add_one, List.sum_append, sum_diffs_window xs a k (by omega), List.getElem?_drop, diffs_get (by omega)]
    simp only [Option.toList_some, List.sum_cons, List.sum_nil]
    rw [show a + k + 1 = a + (k + 1) by omega]
    ring

/-- The step after the `i`-th of the selected ones: the next one selected, or the end of the last one. -/
def nextStep (ks : List Nat) (i : Nat) : Nat := (ks[i + 1]?).getD ((ks[i]?).getD 0 + 1)

theorem nextStep_eq {ks : List Nat} {l : Nat} (hl : ks.getLast? = some l) {i : Nat} (hi : i < ks.length) :
    (ks ++ [l + 1])[i + 1]? = some (nextStep ks i) := by
  unfold nextStep
  by_cases h : i + 1 < ks.length
  · rw [List.getElem?_append_left h, List.getElem?_eq_getElem h]; rfl
  · have e : i + 1 = ks.length := by omega
    rw [List.getElem?_append_right (by omega), e, List.getElem?_eq_none (Nat.le_refl _)]
    rw [List.getLast?_eq_getElem?, ← e, Nat.add_sub_cancel] at hl
    rw [hl]
    simp

/-- **C114 (widths).**  The width of a selected step is the time up to the next selected one: the widths of all steps left out in between are added to it. -/
theorem C114_widths {ts : TArr} {last : Option LastStep} {prev : Option Num} {d : TimeData} (hd : TimeData.init ts last prev = .ok d)
    {ks : List Nat} (hks : ks.Pairwise (· < ·)) {t all : TimeSel} (h : d.select (some (natIdx ks)) = .ok t) (hall : d.select none = .ok all)
    {i k : Nat} (hi : ks[i]? = some k) :
    k < nextStep ks i ∧ nextStep ks i ≤ all.dt.length ∧ t.dt[i]? = some ((all.dt.drop k).take (nextStep ks i - k)).sum := by
  obtain ⟨e, w, _, _, _, htk, hend, hw, hsort, hne⟩ := init_ok hd
  rw [← htk] at hend
  obtain ⟨hin, l, hl, _, _, h2, _⟩ := (select_nat (idx := some (natIdx ks)) rfl hend hw).1 h
  obtain ⟨_, hw1, _⟩ := C40_all hd hall
  obtain ⟨_, e', w', _, _, _, hw', h1', h2', _⟩ := select_ok hall
  rw [hw] at hw'
  cases hw'
  rw [← h1', hw1] at h2'
  have hlen : d.withEnd.length = d.ticks.length + 1 := by rw [hend]; simp
  obtain ⟨hil, hik⟩ := List.getElem?_eq_some_iff.1 hi
  have hn := nextStep_eq hl hil
  have hb : k < nextStep ks i ∧ nextStep ks i ≤ d.ticks.length := by
    by_cases hlt : i + 1 < ks.length
    · have e1 : nextStep ks i = ks[i + 1] := by unfold nextStep; rw [List.getElem?_eq_getElem hlt]; rfl
      have := List.pairwise_iff_getElem.1 hks i (i + 1) hil hlt (by omega)
      have := hin _ (List.getElem_mem hlt)
      omega
    · have e1 : nextStep ks i = k + 1 := by unfold nextStep; rw [List.getElem?_eq_none (by omega), hi]; rfl
      have := hin k (hik ▸ List.getElem_mem hil)
      omega
  refine ⟨hb.1, by rw [h2', List.length_map, diffs_length]; omega, ?_⟩
  rw [h2, List.getElem?_map, diffs_get (by simp; omega), Option.map_some, h2', ← List.map_drop, ← List.map_take, sum_map_mul_cast,
    sum_diffs_window _ _ _ (by omega)]
  simp only [List.getD_eq_getElem?_getD, List.getElem?_map]
  rw [hn, List.getElem?_append_left hil, hi, show k + (nextStep ks i - k) = nextStep ks i by omega]
  rfl

/-- **C114 (partial).**  On an axis without repeated stamps exactly the selections of neighbouring steps leave every step its width.  Missing from the full
statement: other selections are accepted too (`C114_wrong`). -/
theorem C114_partial {ts : TArr} {last : Option LastStep} {prev : Option Num} {d : TimeData} (hd : TimeData.init ts last prev = .ok d)
    (hinc : d.withEnd.Pairwise (· < ·)) {ks : List Nat} (hks : ks.Pairwise (· < ·)) {t all : TimeSel}
    (h : d.select (some (natIdx ks)) = .ok t) (hall : d.select none = .ok all) :
    (∀ i k : Nat, ks[i]? = some k → t.dt[i]? = all.dt[k]?) ↔ ∀ i k k' : Nat, ks[i]? = some k → ks[i + 1]? = some k' → k' = k + 1 := by
  have hpos : ∀ x ∈ all.dt, 0 < x := by
    obtain ⟨e, w, _, _, _, htk, hend, hw, hsort, hne⟩ := init_ok hd
    obtain ⟨_, hw1, _⟩ := C40_all hd hall
    obtain ⟨_, e', w', _, _, _, hw', h1', h2', _⟩ := select_ok hall
    rw [← h1', hw1] at h2'
    rw [h2']
    intro x hx
    obtain ⟨k, hk, rfl⟩ := List.mem_map.1 hx
    have := (diffs_pos_iff _).2 hinc k hk
    have hwp := hours_pos hw'
    have : (0 : ℚ) < k := by exact_mod_cast this
    positivity
  constructor
  · intro hsame i k k' hi hi'
    obtain ⟨a, b, c⟩ := C114_widths hd hks h hall hi
    have e1 : nextStep ks i = k' := by unfold nextStep; rw [hi']; rfl
    rw [e1] at a b c
    rw [hsame i k hi, List.getElem?_eq_getElem (by omega)] at c
    by_contra hne
    have hm : ((all.dt.drop k).take (k' - k)) = all.dt[k] :: ((all.dt.drop (k + 1)).take (k' - k - 2 + 1)) := by
      rw [List.drop_eq_getElem_cons (by omega), show k' - k = (k' - k - 2 + 1) + 1 by omega, List.take_succ_cons, show k' - k - 2 + 1 + 1 - 2 = k' - k - 2 by omega]
    rw [hm, List.drop_eq_getElem_cons (show k + 1 < all.dt.length by omega), List.take_succ_cons] at c
    simp only [List.sum_cons, Option.some.injEq] at c
    have p1 := hpos _ (List.getElem_mem (show k + 1 < all.dt.length by omega))
    have p2 : 0 ≤ ((all.dt.drop (k + 1 + 1)).take (k' - k - 2)).sum :=
      List.sum_nonneg fun x hx => le_of_lt (hpos x (List.mem_of_mem_drop (List.mem_of_mem_take hx)))
    linarith
  · intro hn i k hi
    obtain ⟨a, b, c⟩ := C114_widths hd hks h hall hi
    have e1 : nextStep ks i = k + 1 := by
      unfold nextStep
      cases hi' : ks[i + 1]? with
      | none => rw [hi]; rfl
      | some k' => rw [hn i k k' hi hi']; rfl
    rw [c, e1, show k + 1 - k = 1 by omega, List.drop_eq_getElem_cons (by omega), List.take_succ_cons, List.take_zero,
      List.getElem?_eq_getElem (by omega)]
    simp

/-- **C114 fails** for the code: of four hourly steps the first, the third and the fourth are selected; the first is now two hours wide. -/
theorem C114_wrong : ∃ t all, exTime.select (some (natIdx [0, 2, 3])) = .ok t ∧ exTime.select none = .ok all ∧ t.dt[0]? = some 2 ∧ all.dt[0]? = some 1 :=
  ⟨⟨[0, 2, 3], [0, 2, 3, 4], [2, 1, 1], 4⟩, ⟨[0, 1, 2, 3], [0, 1, 2, 3, 4], [1, 1, 1, 1], 4⟩, by decide +kernel, by decide +kernel, rfl, rfl⟩

example : exTime.withEnd.Pairwise (· < ·) ∧ [1, 2].Pairwise (· < ·) ∧ ∃ t all, exTime.select (some (natIdx [1, 2])) = .ok t ∧ exTime.select none = .ok all :=
  ⟨by decide, by decide, ⟨[1, 2], [1, 2, 3], [1, 1], 2⟩, ⟨[0, 1, 2, 3], [0, 1, 2, 3, 4], [1, 1, 1, 1], 4⟩, by decide +kernel, by decide +kernel⟩

end Flix
