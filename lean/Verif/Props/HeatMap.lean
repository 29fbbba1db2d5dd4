import Verif.Lemmas.Calendar
import Verif.Lemmas.Core
import Verif.Spec.HeatMap
import Mathlib.Tactic.FieldSimp
import Mathlib.Data.Rat.Cast.Order

/-!
# C113: heat maps show every value at its time
-/

namespace Flix

/-! ## Labels -/

theorem chrono_formats {p : MapPeriod} {st : MapStep} {f : List Code × List Code} (hf : mapFormats p st = some f) :
    Chrono (fun i => f.1.map (Code.at (st.time i)) ++ f.2.map (Code.at (st.time i))) := by
  have dH : ∀ i, i * 60 / 1440 = i / 24 := fun i => by omega
  have hH : ∀ i, i * 60 / 60 % 24 = i % 24 := fun i => by omega
  have dD : ∀ i, i * 1440 / 1440 = i := fun i => by omega
  have mono15 : ∀ i i' : Nat, i < i' → i * 15 < i' * 15 := fun i i' h => by omega
  have dM : ∀ t, t / 60 / 24 = t / 1440 := fun t => by omega
  unfold mapFormats at hf
  split at hf <;> simp only [Option.some.injEq, reduceCtorEq] at hf <;> subst hf <;>
    simp only [List.map_cons, List.map_nil, List.cons_append, List.nil_append, Code.at, MapStep.time]
  · -- weeks of a year
    intro i i' hi
    have h := chrono_week (7 * i + 3) (7 * i' + 3) (by omega)
    simp only [dD]
    have e : ∀ i, weekday (7 * i + 3) = 0 := fun i => by unfold weekday; omega
    simp only [e, if_true] at h
    rcases h with h | ⟨h1, h | ⟨h2, h | ⟨_, h⟩⟩⟩
    · exact Or.inl h
    · exact Or.inr ⟨h1, Or.inl h⟩
    · omega
    · exact h.elim
  · simp only [dD]; exact chrono_day
  · simp only [dH, hH]; exact chrono_day.finer 24
  · simp only [dD]; exact chrono_month
  · simp only [dH, hH]; exact chrono_month.finer 24
  · simp only [dD]; exact chrono_week
  · simp only [dH, hH]; exact chrono_week.finer 24
  · simp only [dH, hH]; exact chrono_month.finer 24
  · have h := (((chrono_month.finer 24).finer 60).comp mono15)
    simp only [dM, List.cons_append, List.nil_append] at h
    exact h
  · have h := (((chrono_month.finer 24).finer 60).comp mono15)
    simp only [dM, List.cons_append, List.nil_append] at h
    exact h
  · have h := ((chrono_month.finer 24).finer 60)
    simp only [dM, List.cons_append, List.nil_append] at h
    exact h

/-! ## Sorting -/

theorem labelLe_total (a b : List Nat) : labelLe a b = true ∨ labelLe b a = true := by
  induction a generalizing b with
  | nil => exact Or.inl rfl
  | cons u us ih =>
    cases b with
    | nil => exact Or.inr rfl
    | cons v vs =>
      simp only [labelLe, Bool.or_eq_true, decide_eq_true_eq, Bool.and_eq_true, beq_iff_eq]
      rcases Nat.lt_trichotomy u v with h | h | h
      · exact Or.inl (Or.inl h)
      · rcases ih vs with g | g
        · exact Or.inl (Or.inr ⟨h, g⟩)
        · exact Or.inr (Or.inr ⟨h.symm, g⟩)
      · exact Or.inr (Or.inl h)

theorem labelLe_trans {a b c : List Nat} (h1 : labelLe a b = true) (h2 : labelLe b c = true) : labelLe a c = true := by
  induction a generalizing b c with
  | nil => rfl
  | cons u us ih =>
    cases b with
    | nil => cases h1
    | cons v vs =>
      cases c with
      | nil => cases h2
      | cons w ws =>
        simp only [labelLe, Bool.or_eq_true, decide_eq_true_eq, Bool.and_eq_true, beq_iff_eq] at h1 h2 ⊢
        rcases h1 with h1 | ⟨h1, g1⟩ <;> rcases h2 with h2 | ⟨h2, g2⟩
        · exact Or.inl (by omega)
        · exact Or.inl (by omega)
        · exact Or.inl (by omega)
        · exact Or.inr ⟨by omega, ih g1 g2⟩

theorem labelLe_not {a b : List Nat} (h : Precedes a b) : labelLe b a = false := by
  induction a generalizing b with
  | nil => cases h
  | cons u us ih =>
    cases b with
    | nil => cases h
    | cons v vs =>
      simp only [labelLe, Bool.or_eq_false_iff, decide_eq_false_iff_not, Bool.and_eq_false_iff, beq_eq_false_iff_ne]
      rcases h with h | ⟨h1, h2⟩
      · exact ⟨by omega, Or.inl (by omega)⟩
      · exact ⟨by omega, Or.inr (ih h2)⟩

theorem mapLabels_mem {ls : List (List Nat)} {l : List Nat} : l ∈ mapLabels ls ↔ l ∈ ls := by
  unfold mapLabels
  rw [List.mem_insertionSort, List.mem_dedup]

theorem mapLabels_sorted (ls : List (List Nat)) : (mapLabels ls).Pairwise (fun a b => labelLe a b = true) := by
  unfold mapLabels
  have : Std.Total (fun a b : List Nat => labelLe a b = true) := ⟨labelLe_total⟩
  have : IsTrans (List Nat) (fun a b : List Nat => labelLe a b = true) := ⟨fun _ _ _ => labelLe_trans⟩
  exact List.pairwise_insertionSort _ _

theorem position_lt {xs : List (List Nat)} (hs : xs.Pairwise (fun a b => labelLe a b = true)) {a b : List Nat} (ha : a ∈ xs) (hb : b ∈ xs) (h : Precedes a b) :
    xs.idxOf a < xs.idxOf b := by
  rcases Nat.lt_trichotomy (xs.idxOf a) (xs.idxOf b) with h1 | h1 | h1
  · exact h1
  · have := (List.idxOf_inj ha).1 h1
    subst this
    exact (Precedes.irrefl h).elim
  · have := List.pairwise_iff_getElem.1 hs _ _ (List.idxOf_lt_length_iff.2 hb) (List.idxOf_lt_length_iff.2 ha) h1
    rw [List.getElem_idxOf, List.getElem_idxOf, labelLe_not h] at this
    cases this

/-! ## Slots -/

theorem slot_iff (st : MapStep) (t i : Nat) : st.slot t = i ↔ st.Holds i t := by
  cases st <;> simp only [MapStep.slot, MapStep.Holds] <;> omega

theorem foldl_min (is : List Nat) (i : Nat) : is.foldl Nat.min i ∈ i :: is ∧ ∀ a ∈ i :: is, is.foldl Nat.min i ≤ a := by
  induction is generalizing i with
  | nil => simp
  | cons b bs ih =>
    obtain ⟨h1, h2⟩ := ih (Nat.min i b)
    have hm : Nat.min i b = i ∨ Nat.min i b = b := by
      show min i b = i ∨ min i b = b
      omega
    have l1 : Nat.min i b ≤ i := Nat.min_le_left i b
    have l2 : Nat.min i b ≤ b := Nat.min_le_right i b
    rw [List.foldl_cons]
    refine ⟨?_, fun a ha => ?_⟩
    · rcases List.mem_cons.1 h1 with h | h
      · rw [h]; rcases hm with e | e <;> rw [e] <;> simp
      · exact List.mem_cons_of_mem _ (List.mem_cons_of_mem _ h)
    · have h0 := h2 _ List.mem_cons_self
      rcases List.mem_cons.1 ha with rfl | ha
      · exact h0.trans l1
      · rcases List.mem_cons.1 ha with rfl | ha
        · exact h0.trans l2
        · exact h2 a (List.mem_cons_of_mem _ ha)

theorem foldl_max (is : List Nat) (i : Nat) : is.foldl Nat.max i ∈ i :: is ∧ ∀ a ∈ i :: is, a ≤ is.foldl Nat.max i := by
  induction is generalizing i with
  | nil => simp
  | cons b bs ih =>
    obtain ⟨h1, h2⟩ := ih (Nat.max i b)
    have hm : Nat.max i b = i ∨ Nat.max i b = b := by
      show max i b = i ∨ max i b = b
      omega
    have l1 : i ≤ Nat.max i b := Nat.le_max_left i b
    have l2 : b ≤ Nat.max i b := Nat.le_max_right i b
    rw [List.foldl_cons]
    refine ⟨?_, fun a ha => ?_⟩
    · rcases List.mem_cons.1 h1 with h | h
      · rw [h]; rcases hm with e | e <;> rw [e] <;> simp
      · exact List.mem_cons_of_mem _ (List.mem_cons_of_mem _ h)
    · have h0 := h2 _ List.mem_cons_self
      rcases List.mem_cons.1 ha with rfl | ha
      · exact l1.trans h0
      · rcases List.mem_cons.1 ha with rfl | ha
        · exact l2.trans h0
        · exact h2 a (List.mem_cons_of_mem _ ha)

/-- The slots are those from the first, which has data, to the last, which has data. -/
theorem slots_spec (st : MapStep) (df : List MapRow) : ∃ lo n, slots st df = List.range' lo n ∧ (∀ i, SlotOf st df i ↔ lo ≤ i ∧ i < lo + n) ∧
    (0 < n → (∃ r ∈ df, st.Holds lo r.time) ∧ (∃ r ∈ df, st.Holds (lo + n - 1) r.time)) := by
  unfold slots
  have hmem : ∀ i, i ∈ df.map (fun r => st.slot r.time) ↔ ∃ r ∈ df, st.Holds i r.time := by
    intro i
    rw [List.mem_map]
    exact ⟨fun ⟨r, hr, h⟩ => ⟨r, hr, (slot_iff _ _ _).1 h⟩, fun ⟨r, hr, h⟩ => ⟨r, hr, (slot_iff _ _ _).2 h⟩⟩
  split
  · rename_i h
    refine ⟨0, 0, rfl, fun i => ⟨?_, by omega⟩, by omega⟩
    rintro ⟨r, hr, _, _, a, _, ha, _⟩
    have := (hmem a).2 ⟨r, hr, ha⟩
    rw [h] at this; cases this
  · rename_i j js h
    obtain ⟨m1, m2⟩ := foldl_min js j
    obtain ⟨x1, x2⟩ := foldl_max js j
    rw [← h] at m1 m2 x1 x2
    have hle := m2 _ x1
    refine ⟨_, _, rfl, fun i => ⟨?_, ?_⟩, fun _ => ⟨(hmem _).1 m1, ?_⟩⟩
    · rintro ⟨r, hr, r', hr', a, b, ha, hb, h1, h2⟩
      have := m2 a ((hmem a).2 ⟨r, hr, ha⟩)
      have := x2 b ((hmem b).2 ⟨r', hr', hb⟩)
      omega
    · rintro ⟨h1, h2⟩
      obtain ⟨r, hr, ha⟩ := (hmem _).1 m1
      obtain ⟨r', hr', hb⟩ := (hmem _).1 x1
      exact ⟨r, hr, r', hr', _, _, ha, hb, h1, by omega⟩
    · have e : js.foldl Nat.min j + (js.foldl Nat.max j + 1 - js.foldl Nat.min j) - 1 = js.foldl Nat.max j := by omega
      rw [e]
      exact (hmem _).1 x1

theorem slotMean_spec (st : MapStep) (df : List MapRow) (i : Nat) :
    (∀ m, MeanOf st df i m → slotMean st df i = some m) ∧ (valuesIn st df i = [] → slotMean st df i = none) ∧ (valuesIn st df i ≠ [] → ∃ m, slotMean st df i = some m) := by
  have e : ((df.filter fun r => st.slot r.time = i).map fun r => r.values.headD 0) = valuesIn st df i := by
    unfold valuesIn
    congr 1
    refine List.filter_congr fun r _ => ?_
    simp only [slot_iff]
  unfold slotMean MeanOf
  rw [e]
  generalize valuesIn st df i = vs
  cases vs with
  | nil => exact ⟨fun m h => absurd rfl h.1, fun _ => rfl, fun h => absurd rfl h⟩
  | cons x xs =>
    refine ⟨fun m h => ?_, fun h => by simp at h, fun _ => ⟨_, rfl⟩⟩
    have h2 := h.2
    have hne : (((x :: xs).length : Nat) : ℚ) ≠ 0 := by
      have : 0 < (x :: xs).length := Nat.succ_pos _
      exact_mod_cast this.ne'
    show some _ = some m
    rw [← h2, mul_div_assoc, div_self hne, mul_one]

/-! ## Gaps -/

theorem ffill_length (l : Option ℚ) (xs : List (Option ℚ)) : (ffill l xs).length = xs.length := by
  induction xs generalizing l with
  | nil => rfl
  | cons x xs ih => cases x <;> simp [ffill, ih]

theorem ffill_at (l : Option ℚ) (xs : List (Option ℚ)) (k : Nat) :
    (∀ y, xs[k]? = some (some y) → (ffill l xs)[k]? = some (some y)) ∧
    (xs[k]? = some none → (ffill l xs)[k]? = (l :: ffill l xs)[k]?) := by
  induction xs generalizing l k with
  | nil => simp
  | cons x xs ih =>
    cases x with
    | none =>
      cases k with
      | zero => simp [ffill]
      | succ k => simpa [ffill] using ih l k
    | some y =>
      cases k with
      | zero => simp [ffill]
      | succ k =>
        have := ih (some y) k
        simpa [ffill] using this

theorem apply_length (f : MapFill) (xs : List (Option ℚ)) : (f.apply xs).length = xs.length := by
  cases f <;> simp [MapFill.apply, ffill_length]

theorem apply_value (f : MapFill) (xs : List (Option ℚ)) (k : Nat) (y : ℚ) (h : xs[k]? = some (some y)) : (f.apply xs)[k]? = some (some y) := by
  cases f with
  | none => exact h
  | ffill => exact (ffill_at _ _ _).1 y h
  | bfill =>
    have hk : k < xs.length := (List.getElem?_eq_some_iff.1 h).1
    unfold MapFill.apply
    rw [List.getElem?_reverse (by rw [ffill_length, List.length_reverse]; exact hk), ffill_length, List.length_reverse]
    refine (ffill_at _ _ _).1 y ?_
    rw [List.getElem?_reverse (by omega), show xs.length - 1 - (xs.length - 1 - k) = k by omega]
    exact h

theorem apply_gap (xs : List (Option ℚ)) (k : Nat) (h : xs[k]? = some none) :
    (MapFill.none.apply xs)[k]? = some none ∧ (0 < k → (MapFill.ffill.apply xs)[k]? = (MapFill.ffill.apply xs)[k - 1]?) ∧
    (k + 1 < xs.length → (MapFill.bfill.apply xs)[k]? = (MapFill.bfill.apply xs)[k + 1]?) := by
  refine ⟨h, fun hk => ?_, fun hk => ?_⟩
  · have := (ffill_at none xs k).2 h
    obtain ⟨j, rfl⟩ : ∃ j, k = j + 1 := ⟨k - 1, by omega⟩
    simpa [MapFill.apply] using this
  · unfold MapFill.apply
    have hl : (ffill none xs.reverse).length = xs.length := by rw [ffill_length, List.length_reverse]
    rw [List.getElem?_reverse (by omega), List.getElem?_reverse (by omega), hl]
    have := (ffill_at none xs.reverse (xs.length - 1 - k)).2 (by
      rw [List.getElem?_reverse (by omega), show xs.length - 1 - (xs.length - 1 - k) = k by omega]; exact h)
    rw [this, show xs.length - 1 - k = (xs.length - 1 - (k + 1)) + 1 by omega, List.getElem?_cons_succ]

/-! ## The table -/

theorem find_entry {es : List MapEntry} (hn : (es.map fun e => (e.1, e.2.1)).Nodup) {e : MapEntry} (he : e ∈ es) :
    (es.find? fun x => x.1 = e.1 ∧ x.2.1 = e.2.1) = some e := by
  induction es with
  | nil => cases he
  | cons a as ih =>
    rw [List.map_cons, List.nodup_cons] at hn
    rw [List.find?_cons]
    rcases List.mem_cons.1 he with rfl | he
    · simp
    · have : ¬ (a.1 = e.1 ∧ a.2.1 = e.2.1) := by
        rintro ⟨h1, h2⟩
        exact hn.1 (List.mem_map.2 ⟨e, he, by rw [h1, h2]⟩)
      simp only [this, decide_false]
      exact ih hn.2 he

theorem pivot_cell {es : List MapEntry} {h : HeatMap} (hp : pivot es = .ok h) (r c : Nat) :
    (∀ e ∈ es, h.rows.idxOf e.2.1 = r → h.cols.idxOf e.1 = c → h.rows[r]? = some e.2.1 ∧ h.cols[c]? = some e.1 ∧ h.cell r c = e.2.2) ∧
    (h.cell r c ≠ none → ∃ e ∈ es, h.rows.idxOf e.2.1 = r ∧ h.cols.idxOf e.1 = c) := by
  unfold pivot at hp
  split_ifs at hp with hn
  simp only [Except.ok.injEq] at hp
  subst hp
  dsimp only [HeatMap.cell]
  constructor
  · intro e he hr hc
    have m1 : e.2.1 ∈ mapLabels (es.map (·.2.1)) := mapLabels_mem.2 (List.mem_map_of_mem he)
    have m2 : e.1 ∈ mapLabels (es.map (·.1)) := mapLabels_mem.2 (List.mem_map_of_mem he)
    have g1 : (mapLabels (es.map (·.2.1)))[r]? = some e.2.1 := by
      rw [← hr, List.getElem?_eq_getElem (List.idxOf_lt_length_iff.2 m1), List.getElem_idxOf]
    have g2 : (mapLabels (es.map (·.1)))[c]? = some e.1 := by
      rw [← hc, List.getElem?_eq_getElem (List.idxOf_lt_length_iff.2 m2), List.getElem_idxOf]
    refine ⟨g1, g2, ?_⟩
    rw [List.getElem?_map, g1, Option.map_some, Option.bind_some, List.getElem?_map, g2, Option.map_some, Option.join_some, find_entry hn he]
    rfl
  · intro hne
    rw [List.getElem?_map] at hne
    cases g1 : (mapLabels (es.map (·.2.1)))[r]? with
    | none => rw [g1] at hne; simp at hne
    | some a =>
      rw [g1, Option.map_some, Option.bind_some, List.getElem?_map] at hne
      cases g2 : (mapLabels (es.map (·.1)))[c]? with
      | none => rw [g2] at hne; simp at hne
      | some b =>
        rw [g2, Option.map_some, Option.join_some] at hne
        cases hf : es.find? (fun e => e.1 = b ∧ e.2.1 = a) with
        | none => rw [hf] at hne; simp at hne
        | some e =>
          have hs := List.find?_some hf
          simp only [decide_eq_true_eq] at hs
          obtain ⟨e1, e2⟩ := hs
          obtain ⟨l1, v1⟩ := List.getElem?_eq_some_iff.1 g1
          obtain ⟨l2, v2⟩ := List.getElem?_eq_some_iff.1 g2
          have nd : ∀ ls, (mapLabels ls).Nodup := fun ls => (List.perm_insertionSort _ _).nodup_iff.2 (List.nodup_dedup ls)
          refine ⟨e, List.mem_of_find?_eq_some hf, ?_, ?_⟩
          · rw [e2, ← v1]; exact (nd _).idxOf_getElem r l1
          · rw [e1, ← v2]; exact (nd _).idxOf_getElem c l2

/-- **C113.**  For every frame, every documented combination of periods and steps and every way of filling, the heat map can be made.  Every slot between the first
and the last time has a place of its own, in the row and the column with the labels of its time; columns run with the time, and so do the rows of a column.
The place shows the mean of the values of the slot; if there are none, nothing, or what the place of the slot before it (`ffill`) or behind it (`bfill`)
shows.  All other places are empty. -/
theorem C113 (df : List MapRow) {p : MapPeriod} {st : MapStep} {f : List Code × List Code} (hf : mapFormats p st = some f) (fill : MapFill) :
    ∃ (h : HeatMap) (row col : Nat → Nat), heatMapData df p st fill = .ok h ∧
      (∀ i, SlotOf st df i → h.rows[row i]? = some (f.2.map (Code.at (st.time i))) ∧ h.cols[col i]? = some (f.1.map (Code.at (st.time i))) ∧
        (∀ m, MeanOf st df i m → h.cell (row i) (col i) = some m) ∧
        (valuesIn st df i = [] → (fill = .none → h.cell (row i) (col i) = none) ∧
          (fill = .ffill → ∃ j, j + 1 = i ∧ SlotOf st df j ∧ h.cell (row i) (col i) = h.cell (row j) (col j)) ∧
          (fill = .bfill → SlotOf st df (i + 1) ∧ h.cell (row i) (col i) = h.cell (row (i + 1)) (col (i + 1))))) ∧
      (∀ i i', SlotOf st df i → SlotOf st df i' → i < i' → col i < col i' ∨ (col i = col i' ∧ row i < row i')) ∧
      (∀ r c, h.cell r c ≠ none → ∃ i, SlotOf st df i ∧ row i = r ∧ col i = c) := by
  obtain ⟨lo, n, hs, hslot, hends⟩ := slots_spec st df
  have hch := chrono_formats hf
  -- the entries
  obtain ⟨P, hP⟩ : ∃ P : Nat → List Nat, P = fun i => f.1.map (Code.at (st.time i)) := ⟨_, rfl⟩
  obtain ⟨Q, hQ⟩ : ∃ Q : Nat → List Nat, Q = fun i => f.2.map (Code.at (st.time i)) := ⟨_, rfl⟩
  obtain ⟨V, hV⟩ : ∃ V, V = fill.apply ((slots st df).map (slotMean st df)) := ⟨_, rfl⟩
  have hVl : V.length = n := by rw [hV, apply_length, List.length_map, hs, List.length_range']
  obtain ⟨val, hval⟩ : ∃ val : Nat → Option ℚ, val = fun i => (V[i - lo]?).join := ⟨_, rfl⟩
  have hes : mapEntries df st fill f = (List.range' lo n).map fun i => (P i, Q i, val i) := by
    unfold mapEntries
    rw [← hV, hs]
    refine List.ext_getElem (by simp [hVl]) fun k h1 h2 => ?_
    have hk : k < n := by simpa using h2
    simp only [List.getElem_zipWith, List.getElem_map, List.getElem_range', hP, hQ, hval]
    rw [show lo + 1 * k - lo = k by omega, List.getElem?_eq_getElem (by omega)]
    rfl
  have hmem : ∀ e, e ∈ mapEntries df st fill f ↔ ∃ i, SlotOf st df i ∧ e = (P i, Q i, val i) := by
    intro e
    rw [hes, List.mem_map]
    constructor
    · rintro ⟨i, hi, rfl⟩
      exact ⟨i, (hslot i).2 (by simpa using List.mem_range'_1.1 hi), rfl⟩
    · rintro ⟨i, hi, rfl⟩
      exact ⟨i, List.mem_range'_1.2 ((hslot i).1 hi), rfl⟩
  have hord : ∀ i i', i < i' → Precedes (P i) (P i') ∨ (P i = P i' ∧ Precedes (Q i) (Q i')) := by
    intro i i' hi
    have := hch i i' hi
    rw [hP, hQ]
    exact precedes_split (by simp) this
  have hinj : ∀ i i', P i = P i' → Q i = Q i' → i = i' := by
    intro i i' h1 h2
    rcases Nat.lt_trichotomy i i' with h | h | h
    · rcases hord i i' h with g | ⟨_, g⟩
      · rw [h1] at g; exact (Precedes.irrefl g).elim
      · rw [h2] at g; exact (Precedes.irrefl g).elim
    · exact h
    · rcases hord i' i h with g | ⟨_, g⟩
      · rw [h1] at g; exact (Precedes.irrefl g).elim
      · rw [h2] at g; exact (Precedes.irrefl g).elim
  have hnod : ((mapEntries df st fill f).map fun e => (e.1, e.2.1)).Nodup := by
    rw [hes, List.map_map]
    refine List.Nodup.map_on ?_ (List.nodup_range' (step := 1))
    intro a _ b _ h
    simp only [Function.comp, Prod.mk.injEq] at h
    exact hinj a b h.1 h.2
  have hpv : ∃ h, pivot (mapEntries df st fill f) = .ok h ∧ h.rows = mapLabels ((mapEntries df st fill f).map (·.2.1)) ∧
      h.cols = mapLabels ((mapEntries df st fill f).map (·.1)) := by
    unfold pivot
    rw [if_pos hnod]
    exact ⟨_, rfl, rfl, rfl⟩
  obtain ⟨h, hp, hrows, hcols⟩ := hpv
  have hcell : ∀ i, SlotOf st df i → h.rows[h.rows.idxOf (Q i)]? = some (Q i) ∧ h.cols[h.cols.idxOf (P i)]? = some (P i) ∧
      h.cell (h.rows.idxOf (Q i)) (h.cols.idxOf (P i)) = val i :=
    fun i hi => (pivot_cell hp _ _).1 (P i, Q i, val i) ((hmem _).2 ⟨i, hi, rfl⟩) rfl rfl
  have hraw : ∀ i, SlotOf st df i → ((slots st df).map (slotMean st df))[i - lo]? = some (slotMean st df i) := by
    intro i hi
    obtain ⟨a, b⟩ := (hslot i).1 hi
    rw [hs, List.getElem?_map, List.getElem?_range' (by omega), Option.map_some, show lo + 1 * (i - lo) = i by omega]
  refine ⟨h, fun i => h.rows.idxOf (Q i), fun i => h.cols.idxOf (P i), by unfold heatMapData; rw [hf]; exact hp, fun i hi => ?_, fun i i' hi hi' hlt => ?_, fun r c hne => ?_⟩
  · obtain ⟨c1, c2, c3⟩ := hcell i hi
    obtain ⟨s1, s2, s3⟩ := slotMean_spec st df i
    have hr := hraw i hi
    obtain ⟨a, b⟩ := (hslot i).1 hi
    obtain ⟨⟨r1, hr1, hh1⟩, ⟨r2, hr2, hh2⟩⟩ := hends (by omega)
    have hin : ∀ j r, r ∈ df → st.Holds j r.time → valuesIn st df j ≠ [] := by
      intro j r hr hh
      unfold valuesIn
      exact List.ne_nil_of_mem (List.mem_map_of_mem (List.mem_filter.2 ⟨hr, by simpa using hh⟩))
    refine ⟨by rw [c1, hQ], by rw [c2, hP], fun m hm => ?_, fun hv => ?_⟩
    · rw [c3, hval]
      rw [s1 m hm] at hr
      have := apply_value fill _ _ m hr
      rw [← hV] at this
      show (V[i - lo]?).join = some m
      rw [this]; rfl
    · rw [s2 hv] at hr
      have hlo : lo < i := by
        rcases Nat.lt_or_ge lo i with h | h
        · exact h
        · exact absurd hv (by rw [show i = lo by omega]; exact hin _ _ hr1 hh1)
      have hhi : i + 1 < lo + n := by
        rcases Nat.lt_or_ge (i + 1) (lo + n) with h | h
        · exact h
        · exact absurd hv (by rw [show i = lo + n - 1 by omega]; exact hin _ _ hr2 hh2)
      refine ⟨fun e => ?_, fun e => ?_, fun e => ?_⟩
      · subst e
        have := (apply_gap _ _ hr).1
        rw [← hV] at this
        rw [c3, hval]; show (V[i - lo]?).join = none
        rw [this]; rfl
      · subst e
        have := (apply_gap _ _ hr).2.1 (by omega)
        rw [← hV] at this
        have hj : SlotOf st df (i - 1) := (hslot _).2 (by omega)
        refine ⟨i - 1, by omega, hj, ?_⟩
        rw [c3, (hcell _ hj).2.2, hval]
        show (V[i - lo]?).join = (V[i - 1 - lo]?).join
        rw [this, show i - lo - 1 = i - 1 - lo by omega]
      · subst e
        have := (apply_gap _ _ hr).2.2 (by rw [List.length_map, hs, List.length_range']; omega)
        rw [← hV] at this
        have hj : SlotOf st df (i + 1) := (hslot _).2 (by omega)
        refine ⟨hj, ?_⟩
        rw [c3, (hcell _ hj).2.2, hval]
        show (V[i - lo]?).join = (V[i + 1 - lo]?).join
        rw [this, show i - lo + 1 = i + 1 - lo by omega]
  · have mP : ∀ i, SlotOf st df i → P i ∈ h.cols := fun i hi => by
      rw [hcols]; exact mapLabels_mem.2 (List.mem_map.2 ⟨_, (hmem _).2 ⟨i, hi, rfl⟩, rfl⟩)
    have mQ : ∀ i, SlotOf st df i → Q i ∈ h.rows := fun i hi => by
      rw [hrows]; exact mapLabels_mem.2 (List.mem_map.2 ⟨_, (hmem _).2 ⟨i, hi, rfl⟩, rfl⟩)
    rcases hord i i' hlt with g | ⟨g1, g2⟩
    · left; exact position_lt (by rw [hcols]; exact mapLabels_sorted _) (mP i hi) (mP i' hi') g
    · right
      exact ⟨by show h.cols.idxOf (P i) = h.cols.idxOf (P i'); rw [g1], position_lt (by rw [hrows]; exact mapLabels_sorted _) (mQ i hi) (mQ i' hi') g2⟩
  · obtain ⟨e, he, e1, e2⟩ := (pivot_cell hp r c).2 hne
    obtain ⟨i, hi, rfl⟩ := (hmem e).1 he
    exact ⟨i, hi, e1, e2⟩

/-- **C113 (labels).**  The labels are those of the Gregorian calendar: year, month and day as counted from 1970-01-01, the number of Mondays of the year
so far, the day of the week from Monday, hour and minute. -/
theorem C113_labels (t : Nat) : Day (t / 1440) (Code.at t .Y) (Code.at t .m) (Code.at t .d) ∧
    (∃ k, k + Code.at t .j = t / 1440 + 1 ∧ Day k (Code.at t .Y) 1 1 ∧
      Code.at t .W = ((List.range (Code.at t .j)).filter fun i => (k + i) % 7 = 4).length) ∧
    (t / 1440 + 4) % 7 = Code.at t .w % 7 ∧ 1 ≤ Code.at t .w ∧ Code.at t .w ≤ 7 ∧
    t = t / 1440 * 1440 + Code.at t .H * 60 + Code.at t .M ∧ Code.at t .H < 24 ∧ Code.at t .M < 60 := by
  refine ⟨day_spec _, ⟨t / 1440 - (yearOf (t / 1440)).2, ?_, ?_, week_spec _⟩, ?_, ?_, ?_, ?_, ?_, ?_⟩
  · have hle : (yearOf (t / 1440)).2 ≤ t / 1440 := by obtain ⟨n, _, h2, _⟩ := yearOf_spec (t / 1440); omega
    show t / 1440 - (yearOf (t / 1440)).2 + ((yearOf (t / 1440)).2 + 1) = t / 1440 + 1
    omega
  · obtain ⟨n, h1, h2, h3⟩ := yearOf_spec (t / 1440)
    have hp := yearDays_ge (1970 + n)
    have e : yearOf (t / 1440 - (yearOf (t / 1440)).2) = (1970 + n, 0) := yearOf_unique (n := n) (by omega) (by omega)
    have := day_spec (t / 1440 - (yearOf (t / 1440)).2)
    have em : monthOf (t / 1440 - (yearOf (t / 1440)).2) = (1, 1) := by unfold monthOf; rw [e]; rfl
    rw [em, e] at this
    show Day _ (yearOf (t / 1440)).1 1 1
    rw [h1]; exact this
  · show _ = (if (t / 1440 + 4) % 7 = 0 then 7 else (t / 1440 + 4) % 7) % 7
    by_cases h : (t / 1440 + 4) % 7 = 0
    · rw [if_pos h, h]
    · rw [if_neg h, Nat.mod_mod]
  · show 1 ≤ (if (t / 1440 + 4) % 7 = 0 then 7 else (t / 1440 + 4) % 7)
    by_cases h : (t / 1440 + 4) % 7 = 0
    · rw [if_pos h]; omega
    · rw [if_neg h]; omega
  · show (if (t / 1440 + 4) % 7 = 0 then 7 else (t / 1440 + 4) % 7) ≤ 7
    by_cases h : (t / 1440 + 4) % 7 = 0
    · rw [if_pos h]
    · rw [if_neg h]; omega
  all_goals simp only [Code.at]; omega

/-- Only the first column is shown: whatever the values in all others, the heat map is the same. -/
theorem C113_columns_wrong (df df' : List MapRow) (h : List.Forall₂ (fun r r' => r.time = r'.time ∧ r.values.head? = r'.values.head?) df df')
    (p : MapPeriod) (st : MapStep) (fill : MapFill) : heatMapData df p st fill = heatMapData df' p st fill := by
  have ht : df.map (fun r => st.slot r.time) = df'.map (fun r => st.slot r.time) := by
    induction h with
    | nil => rfl
    | cons h _ ih => rw [List.map_cons, List.map_cons, ih, h.1]
  have hm : ∀ i, ((df.filter fun r => st.slot r.time = i).map fun r => r.values.headD 0) = ((df'.filter fun r => st.slot r.time = i).map fun r => r.values.headD 0) := by
    intro i
    clear ht
    induction h with
    | nil => rfl
    | @cons a b as bs h _ ih =>
      obtain ⟨h1, h2⟩ := h
      rw [List.filter_cons, List.filter_cons, h1]
      have : a.values.headD 0 = b.values.headD 0 := by rw [List.headD_eq_head?_getD, List.headD_eq_head?_getD, h2]
      split
      · rw [List.map_cons, List.map_cons, ih, this]
      · exact ih
  have hs : slots st df = slots st df' := by unfold slots; rw [ht]
  have hv : slotMean st df = slotMean st df' := by funext i; unfold slotMean; rw [hm i]
  unfold heatMapData mapEntries
  rw [hs, hv]

/-- A combination without a format is an error. -/
theorem C113_invalid (df : List MapRow) {p : MapPeriod} {st : MapStep} (h : mapFormats p st = none) (fill : MapFill) :
    heatMapData df p st fill = .error .assertion := by
  unfold heatMapData
  rw [h]

/-! ## Cases -/

/-- Two days by hours, from 2024-02-28 22:00 on, with a gap of three hours; two values in the first hour. -/
def exMapRows : List MapRow :=
  [⟨28485960, [4, 9]⟩, ⟨28485990, [6, 9]⟩, ⟨28486020, [7, 9]⟩, ⟨28486260, [1, 9]⟩]

example : mapFormats .D .h = some ([.Y, .m, .d], [.H]) ∧ SlotOf .h exMapRows 474766 ∧ SlotOf .h exMapRows 474771 ∧
    MeanOf .h exMapRows 474766 5 ∧ valuesIn .h exMapRows 474769 = [] :=
  ⟨rfl, ⟨⟨28485960, [4, 9]⟩, by simp [exMapRows], ⟨28485960, [4, 9]⟩, by simp [exMapRows], 474766, 474766, by decide +kernel⟩,
    ⟨⟨28486260, [1, 9]⟩, by simp [exMapRows], ⟨28486260, [1, 9]⟩, by simp [exMapRows], 474771, 474771, by decide +kernel⟩,
    ⟨by decide +kernel, by decide +kernel⟩, by decide +kernel⟩

example : heatMapData exMapRows .D .h .none = .ok
    ⟨[[0], [1], [2], [3], [22], [23]], [[2024, 2, 28], [2024, 2, 29]],
      [[none, none], [none, none], [none, none], [none, some 1], [some 5, none], [some 7, none]]⟩ := by decide +kernel

example : mapFormats .D .W = none := rfl

end Flix
