import Verif.Model.Time
import Verif.Lemmas.Collection
import Verif.Lemmas.Duration
import Mathlib.Algebra.BigOperators.Group.List.Basic
import Mathlib.Tactic.Ring
import Mathlib.Tactic.Linarith

/-!
# Lists of time stamps
-/

namespace Flix

theorem pyGetI_nat {α} {xs : List α} {k : Nat} {x : α} : pyGetI xs (k : Int) = .ok x ↔ xs[k]? = some x := by
  unfold pyGetI
  rw [if_neg (by omega)]
  simp only [Int.toNat_natCast]
  cases xs[k]? <;> simp

theorem pyGetI_neg {α} {xs : List α} {k : Nat} {x : α} (hk : 0 < k) :
    pyGetI xs (-(k : Int)) = .ok x ↔ k ≤ xs.length ∧ xs[xs.length - k]? = some x := by
  unfold pyGetI
  rw [if_pos (by omega)]
  by_cases h : k ≤ xs.length
  · rw [if_pos (by omega)]
    have : (-(k : Int) + xs.length).toNat = xs.length - k := by omega
    rw [this]
    cases hx : xs[xs.length - k]? <;> simp [h]
  · rw [if_neg (by omega)]
    simp [h]

theorem diffs_length (xs : List Int) : (diffs xs).length = xs.length - 1 := by
  unfold diffs
  simp

theorem diffs_get {xs : List Int} {i : Nat} (h : i + 1 < xs.length) :
    (diffs xs)[i]? = some (xs.getD (i + 1) 0 - xs.getD i 0) := by
  unfold diffs
  rw [List.getElem?_zipWith]
  rw [List.getElem?_eq_getElem (by omega), List.getElem?_tail, List.getElem?_eq_getElem h]
  simp [List.getD_eq_getElem?_getD, List.getElem?_eq_getElem h, List.getElem?_eq_getElem (show i < xs.length by omega)]

theorem diffs_cons (a b : Int) (xs : List Int) : diffs (a :: b :: xs) = (b - a) :: diffs (b :: xs) := by
  simp [diffs]

theorem diffs_sum (a : Int) (xs : List Int) (e : Int) : (diffs (a :: xs ++ [e])).sum = e - a := by
  induction xs generalizing a with
  | nil => simp [diffs]
  | cons b xs ih =>
    have := ih b
    simp only [List.cons_append] at this ⊢
    rw [diffs_cons, List.sum_cons, this]
    ring

theorem sum_map_mul_cast (xs : List Int) (w : ℚ) : (xs.map fun (k : Int) => (k : ℚ) * w).sum = (xs.sum : ℚ) * w := by
  induction xs with
  | nil => simp
  | cons a xs ih => simp only [List.map_cons, List.sum_cons, ih]; push_cast; ring

/-- No stamp before an earlier one. -/
theorem diffs_nonneg_iff (xs : List Int) : (∀ k ∈ diffs xs, 0 ≤ k) ↔ xs.Pairwise (· ≤ ·) := by
  induction xs with
  | nil => simp [diffs]
  | cons a xs ih =>
    cases xs with
    | nil => simp [diffs]
    | cons b xs =>
      rw [diffs_cons, List.forall_mem_cons, ih, List.pairwise_cons (l := b :: xs)]
      constructor
      · rintro ⟨h1, h2⟩
        refine ⟨?_, h2⟩
        intro c hc
        rcases List.mem_cons.1 hc with rfl | hc
        · omega
        · have := (List.pairwise_cons.1 h2).1 c hc
          omega
      · rintro ⟨h1, h2⟩
        exact ⟨by have := h1 b (by simp); omega, h2⟩

theorem diffs_pos_iff (xs : List Int) : (∀ k ∈ diffs xs, 0 < k) ↔ xs.Pairwise (· < ·) := by
  induction xs with
  | nil => simp [diffs]
  | cons a xs ih =>
    cases xs with
    | nil => simp [diffs]
    | cons b xs =>
      rw [diffs_cons, List.forall_mem_cons, ih, List.pairwise_cons (l := b :: xs)]
      constructor
      · rintro ⟨h1, h2⟩
        refine ⟨?_, h2⟩
        intro c hc
        rcases List.mem_cons.1 hc with rfl | hc
        · omega
        · have := (List.pairwise_cons.1 h2).1 c hc
          omega
      · rintro ⟨h1, h2⟩
        exact ⟨by have := h1 b (by simp); omega, h2⟩

theorem hours_pos {u : TUnit} {w : ℚ} (h : u.hours = .ok w) : 0 < w := by
  cases u <;> simp [TUnit.hours, TUnit.nanos] at h <;> subst h <;> norm_num

/-- What the constructor stores. -/
theorem init_ok {ts : TArr} {last : Option LastStep} {prev : Option Num} {d : TimeData} (h : TimeData.init ts last prev = .ok d) :
    ∃ e w, endTick ts.cast last = .ok e ∧ previousDt ts.cast prev = .ok d.prevDt ∧ d.unit = ts.cast.unit ∧ d.ticks = ts.cast.ticks ∧
      d.withEnd = ts.cast.ticks ++ [e] ∧ d.unit.hours = .ok w ∧ (d.withEnd).Pairwise (· ≤ ·) ∧ d.ticks ≠ [] := by
  unfold TimeData.init at h
  obtain ⟨e, he, h⟩ := bind_ok.1 h
  obtain ⟨p, hp, h⟩ := bind_ok.1 h
  obtain ⟨_, hc, h⟩ := bind_ok.1 h
  simp only [except_pure, Except.ok.injEq] at h
  subst h
  unfold checkTimeSeries at hc
  obtain ⟨w, hw, hc⟩ := bind_ok.1 hc
  refine ⟨e, w, he, hp, rfl, rfl, rfl, hw, ?_, ?_⟩
  · rw [← diffs_nonneg_iff]
    intro k hk
    by_contra hneg
    have : (diffs (ts.cast.ticks ++ [e])).any (· < 0) = true := List.any_eq_true.2 ⟨k, hk, by simpa using hneg⟩
    rw [if_pos this] at hc
    cases hc
  · intro hnil
    simp only at hnil
    have hfail : ∀ x, pyGetI ts.cast.ticks (-1) ≠ .ok x := by
      intro x hx
      have := (pyGetI_neg (k := 1) (by omega)).1 hx
      rw [hnil] at this
      simp at this
    unfold endTick at he
    split at he
    · obtain ⟨a, ha, _⟩ := bind_ok.1 he; exact hfail a ha
    · obtain ⟨a, ha, _⟩ := bind_ok.1 he; exact hfail a ha
    · obtain ⟨a, ha, _⟩ := bind_ok.1 he; exact hfail a ha

theorem select_ok {d : TimeData} {idx : Option (List Int)} {t : TimeSel} (h : d.select idx = .ok t) :
    ∃ last e w, List.Forall₂ (fun i x => pyGetI d.ticks i = .ok x) (d.indices idx) t.ticks ∧ pyGetI (d.indices idx) (-1) = .ok last ∧
      d.endTime last = .ok e ∧ d.unit.hours = .ok w ∧ t.withEnd = t.ticks ++ [e] ∧
      t.dt = (diffs (t.ticks ++ [e])).map (fun (k : Int) => (k : ℚ) * w) ∧ t.total = t.dt.sum := by
  unfold TimeData.select at h
  obtain ⟨ts, hts, h⟩ := bind_ok.1 h
  obtain ⟨last, hl, h⟩ := bind_ok.1 h
  obtain ⟨e, he, h⟩ := bind_ok.1 h
  obtain ⟨w, hw, h⟩ := bind_ok.1 h
  simp only [except_pure, Except.ok.injEq] at h
  subst h
  exact ⟨last, e, w, mapM_ok.1 hts, hl, he, hw, rfl, rfl, rfl⟩

/-- A selection by natural numbers. -/
def natIdx (ks : List Nat) : List Int := ks.map fun (k : Nat) => (k : Int)

theorem indices_none (d : TimeData) : d.indices none = natIdx (List.range d.ticks.length) := rfl

/-- A selection by existing indices gives the stamps at these indices, with the stamp after the last one as end. -/
theorem select_nat {d : TimeData} {ks : List Nat} {idx : Option (List Int)} (hidx : d.indices idx = natIdx ks) {e : Int} {w : ℚ}
    (hend : d.withEnd = d.ticks ++ [e]) (hw : d.unit.hours = .ok w) {t : TimeSel} :
    d.select idx = .ok t ↔ (∀ k ∈ ks, k < d.ticks.length) ∧ ∃ last, ks.getLast? = some last ∧
      t.ticks = ks.map (fun k => d.withEnd.getD k 0) ∧ t.withEnd = (ks ++ [last + 1]).map (fun k => d.withEnd.getD k 0) ∧
      t.dt = (diffs ((ks ++ [last + 1]).map (fun k => d.withEnd.getD k 0))).map (fun (k : Int) => (k : ℚ) * w) ∧ t.total = t.dt.sum := by
  have hW : ∀ k, k < d.ticks.length → ∀ x, (pyGetI d.ticks (k : Int) = .ok x ↔ x = d.withEnd.getD k 0) := by
    intro k hk x
    rw [pyGetI_nat, List.getElem?_eq_getElem hk]
    rw [hend, List.getD_eq_getElem?_getD, List.getElem?_append_left hk, List.getElem?_eq_getElem hk]
    simp [eq_comm]
  have hlast : ∀ last : Int, pyGetI (natIdx ks) (-1) = .ok last ↔ ∃ l : Nat, ks.getLast? = some l ∧ last = l := by
    intro last
    have h1 := pyGetI_neg (xs := natIdx ks) (k := 1) (x := last) (by omega)
    rw [show (-(1 : Nat) : Int) = -1 from rfl] at h1
    rw [h1]
    unfold natIdx
    rw [List.length_map, List.getElem?_map, List.getLast?_eq_getElem?]
    constructor
    · rintro ⟨_, h2⟩
      cases hg : ks[ks.length - 1]? with
      | none => rw [hg] at h2; simp at h2
      | some l => rw [hg] at h2; simp at h2; exact ⟨l, rfl, h2.symm⟩
    · rintro ⟨l, hl, rfl⟩
      have := (List.getElem?_eq_some_iff.1 hl).1
      exact ⟨by omega, by rw [hl]; rfl⟩
  have hendT : ∀ l : Nat, l < d.ticks.length → ∀ x, (d.endTime (l : Int) = .ok x ↔ x = d.withEnd.getD (l + 1) 0) := by
    intro l hl x
    have hlen : d.withEnd.length = d.ticks.length + 1 := by rw [hend]; simp
    unfold TimeData.endTime
    rw [if_pos (by omega)]
    have h1 := pyGetI_nat (xs := d.withEnd) (k := l + 1) (x := x)
    push_cast at h1
    rw [h1, List.getElem?_eq_getElem (show l + 1 < d.withEnd.length by omega), List.getD_eq_getElem?_getD,
      List.getElem?_eq_getElem (show l + 1 < d.withEnd.length by omega)]
    simp [eq_comm]
  constructor
  · intro h
    obtain ⟨last, e', w', hf, hl, he, hw', h1, h2, h3⟩ := select_ok h
    rw [hw] at hw'
    cases hw'
    rw [hidx] at hf hl
    obtain ⟨l, hl1, rfl⟩ := (hlast last).1 hl
    have hin : ∀ k ∈ ks, k < d.ticks.length := by
      intro k hk
      have hm : (k : Int) ∈ natIdx ks := List.mem_map_of_mem hk
      obtain ⟨x, _, hx⟩ := forall₂_mem_left hf hm
      rw [pyGetI_nat] at hx
      exact (List.getElem?_eq_some_iff.1 hx).1
    have hticks : t.ticks = ks.map (fun k => d.withEnd.getD k 0) := by
      have := hf
      unfold natIdx at this
      rw [List.forall₂_map_left_iff] at this
      clear hf hl h1 h2 h hidx hlast hl1
      generalize t.ticks = xs at this
      induction this with
      | nil => rfl
      | @cons k x ks xs hd _ ih =>
        rw [List.map_cons, ← ih (fun k hk => hin k (List.mem_cons_of_mem _ hk)), ← (hW k (hin k (by simp)) x).1 hd]
    have hll := hin l (List.mem_of_getLast? hl1)
    rw [hendT l hll] at he
    refine ⟨hin, l, hl1, hticks, ?_, ?_, h3⟩
    · rw [h1, hticks, he]; simp
    · rw [h2, hticks, he]; simp
  · rintro ⟨hin, l, hl1, hticks, h1, h2, h3⟩
    have hll := hin l (List.mem_of_getLast? hl1)
    have hm : (natIdx ks).mapM (pyGetI d.ticks) = .ok t.ticks := by
      rw [mapM_ok, hticks]
      unfold natIdx
      rw [List.forall₂_map_left_iff, List.forall₂_map_right_iff]
      exact List.forall₂_same.2 fun k hk => (hW k (hin k hk) _).2 rfl
    unfold TimeData.select
    rw [hidx, hm, (hlast l).2 ⟨l, hl1, rfl⟩]
    simp only [bind, Except.bind]
    rw [(hendT l hll _).2 rfl]
    simp only [hw]
    rw [except_pure]
    obtain ⟨a, b, c, q⟩ := t
    simp only at hticks h1 h2 h3 ⊢
    subst hticks h3 h2 h1
    simp

end Flix
