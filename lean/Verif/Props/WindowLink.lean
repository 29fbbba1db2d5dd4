import Verif.Props.WindowTrace
import Verif.Model.Series
import Verif.Lemmas.Time

/-!
# The data of a segment are what the code selects

`Sys.window` and `Num.window` are what `get_time_data_from_indices` and `active_data` give for the indices of a segment.
-/

namespace Flix

/-- Indexing with a range of neighbours cuts a piece out. -/
theorem mapM_range {α} {xs : List α} {a k : Nat} (h : a + k ≤ xs.length) :
    (pyRange (a : Int) ((a + k : Nat) : Int)).mapM (pyGetI xs) = .ok ((xs.drop a).take k) := by
  rw [mapM_ok, List.forall₂_iff_get]
  have hl : (pyRange (a : Int) ((a + k : Nat) : Int)).length = k := by rw [pyRange_length]; push_cast; omega
  refine ⟨by rw [hl]; simp; omega, fun i h1 h2 => ?_⟩
  have hi : i < k := by omega
  have e : (pyRange (a : Int) ((a + k : Nat) : Int)).get ⟨i, h1⟩ = ((a + i : Nat) : Int) := by
    have := pyRange_get (a := (a : Int)) (b := ((a + k : Nat) : Int)) (k := i) (by push_cast; omega)
    rw [List.getElem?_eq_getElem h1] at this
    simpa using this
  rw [e, pyGetI_nat]
  simp

/-- **C87, data of a segment.**  `active_data` of a series with a value for every step (or a scalar) is what the segment's model sees. -/
theorem C87_series {x : Num} {n a k : Nat} (hx : x.Fits n) (h : a + k ≤ n) :
    TSObj.ownData { data := x, active := some (pyRange (a : Int) ((a + k : Nat) : Int)) } = .ok (x.window a k) := by
  cases x with
  | s x => rfl
  | v xs =>
    have hn : xs.length = n := by
      rcases hx with h | h
      · cases h
      · exact h
    unfold TSObj.ownData npTake
    simp only
    rw [mapM_range (by omega)]
    rfl

theorem diffs_window (xs : List Int) (a k : Nat) : diffs ((xs.drop a).take (k + 1)) = ((diffs xs).drop a).take k := by
  unfold diffs
  rw [List.drop_zipWith, List.take_zipWith]
  apply List.ext_getElem?
  intro i
  simp only [List.getElem?_zipWith, List.getElem?_take, List.getElem?_drop, List.getElem?_tail]
  by_cases h1 : i < k
  · simp [h1, Nat.lt_succ_of_lt h1, show a + (i + 1) = a + i + 1 by omega]
  · by_cases h2 : i < k + 1
    · simp [h1, h2, show ¬ i + 1 < k + 1 by omega]
    · simp [h1, h2]

/-- What is selected by the indices of neighbouring steps. -/
theorem select_window {d : TimeData} {e : Int} {w : ℚ} {a k : Nat} (hd : d.withEnd = d.ticks ++ [e]) (hw : d.unit.hours = .ok w) (hk : k ≠ 0)
    (h : a + k ≤ d.ticks.length) : d.select (some (pyRange (a : Int) ((a + k : Nat) : Int))) = .ok
      { ticks := (d.ticks.drop a).take k, withEnd := (d.withEnd.drop a).take (k + 1),
        dt := (((diffs d.withEnd).map fun (j : Int) => (j : ℚ) * w).drop a).take k,
        total := ((((diffs d.withEnd).map fun (j : Int) => (j : ℚ) * w).drop a).take k).sum } := by
  unfold TimeData.select
  rw [show d.indices (some (pyRange (a : Int) ((a + k : Nat) : Int))) = pyRange (a : Int) ((a + k : Nat) : Int) from rfl, mapM_range h, ok_bind]
  have hlen : (pyRange (a : Int) ((a + k : Nat) : Int)).length = k := by rw [pyRange_length]; push_cast; omega
  have hlast : pyGetI (pyRange (a : Int) ((a + k : Nat) : Int)) (-1) = .ok ((a + k - 1 : Nat) : Int) := by
    refine (pyGetI_neg (k := 1) (by omega)).2 ⟨by omega, ?_⟩
    rw [hlen, pyRange_get (by push_cast; omega)]
    congr 1
    omega
  rw [hlast, ok_bind]
  have hwl : d.withEnd.length = d.ticks.length + 1 := by rw [hd]; simp
  have hlt : a + k < d.withEnd.length := by omega
  have hend : d.endTime ((a + k - 1 : Nat) : Int) = .ok d.withEnd[a + k] := by
    unfold TimeData.endTime
    rw [if_pos (by omega), show ((a + k - 1 : Nat) : Int) + 1 = ((a + k : Nat) : Int) by omega, pyGetI_nat]
    exact List.getElem?_eq_getElem hlt
  rw [hend, ok_bind, hw, ok_bind]
  have hts : (d.ticks.drop a).take k ++ [d.withEnd[a + k]] = (d.withEnd.drop a).take (k + 1) := by
    rw [List.take_add_one, List.getElem?_drop, List.getElem?_eq_getElem hlt]
    congr 1
    rw [hd, List.drop_append_of_le_length (by omega), List.take_append_of_le_length (by simp; omega)]
  simp only [hts, diffs_window, ← List.map_drop, ← List.map_take]
  rfl

/-- **C87, time of a segment.**  The time data selected for the indices of a segment are those of the whole horizon, cut to its steps. -/
theorem C87_time {ts : TArr} {last : Option LastStep} {prev : Option Num} {d : TimeData} {cfg : Cfg} {sys : Sys} {a k : Nat}
    (hd : TimeData.init ts last prev = .ok d) (hs : d.sys cfg none = .ok sys) (hk : k ≠ 0) (h : a + k ≤ sys.n) :
    d.sys cfg (some (pyRange (a : Int) ((a + k : Nat) : Int))) = .ok (sys.window a k) := by
  obtain ⟨e, hwe⟩ : ∃ e, d.withEnd = d.ticks ++ [e] := by
    unfold TimeData.init at hd
    peel hd with e, he
    peel hd with p, hp
    peel hd with u, hu
    cases hd
    exact ⟨e, rfl⟩
  unfold TimeData.sys at hs ⊢
  peel hs with sel, hsel
  cases hs
  obtain ⟨w, hw⟩ : ∃ w, d.unit.hours = .ok w := by
    unfold TimeData.select at hsel
    peel hsel with ys, hys
    peel hsel with l, hl
    peel hsel with e', he'
    peel hsel with w, hw
    exact ⟨w, hw⟩
  have hall : d.select none = d.select (some (pyRange ((0 : Nat) : Int) ((0 + d.ticks.length : Nat) : Int))) := by
    unfold TimeData.select
    have : d.indices none = d.indices (some (pyRange ((0 : Nat) : Int) ((0 + d.ticks.length : Nat) : Int))) := by
      simp [TimeData.indices, pyRange]
    rw [this]
  have hne : d.ticks.length ≠ 0 := by
    intro h0
    rw [hall, h0] at hsel
    unfold TimeData.select at hsel
    peel hsel with ys, hys
    peel hsel with l, hl
    have := (pyGetI_neg (k := 1) (by omega)).1 hl
    simp [TimeData.indices, pyRange] at this
  rw [hall, select_window hwe hw hne (by omega)] at hsel
  cases hsel
  have hlen : (diffs d.withEnd).length = d.ticks.length := by rw [diffs_length, hwe]; simp
  simp only [List.drop_zero, List.take_length] at h
  rw [select_window hwe hw hk h]
  simp only [ok_bind, except_pure, Sys.window, List.drop_zero]
  rw [List.take_of_length_le (l := List.map _ _) (by simp [hlen])]
  simp only [List.length_take, List.length_drop]
  congr 2
  omega

/-- **C87, segments of a calculation.**  For every segment the time data and every series are cut to `L` steps from `k·L` on and the overlap. -/
theorem C87_segment {ts : TArr} {last : Option LastStep} {prev : Option Num} {d : TimeData} {cfg : Cfg} {sys : Sys} {Li oi : Int} {c : SegCalc} {k : Nat}
    (hd : TimeData.init ts last prev = .ok d) (hs : d.sys cfg none = .ok sys) (hi : SegCalc.init sys.n none Li oi = .ok c) (ho : 0 ≤ oi) (hk : k < c.nSeg) :
    d.sys cfg (some (c.indices k)) = .ok (sys.window (k * Li.toNat) (c.indices k).length) ∧
      ∀ x : Num, x.Fits sys.n → TSObj.ownData { data := x, active := some (c.indices k) } = .ok (x.window (k * Li.toNat) (c.indices k).length) := by
  obtain ⟨hc, hidx⟩ := cover_segments hi ho
  have h1 := hidx k hk
  have h2 := hc.inside k hk
  have h3 := hc.nonempty k hk
  generalize hn : (c.indices k).length = n at *
  rw [h1]
  exact ⟨C87_time hd hs (by omega) h2, fun x hx => C87_series hx h2⟩

example : TSObj.ownData { data := .v [3, 1, 4, 1, 5], active := some (pyRange 2 5) } = .ok (.v [4, 1, 5]) :=
  C87_series (x := .v [3, 1, 4, 1, 5]) (n := 5) (a := 2) (k := 3) (.inr rfl) (by decide)

/-- A day of hours, segment of steps 3 to 5. -/
example : ∃ d sys, TimeData.init ⟨.h, [0, 1, 2, 4, 5, 6, 9]⟩ none none = .ok d ∧ d.sys ⟨1/1000, 1000⟩ none = .ok sys ∧ (3 : Nat) ≠ 0 ∧ 3 + 3 ≤ sys.n ∧
    (sys.window 3 3).dt = [1, 1, 3] ∧ SegCalc.init sys.n none 3 1 = .ok ⟨3, 1, 7⟩ ∧ 1 < (⟨3, 1, 7⟩ : SegCalc).nSeg := by
  refine ⟨⟨.h, [0, 1, 2, 4, 5, 6, 9], [0, 1, 2, 4, 5, 6, 9, 12], .s 1⟩, ⟨7, [1, 1, 2, 1, 1, 3, 3], 12, .s 1, ⟨1/1000, 1000⟩⟩, ?_, ?_, by decide, by decide, by decide +kernel, rfl, by decide +kernel⟩
  all_goals decide +kernel

end Flix
