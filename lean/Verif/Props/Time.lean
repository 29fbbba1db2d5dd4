import Verif.Lemmas.Time
import Verif.Lemmas.Check

/-!
# C40, C41, C62: time
-/

namespace Flix

/-! ## C40 -/

/-- Hours from tick `a` to tick `b`. -/
def hoursBetween (w : ℚ) (a b : Int) : ℚ := ((b - a : Int) : ℚ) * w

theorem mem_getD_pairwise {R : Int → Int → Prop} {xs : List Int} (h : xs.Pairwise R) {i j : Nat} (hij : i < j) (hj : j < xs.length) :
    R (xs.getD i 0) (xs.getD j 0) := by
  have := List.pairwise_iff_getElem.1 h i j (by omega) hj hij
  simpa [List.getD_eq_getElem?_getD, List.getElem?_eq_getElem hj, List.getElem?_eq_getElem (show i < xs.length by omega)] using this

/-- **C40 (sum and count).**  For every accepted selection there is one width per selected index, and the widths sum to the total,
which is the time from the first stamp to the end. -/
theorem C40_sum {d : TimeData} {idx : Option (List Int)} {t : TimeSel} (h : d.select idx = .ok t) :
    t.ticks.length = (d.indices idx).length ∧ t.dt.length = t.ticks.length ∧ t.total = t.dt.sum ∧
    ∃ first e w, t.ticks.head? = some first ∧ t.withEnd = t.ticks ++ [e] ∧ d.unit.hours = .ok w ∧ t.total = hoursBetween w first e := by
  obtain ⟨last, e, w, hf, hl, he, hw, h1, h2, h3⟩ := select_ok h
  refine ⟨hf.length_eq.symm, ?_, h3, ?_⟩
  · rw [h2, List.length_map, diffs_length]; simp
  · cases ht : t.ticks with
    | nil =>
      rw [ht] at hf
      cases hidx : d.indices idx with
      | nil =>
        have h1 := (pyGetI_neg (xs := d.indices idx) (k := 1) (x := last) (by omega)).1 hl
        rw [hidx] at h1; simp at h1
      | cons a b => rw [hidx] at hf; cases hf
    | cons a xs =>
      refine ⟨a, e, w, rfl, by rw [h1, ht], hw, ?_⟩
      rw [h3, h2, sum_map_mul_cast, ht, diffs_sum]
      rfl

/-- The widths of an increasing selection of existing indices. -/
theorem select_increasing {ts : TArr} {last : Option LastStep} {prev : Option Num} {d : TimeData} (hd : TimeData.init ts last prev = .ok d)
    {ks : List Nat} (hks : ks.Pairwise (· < ·)) {idx : Option (List Int)} (hidx : d.indices idx = natIdx ks) {t : TimeSel}
    (h : d.select idx = .ok t) :
    t.withEnd.Pairwise (· ≤ ·) ∧ (d.withEnd.Pairwise (· < ·) → t.withEnd.Pairwise (· < ·)) := by
  obtain ⟨e, w, _, _, _, htk, hend, hw, hsort, hne⟩ := init_ok hd
  rw [← htk] at hend
  obtain ⟨hin, l, hl, _, h1, _⟩ := (select_nat hidx hend hw).1 h
  have hlen : d.withEnd.length = d.ticks.length + 1 := by rw [hend]; simp
  have hp : (ks ++ [l + 1]).Pairwise (· < ·) := by
    rw [List.pairwise_append]
    refine ⟨hks, by simp, ?_⟩
    intro a ha b hb
    simp only [List.mem_singleton] at hb
    subst hb
    obtain ⟨pre, hpre⟩ := List.getLast?_eq_some_iff.1 hl
    rw [hpre] at ha hks
    rcases List.mem_append.1 ha with ha | ha
    · have := (List.pairwise_append.1 hks).2.2 a ha l (by simp)
      omega
    · simp at ha; omega
  have hlt : ∀ k ∈ ks ++ [l + 1], k < d.withEnd.length := by
    intro k hk
    rcases List.mem_append.1 hk with hk | hk
    · have := hin k hk; omega
    · simp only [List.mem_singleton] at hk
      have := hin l (List.mem_of_getLast? hl)
      omega
  rw [h1]
  have key : ∀ R : Int → Int → Prop, d.withEnd.Pairwise R → ((ks ++ [l + 1]).map fun k => d.withEnd.getD k 0).Pairwise R := by
    intro R hR
    rw [List.pairwise_map]
    exact hp.imp_of_mem fun ha hb hab => mem_getD_pairwise hR hab (hlt _ hb)
  exact ⟨key _ hsort, key _⟩

/-- **C40 (partial).**  On every accepted time axis, an accepted increasing selection of indices has non-negative widths.  Missing from the
full statement: selections that are not increasing or count from the end are accepted too (`C40_wrong`). -/
theorem C40_partial {ts : TArr} {last : Option LastStep} {prev : Option Num} {d : TimeData} (hd : TimeData.init ts last prev = .ok d)
    {ks : List Nat} (hks : ks.Pairwise (· < ·)) {t : TimeSel} (h : d.select (some (natIdx ks)) = .ok t) : ∀ x ∈ t.dt, 0 ≤ x := by
  obtain ⟨hs, _⟩ := select_increasing hd hks rfl h
  obtain ⟨_, e, w, _, _, _, hw, h1, h2, _⟩ := select_ok h
  intro x hx
  rw [h2] at hx
  obtain ⟨k, hk, rfl⟩ := List.mem_map.1 hx
  rw [← h1] at hk
  have := (diffs_nonneg_iff _).2 hs k hk
  have hwp := hours_pos hw
  have : (0 : ℚ) ≤ k := by exact_mod_cast this
  positivity

/-- **C40 (whole axis).**  Without a selection the widths are those between the stamps, non-negative. -/
theorem C40_all {ts : TArr} {last : Option LastStep} {prev : Option Num} {d : TimeData} (hd : TimeData.init ts last prev = .ok d)
    {t : TimeSel} (h : d.select none = .ok t) : t.ticks = d.ticks ∧ t.withEnd = d.withEnd ∧ ∀ x ∈ t.dt, 0 ≤ x := by
  obtain ⟨e, w, _, _, _, htk, hend, hw, hsort, hne⟩ := init_ok hd
  rw [← htk] at hend
  obtain ⟨hin, l, hl, h0, h1, h2, _⟩ := (select_nat (indices_none d) hend hw).1 h
  have hlen : d.withEnd.length = d.ticks.length + 1 := by rw [hend]; simp
  have hl' : l + 1 = d.ticks.length := by
    have hpos : 0 < d.ticks.length := List.length_pos_of_ne_nil hne
    rw [List.getLast?_eq_getElem?, List.length_range, List.getElem?_range (by omega)] at hl
    simp only [Option.some.injEq] at hl
    omega
  have hw1 : t.withEnd = d.withEnd := by
    rw [h1, hl']
    have : List.range d.ticks.length ++ [d.ticks.length] = List.range d.withEnd.length := by rw [hlen, List.range_succ]
    rw [this]
    refine List.ext_getElem? fun i => ?_
    rw [List.getElem?_map]
    by_cases hi : i < d.withEnd.length
    · rw [List.getElem?_range hi]
      simp [List.getD_eq_getElem?_getD, List.getElem?_eq_getElem hi]
    · rw [List.getElem?_eq_none (l := d.withEnd) (by omega), List.getElem?_eq_none (by rw [List.length_range]; omega)]; rfl
  refine ⟨?_, hw1, ?_⟩
  · obtain ⟨_, e', _, _, _, _, _, h1', _, _⟩ := select_ok h
    rw [h1', hend] at hw1
    exact (List.append_inj' hw1 rfl).1
  · intro x hx
    rw [h2] at hx
    obtain ⟨k, hk, rfl⟩ := List.mem_map.1 hx
    rw [← h1, hw1] at hk
    have := (diffs_nonneg_iff _).2 hsort k hk
    have hwp := hours_pos hw
    have : (0 : ℚ) ≤ k := by exact_mod_cast this
    positivity

theorem select_accepted {ts : TArr} {last : Option LastStep} {prev : Option Num} {d : TimeData} (hd : TimeData.init ts last prev = .ok d)
    {ks : List Nat} {idx : Option (List Int)} (hidx : d.indices idx = natIdx ks) :
    (∃ t, d.select idx = .ok t) ↔ ks ≠ [] ∧ ∀ k ∈ ks, k < d.ticks.length := by
  obtain ⟨e, w, _, _, _, htk, hend, hw, hsort, hne⟩ := init_ok hd
  rw [← htk] at hend
  constructor
  · rintro ⟨t, h⟩
    obtain ⟨hin, l, hl, _⟩ := (select_nat hidx hend hw).1 h
    exact ⟨by rintro rfl; simp at hl, hin⟩
  · rintro ⟨h1, h2⟩
    obtain ⟨l, hl⟩ : ∃ l, ks.getLast? = some l := by
      cases h : ks.getLast? with
      | none => exact absurd (List.getLast?_eq_none_iff.1 h) h1
      | some l => exact ⟨l, rfl⟩
    let dt := (diffs ((ks ++ [l + 1]).map (fun k => d.withEnd.getD k 0))).map (fun (k : Int) => (k : ℚ) * w)
    exact ⟨⟨_, _, dt, dt.sum⟩, (select_nat hidx hend hw).2 ⟨h2, l, hl, rfl, rfl, rfl, rfl⟩⟩

/-- **C40 (accepted).**  A selection of natural numbers is accepted exactly when it is not empty and all indices exist; the whole axis always is. -/
theorem C40_accepted {ts : TArr} {last : Option LastStep} {prev : Option Num} {d : TimeData} (hd : TimeData.init ts last prev = .ok d)
    (ks : List Nat) : ((∃ t, d.select (some (natIdx ks)) = .ok t) ↔ ks ≠ [] ∧ ∀ k ∈ ks, k < d.ticks.length) ∧ ∃ t, d.select none = .ok t := by
  refine ⟨select_accepted hd rfl, (select_accepted hd (indices_none d)).2 ⟨?_, by simp⟩⟩
  obtain ⟨_, _, _, _, _, _, _, _, _, hne⟩ := init_ok hd
  simpa using hne

/-- **C40 (a stretch of steps).**  For consecutive indices the widths are the widths of these steps on the whole axis. -/
theorem C40_range {ts : TArr} {last : Option LastStep} {prev : Option Num} {d : TimeData} (hd : TimeData.init ts last prev = .ok d)
    {a n : Nat} {t all : TimeSel} (h : d.select (some (natIdx (List.range' a n))) = .ok t) (hall : d.select none = .ok all) :
    t.dt = (all.dt.drop a).take n := by
  obtain ⟨e, w, _, _, _, htk, hend, hw, hsort, hne⟩ := init_ok hd
  rw [← htk] at hend
  obtain ⟨hin, l, hl, _, _, h2, _⟩ := (select_nat (idx := some (natIdx (List.range' a n))) rfl hend hw).1 h
  obtain ⟨_, hw1, _⟩ := C40_all hd hall
  obtain ⟨_, e', w', _, _, _, hw', h1', h2', _⟩ := select_ok hall
  rw [hw] at hw'
  cases hw'
  rw [← h1', hw1] at h2'
  have hn : 0 < n := by
    rcases Nat.eq_zero_or_pos n with rfl | h
    · simp at hl
    · exact h
  have hl' : l = a + (n - 1) := by
    rw [List.getLast?_eq_getElem?] at hl
    simp only [List.length_range'] at hl
    rw [List.getElem?_range' (by omega)] at hl
    simp at hl; omega
  have hlast : a + n ≤ d.ticks.length := by
    have := hin l (List.mem_of_getLast? hl)
    omega
  have hlen : d.withEnd.length = d.ticks.length + 1 := by rw [hend]; simp
  have hr : List.range' a n ++ [l + 1] = List.range' a (n + 1) := by
    rw [List.range'_concat]; simp; omega
  rw [h2, h2', hr, ← List.map_drop, ← List.map_take]
  congr 1
  refine List.ext_getElem? fun i => ?_
  by_cases hi : i < n
  · rw [diffs_get (by simp; omega), List.getElem?_take_of_lt hi, List.getElem?_drop, diffs_get (by omega)]
    simp only [List.getD_eq_getElem?_getD, List.getElem?_map]
    rw [List.getElem?_range' (by omega), List.getElem?_range' (by omega)]
    simp [Nat.add_assoc]
  · rw [List.getElem?_eq_none (by rw [diffs_length]; simp; omega), List.getElem?_eq_none (by simp; omega)]

/-- **C40 (the model).**  On an axis without repeated stamps an increasing selection gives a valid time part for the model: what all other
properties assume about time holds. -/
theorem C40_valid {ts : TArr} {last : Option LastStep} {prev : Option Num} {d : TimeData} (hd : TimeData.init ts last prev = .ok d)
    (hinc : d.withEnd.Pairwise (· < ·)) {ks : List Nat} (hks : ks.Pairwise (· < ·)) {idx : Option (List Int)}
    (hidx : d.indices idx = natIdx ks) {cfg : Cfg} (heps : 0 < cfg.eps) {sys : Sys} (h : d.sys cfg idx = .ok sys) :
    sys.Valid ∧ sys.n ≠ 0 ∧ sys.n = ks.length := by
  unfold TimeData.sys at h
  obtain ⟨t, ht, h⟩ := bind_ok.1 h
  simp only [except_pure, Except.ok.injEq] at h
  subst h
  obtain ⟨_, hs⟩ := select_increasing hd hks hidx ht
  obtain ⟨hc1, hc2, hc3, first, _, _, hfirst, _⟩ := C40_sum ht
  obtain ⟨_, e, w, _, _, _, hw, h1, h2, _⟩ := select_ok ht
  refine ⟨⟨hc2, ?_, hc3, heps⟩, ?_, ?_⟩
  · intro x hx
    simp only at hx
    rw [h2] at hx
    obtain ⟨k, hk, rfl⟩ := List.mem_map.1 hx
    rw [← h1] at hk
    have := (diffs_pos_iff _).2 (hs hinc) k hk
    have hwp := hours_pos hw
    have : (0 : ℚ) < k := by exact_mod_cast this
    positivity
  · intro h0
    simp only at h0
    rw [List.length_eq_zero_iff.1 h0] at hfirst
    simp at hfirst
  · simp only [hc1, hidx, natIdx, List.length_map]

/-- Four hourly stamps. -/
def exAxis : TArr := ⟨.h, [0, 1, 2, 3]⟩
def exTime : TimeData := { unit := .h, ticks := [0, 1, 2, 3], withEnd := [0, 1, 2, 3, 4], prevDt := .s 1 }
theorem exTime_ok : TimeData.init exAxis none none = .ok exTime := by decide +kernel

/-- **C40 fails** for the code: selections that run backwards or end with a negative index are accepted and have negative widths; the
selection from the last step by `-1` has width `-3`. -/
theorem C40_wrong : (∃ t, exTime.select (some [2, 0]) = .ok t ∧ ∃ x ∈ t.dt, x < 0) ∧ ∃ t, exTime.select (some [-1]) = .ok t ∧ t.dt = [-3] :=
  ⟨⟨⟨[2, 0], [2, 0, 1], [-2, 1], -1⟩, by decide +kernel, -2, by simp, by norm_num⟩, ⟨[3], [3, 0], [-3], -3⟩, by decide +kernel, rfl⟩

example : ∃ t, exTime.select (some (natIdx [0, 2, 3])) = .ok t ∧ t.dt = [2, 1, 1] := ⟨⟨[0, 2, 3], [0, 2, 3, 4], [2, 1, 1], 4⟩, by decide +kernel, rfl⟩
example := C40_partial exTime_ok (ks := [0, 2, 3]) (by decide) (t := ⟨[0, 2, 3], [0, 2, 3, 4], [2, 1, 1], 4⟩) (by decide +kernel)
example : (∃ sys : Sys, exTime.sys { eps := 1 / 1000, big := 100 } none = .ok sys ∧ sys.Valid ∧ sys.n ≠ 0 ∧ sys.n = 4) := by
  obtain ⟨sys, h⟩ := builds (r := exTime.sys { eps := 1 / 1000, big := 100 } none) (by decide +kernel)
  exact ⟨sys, h, C40_valid exTime_ok (by decide) (ks := [0, 1, 2, 3]) (by decide) rfl (by norm_num) h⟩

/-- **C40 (instants).**  The time stamps of the flow system are the instants the user gave, in the user's order; only those given in
nanoseconds are rounded down to whole microseconds. -/
theorem C40_instants {ts : TArr} {last : Option LastStep} {prev : Option Num} {d : TimeData} (hd : TimeData.init ts last prev = .ok d) {u : Nat}
    (hu : ts.unit.nanos = some u) : ∃ w : Nat, d.unit.nanos = some w ∧ d.ticks.length = ts.ticks.length ∧
      ∀ (i : Nat) (x y : Int), ts.ticks[i]? = some x → d.ticks[i]? = some y →
        0 ≤ x * u - y * w ∧ x * u - y * w < 1000 ∧ (ts.unit ≠ .ns → x * u = y * w) := by
  obtain ⟨unit, ticks⟩ := ts
  unfold TimeData.init at hd
  peel hd with e, he
  peel hd with p, hp
  peel hd with z, hz
  simp only [except_pure, Except.ok.injEq] at hd
  subst hd
  dsimp only at hu ⊢
  by_cases h : unit = .ns
  · subst h
    simp only [TUnit.nanos, Option.some.injEq] at hu
    subst hu
    refine ⟨1000, rfl, by simp [TArr.cast], ?_⟩
    intro i x y hx hy
    simp only [TArr.cast, if_true, List.getElem?_map, hx, Option.map_some, Option.some.injEq] at hy
    subst hy
    refine ⟨by omega, by omega, fun hc => absurd rfl hc⟩
  · simp only [TArr.cast, if_neg h]
    refine ⟨u, hu, trivial, ?_⟩
    intro i x y hx hy
    rw [hx] at hy
    cases hy
    exact ⟨by omega, by omega, fun _ => rfl⟩

example : ∃ d, TimeData.init ⟨.ns, [0, 3600000000999, 7200000000000]⟩ none none = .ok d ∧ d.unit = .us ∧ d.ticks = [0, 3600000000, 7200000000] :=
  ⟨_, rfl, rfl, rfl⟩

/-! ## C41 -/

theorem dt_getLast {ts : TArr} {last : Option LastStep} {prev : Option Num} {d : TimeData} (hd : TimeData.init ts last prev = .ok d)
    {t : TimeSel} (h : d.select none = .ok t) :
    ∃ a e w, d.ticks.getLast? = some a ∧ endTick ts.cast last = .ok e ∧ d.unit.hours = .ok w ∧ t.dt.getLast? = some (hoursBetween w a e) := by
  obtain ⟨e, w, he, _, _, htk, hend, hw, hsort, hne⟩ := init_ok hd
  rw [← htk] at hend
  obtain ⟨h0, hw1, _⟩ := C40_all hd h
  obtain ⟨_, e', w', _, _, _, hw', h1', h2', _⟩ := select_ok h
  rw [hw] at hw'
  cases hw'
  rw [← h1', hw1] at h2'
  have hpos : 0 < d.ticks.length := List.length_pos_of_ne_nil hne
  refine ⟨d.ticks[d.ticks.length - 1], e, w, ?_, he, hw, ?_⟩
  · rw [List.getLast?_eq_getElem?, List.getElem?_eq_getElem (by omega)]
  · rw [h2', List.getLast?_eq_getElem?, List.length_map, diffs_length, hend, List.getElem?_map]
    have hl : (d.ticks ++ [e]).length = d.ticks.length + 1 := by simp
    rw [hl, diffs_get (by omega)]
    have e1 : d.ticks.length + 1 - 1 - 1 + 1 = d.ticks.length := by omega
    have e2 : d.ticks.length + 1 - 1 - 1 = d.ticks.length - 1 := by omega
    rw [e1, e2]
    simp only [List.getD_eq_getElem?_getD, hoursBetween]
    rw [List.getElem?_append_left (show d.ticks.length - 1 < d.ticks.length by omega), List.getElem?_eq_getElem (show d.ticks.length - 1 < d.ticks.length by omega)]
    simp

/-- **C41 (what the code does).**  An integer `last_time_step_hours = k` makes the last step `k` ticks of the axis long. -/
theorem C41_ticks {ts : TArr} {k : Int} {prev : Option Num} {d : TimeData} (hd : TimeData.init ts (some (.int k)) prev = .ok d)
    {t : TimeSel} (h : d.select none = .ok t) : ∃ w, d.unit.hours = .ok w ∧ t.dt.getLast? = some (k * w) := by
  obtain ⟨a, e, w, ha, he, hw, hl⟩ := dt_getLast hd h
  obtain ⟨_, _, _, _, _, htk, _⟩ := init_ok hd
  refine ⟨w, hw, ?_⟩
  rw [hl]
  unfold endTick at he
  obtain ⟨a', ha', he⟩ := bind_ok.1 he
  simp only [except_pure, Except.ok.injEq] at he
  have h1 := (pyGetI_neg (xs := ts.cast.ticks) (k := 1) (x := a') (by omega)).1 ha'
  rw [← htk, ← List.getLast?_eq_getElem?, ha] at h1
  have : a = a' := by simpa using h1.2
  subst this
  rw [← he]
  unfold hoursBetween
  congr 2
  push_cast
  ring

/-- **C41 (exactly when).**  The last step is `k` hours long exactly when the axis is in hours or `k = 0`. -/
theorem C41_iff {ts : TArr} {k : Int} {prev : Option Num} {d : TimeData} (hd : TimeData.init ts (some (.int k)) prev = .ok d)
    {t : TimeSel} (h : d.select none = .ok t) : t.dt.getLast? = some (k : ℚ) ↔ d.unit = .h ∨ k = 0 := by
  obtain ⟨w, hw, hl⟩ := C41_ticks hd h
  rw [hl, Option.some.injEq]
  have key : w = 1 ↔ d.unit = .h := by
    generalize d.unit = u at hw
    cases u <;> simp [TUnit.hours, TUnit.nanos] at hw <;> subst hw <;> norm_num <;> decide
  rw [← key]
  constructor
  · intro h
    have : (k : ℚ) * (w - 1) = 0 := by linarith
    rcases mul_eq_zero.1 this with h | h
    · right; exact_mod_cast h
    · left; linarith
  · rintro (h | h)
    · rw [h, mul_one]
    · rw [h]; simp

/-- **C41 (partial).**  On an axis in hours the last step is `last_time_step_hours` hours long.  Missing from the full statement: other
resolutions (`C41_wrong`) and numbers that are not whole (`C41_float`). -/
theorem C41_partial {ts : TArr} {k : Int} {prev : Option Num} {d : TimeData} (hd : TimeData.init ts (some (.int k)) prev = .ok d)
    (hu : d.unit = .h) {t : TimeSel} (h : d.select none = .ok t) : t.dt.getLast? = some (k : ℚ) := (C41_iff hd h).2 (.inl hu)

/-- **C41 (default).**  Without `last_time_step_hours` the last step is as long as the one before. -/
theorem C41_default {ts : TArr} {prev : Option Num} {d : TimeData} (hd : TimeData.init ts none prev = .ok d)
    {t : TimeSel} (h : d.select none = .ok t) : 2 ≤ t.dt.length ∧ t.dt[t.dt.length - 1]? = t.dt[t.dt.length - 2]? ∧ t.dt[t.dt.length - 1]? ≠ none := by
  obtain ⟨a, e, w, ha, he, hw, hl⟩ := dt_getLast hd h
  obtain ⟨_, w1, _, _, _, htk, hend, hw1, _⟩ := init_ok hd
  rw [← htk] at hend
  unfold endTick at he
  obtain ⟨a', ha', he⟩ := bind_ok.1 he
  obtain ⟨b', hb', he⟩ := bind_ok.1 he
  obtain ⟨c', hc', he⟩ := bind_ok.1 he
  simp only [except_pure, Except.ok.injEq] at he
  have h1 := (pyGetI_neg (xs := ts.cast.ticks) (k := 1) (x := a') (by omega)).1 ha'
  have h2 := (pyGetI_neg (xs := ts.cast.ticks) (k := 2) (x := b') (by omega)).1 hb'
  rw [hc'] at ha'
  cases ha'
  rw [← htk] at h1 h2
  have haa : a = a' := by
    have := h1.2
    rw [← List.getLast?_eq_getElem?, ha] at this
    simpa using this
  subst haa
  obtain ⟨h0, hwe, _⟩ := C40_all hd h
  obtain ⟨hc1, hc2, _⟩ := C40_sum h
  obtain ⟨_, e', w', _, _, _, hw', h1', h2', _⟩ := select_ok h
  rw [hw] at hw'
  cases hw'
  rw [← h1', hwe, hend] at h2'
  have hlen : t.dt.length = d.ticks.length := by rw [hc2, h0]
  rw [List.getLast?_eq_getElem?] at hl
  refine ⟨by omega, ?_, by rw [hl]; simp⟩
  rw [hl, hlen, h2', List.getElem?_map, diffs_get (by simp; omega)]
  have e1 : d.ticks.length - 2 + 1 = d.ticks.length - 1 := by omega
  rw [e1]
  simp only [List.getD_eq_getElem?_getD]
  rw [List.getElem?_append_left (by omega), List.getElem?_append_left (by omega), h1.2, h2.2]
  simp only [Option.getD_some, Option.map_some, Option.some.injEq, hoursBetween, ← he]
  congr 2
  ring

/-- A float raises, on every axis with at least one stamp. -/
theorem C41_float {ts : TArr} (h : ts.ticks ≠ []) (x : ℚ) (prev : Option Num) : TimeData.init ts (some (.float x)) prev = .error .type := by
  have hne : ts.cast.ticks ≠ [] := by
    unfold TArr.cast
    split
    · simpa using h
    · exact h
  have hpos : 0 < ts.cast.ticks.length := List.length_pos_of_ne_nil hne
  have h1 := (pyGetI_neg (xs := ts.cast.ticks) (k := 1) (x := ts.cast.ticks[ts.cast.ticks.length - 1]) (by omega)).2
    ⟨by omega, List.getElem?_eq_getElem (by omega)⟩
  have h1 : pyGetI ts.cast.ticks (-1) = .ok ts.cast.ticks[ts.cast.ticks.length - 1] := h1
  unfold TimeData.init endTick
  rw [h1]
  rfl

/-- **C41 fails** for the code: on an axis in minutes `last_time_step_hours=1` makes the last step one minute long. -/
theorem C41_wrong : ∃ d t, TimeData.init ⟨.m, [0, 60, 120]⟩ (some (.int 1)) none = .ok d ∧ d.select none = .ok t ∧ t.dt = [1, 1, 1 / 60] :=
  ⟨{ unit := .m, ticks := [0, 60, 120], withEnd := [0, 60, 120, 121], prevDt := .s 1 }, ⟨[0, 60, 120], [0, 60, 120, 121], [1, 1, 1 / 60], 121 / 60⟩,
    by decide +kernel, by decide +kernel, rfl⟩

example : ∃ d t, TimeData.init ⟨.h, [0, 1, 2]⟩ (some (.int 2)) none = .ok d ∧ d.select none = .ok t ∧ t.dt = [1, 1, 2] :=
  ⟨{ unit := .h, ticks := [0, 1, 2], withEnd := [0, 1, 2, 4], prevDt := .s 1 }, ⟨[0, 1, 2], [0, 1, 2, 4], [1, 1, 2], 4⟩,
    by decide +kernel, by decide +kernel, rfl⟩
example : ∃ t, exTime.select none = .ok t ∧ t.dt = [1, 1, 1, 1] := ⟨⟨[0, 1, 2, 3], [0, 1, 2, 3, 4], [1, 1, 1, 1], 4⟩, by decide +kernel, rfl⟩

/-! ## C62 -/

/-- Nanoseconds since 1970 of tick `k`. -/
def nanosAt (u : TUnit) (k : Int) : Option Int := u.nanos.map fun (a : Nat) => k * (a : Int)

theorem parseFreq_number (k : Nat) (c : Char) {u : TUnit} (hu : unitOfChar c = .ok u) : parseFreq (toString k ++ String.singleton c).toList = .ok (k, u) := by
  have hl : (toString k ++ String.singleton c).toList = Nat.toDigits 10 k ++ [c] := by
    rw [String.toList_append]
    have : (toString k).toList = Nat.toDigits 10 k := Nat.toList_repr
    rw [this]; simp
  rw [hl]
  unfold parseFreq
  have h1 : pyGetI (Nat.toDigits 10 k ++ [c]) (-1) = .ok c := by
    have := (pyGetI_neg (xs := Nat.toDigits 10 k ++ [c]) (k := 1) (x := c) (by omega)).2 ⟨by simp, by simp⟩
    exact this
  rw [h1]
  simp only [bind, Except.bind, hu, except_pure, List.dropLast_concat]
  rw [if_pos ⟨Nat.toDigits_ne_nil, List.all_eq_true.2 fun d hd => Nat.isDigit_of_mem_toDigits (by omega) (by omega) hd⟩]
  have : digitsVal (Nat.toDigits 10 k) = k := Nat.ofDigitChars_ten_toDigits
  rw [this]

theorem parseFreq_letter (c : Char) {u : TUnit} (hu : unitOfChar c = .ok u) : parseFreq (String.singleton c).toList = .ok (1, u) := by
  have hl : (String.singleton c).toList = [c] := by simp
  rw [hl]
  unfold parseFreq
  have h1 : pyGetI [c] (-1) = .ok c := rfl
  rw [h1]
  simp [bind, Except.bind, hu, except_pure]

theorem nanos_dvd {u v : TUnit} {a b : Nat} (ha : u.nanos = some a) (hb : v.nanos = some b) (h : a ≤ b) : a ∣ b := by
  cases u <;> simp only [TUnit.nanos, Option.some.injEq, reduceCtorEq] at ha <;> cases v <;>
    simp only [TUnit.nanos, Option.some.injEq, reduceCtorEq] at hb <;> subst ha hb <;> revert h <;> decide

theorem finer_ok {u v w : TUnit} (h : finer u v = .ok w) :
    ∃ a b c, u.nanos = some a ∧ v.nanos = some b ∧ w.nanos = some c ∧ c ∣ a ∧ c ∣ b := by
  unfold finer at h
  split at h
  · rename_i a b ha hb
    simp only [Except.ok.injEq] at h
    subst h
    refine ⟨a, b, ?_⟩
    split
    · rename_i hab
      exact ⟨a, ha, hb, ha, dvd_refl a, nanos_dvd ha hb hab⟩
    · rename_i hab
      exact ⟨b, ha, hb, hb, nanos_dvd hb ha (by omega), dvd_refl b⟩
  · cases h

theorem toUnit_ok {u v : TUnit} {a b : Nat} (hu : u.nanos = some a) (hv : v.nanos = some b) (hd : b ∣ a) {k x : Int} (h : toUnit u v k = .ok x) :
    x * b = k * a := by
  unfold toUnit at h
  rw [hu, hv] at h
  simp only [Except.ok.injEq] at h
  subst h
  obtain ⟨c, rfl⟩ := hd
  have hb : 0 < b := by
    rcases Nat.eq_zero_or_pos b with rfl | h
    · cases v <;> simp [TUnit.nanos] at hv
    · exact h
  rw [Nat.mul_div_cancel_left _ hb]
  push_cast
  ring

theorem finer_total {u v : TUnit} {a b : Nat} (ha : u.nanos = some a) (hb : v.nanos = some b) : ∃ w, finer u v = .ok w := by
  unfold finer; rw [ha, hb]; exact ⟨_, rfl⟩

theorem toUnit_total {u v : TUnit} {a b : Nat} (ha : u.nanos = some a) (hb : v.nanos = some b) (k : Int) : ∃ x, toUnit u v k = .ok x := by
  unfold toUnit; rw [ha, hb]; exact ⟨_, rfl⟩

theorem nanos_pos {u : TUnit} {a : Nat} (h : u.nanos = some a) : 0 < a := by
  cases u <;> simp [TUnit.nanos] at h <;> omega

/-- A documented frequency: a number and a unit letter, or the letter alone. -/
inductive Freq : String → Nat → TUnit → Prop
  | number (k : Nat) {c : Char} {u : TUnit} : unitOfChar c = .ok u → Freq (toString k ++ String.singleton c) k u
  | letter {c : Char} {u : TUnit} : unitOfChar c = .ok u → Freq (String.singleton c) 1 u

theorem Freq.parse {f : String} {k : Nat} {u : TUnit} (h : Freq f k u) : parseFreq f.toList = .ok (k, u) := by
  cases h with
  | number k hu => exact parseFreq_number k _ hu
  | letter hu => exact parseFreq_letter _ hu

/-- **C62 (steps).**  With a positive number of steps and a documented frequency of fixed length the result has exactly that many stamps;
stamp `i` is `i` times the frequency after the start. -/
theorem C62_steps {start : TStamp} {n : Nat} (hn : 0 < n) {freq : String} {k : Nat} {u : TUnit} (hf : Freq freq k u) {sa fa : Nat}
    (hs : start.unit.nanos = some sa) (hu : u.nanos = some fa) :
    ∃ arr, createDatetimeArray start (some n) freq none = .ok arr ∧ arr.ticks.length = n ∧
      ∀ (i : Nat) x, arr.ticks[i]? = some x → nanosAt arr.unit x = some (start.tick * sa + i * (k * fa)) := by
  unfold createDatetimeArray
  rw [hf.parse]
  simp only [bind, Except.bind, datesChoose]
  rw [if_neg (by omega), if_neg (by omega)]
  unfold datesSteps
  obtain ⟨v, hv⟩ := finer_total hs hu
  obtain ⟨a, b, c, h1, h2, h3, h4, h5⟩ := finer_ok hv
  rw [hs] at h1; cases h1
  rw [hu] at h2; cases h2
  obtain ⟨x, hx⟩ := toUnit_total hs h3 start.tick
  obtain ⟨y, hy⟩ := toUnit_total hu h3 k
  simp only [bind, Except.bind, hv, hx, hy, except_pure]
  refine ⟨_, rfl, by simp, ?_⟩
  intro i z hz
  simp only [List.getElem?_map] at hz
  by_cases hi : i < n
  · rw [Int.toNat_natCast, List.getElem?_range hi] at hz
    simp only [Option.map_some, Option.some.injEq] at hz
    subst hz
    have e1 := toUnit_ok hs h3 h4 hx
    have e2 := toUnit_ok hu h3 h5 hy
    simp only [nanosAt, h3, Option.map_some, Option.some.injEq]
    rw [add_mul, mul_assoc, e1, e2]
  · rw [List.getElem?_eq_none (by simp; omega)] at hz; simp at hz

theorem arangeLen_iff {a b k : Int} (hk : 0 < k) (i : Nat) : i < arangeLen a b k ↔ a + i * k < b := by
  unfold arangeLen
  split
  · rename_i hab
    have h0 : 0 ≤ (b - a + k - 1) / k := Int.ediv_nonneg (by omega) (by omega)
    constructor
    · intro h
      have h' : (i : Int) + 1 ≤ (b - a + k - 1) / k := by omega
      have := (Int.le_ediv_iff_mul_le hk).1 h'
      rw [add_mul] at this
      omega
    · intro h
      have : ((i : Int) + 1) * k ≤ b - a + k - 1 := by rw [add_mul]; omega
      have := (Int.le_ediv_iff_mul_le hk).2 this
      omega
  · rename_i hab
    have : (0 : Int) ≤ i * k := by positivity
    constructor
    · intro h; omega
    · intro h; omega

/-- **C62 (end).**  With an end and a documented positive frequency of fixed length the stamps are exactly start, start + frequency, ... as long
as they are strictly before the end; `steps` does not matter. -/
theorem C62_end {start stop : TStamp} {steps : Option Int} {freq : String} {k : Nat} {u : TUnit} (hf : Freq freq k u) (hk : 0 < k) {sa ea fa : Nat}
    (hs : start.unit.nanos = some sa) (he : stop.unit.nanos = some ea) (hu : u.nanos = some fa) :
    ∃ arr, createDatetimeArray start steps freq (some stop) = .ok arr ∧
      (∀ i : Nat, i < arr.ticks.length ↔ start.tick * sa + i * (k * fa) < stop.tick * ea) ∧
      ∀ (i : Nat) x, arr.ticks[i]? = some x → nanosAt arr.unit x = some (start.tick * sa + i * (k * fa)) := by
  unfold createDatetimeArray
  rw [hf.parse]
  simp only [bind, Except.bind, datesChoose]
  unfold datesUntil
  obtain ⟨v1, hv1⟩ := finer_total hs he
  obtain ⟨a, b, c1, h1, h2, h3, h4, h5⟩ := finer_ok hv1
  rw [hs] at h1; cases h1
  rw [he] at h2; cases h2
  obtain ⟨v, hv⟩ := finer_total h3 hu
  obtain ⟨_, _, c, g1, g2, g3, g4, g5⟩ := finer_ok hv
  rw [h3] at g1; cases g1
  rw [hu] at g2; cases g2
  obtain ⟨x, hx⟩ := toUnit_total hs g3 start.tick
  obtain ⟨y, hy⟩ := toUnit_total he g3 stop.tick
  obtain ⟨z, hz⟩ := toUnit_total hu g3 k
  have e1 := toUnit_ok hs g3 (dvd_trans g4 h4) hx
  have e2 := toUnit_ok he g3 (dvd_trans g4 h5) hy
  have e3 := toUnit_ok hu g3 g5 hz
  have hc : (0 : Int) < c := by exact_mod_cast nanos_pos g3
  have hfa : (0 : Int) < fa := by exact_mod_cast nanos_pos hu
  have hzpos : 0 < z := by
    have h0 : (0 : Int) < k * fa := by positivity
    rw [← e3] at h0
    exact pos_of_mul_pos_left h0 (le_of_lt hc)
  simp only [bind, Except.bind, hv1, hv, hx, hy, hz]
  rw [if_neg (by omega)]
  simp only [except_pure]
  refine ⟨_, rfl, ?_, ?_⟩
  · intro i
    simp only [List.length_map, List.length_range]
    rw [arangeLen_iff hzpos, ← e1, ← e2, ← e3]
    have : x * (c : Int) + i * (z * c) = (x + i * z) * c := by ring
    rw [this]
    exact (mul_lt_mul_iff_left₀ hc).symm
  · intro i w hw
    simp only [List.getElem?_map] at hw
    by_cases hi : i < arangeLen x y z
    · rw [List.getElem?_range hi] at hw
      simp only [Option.map_some, Option.some.injEq] at hw
      subst hw
      simp only [nanosAt, g3, Option.map_some, Option.some.injEq]
      rw [add_mul, mul_assoc, e1, e3]
    · rw [List.getElem?_eq_none (by simp; omega)] at hw; simp at hw

theorem init_progression {u : TUnit} (hns : u ≠ .ns) {w : ℚ} (hw : u.hours = .ok w) {a k : Int} (hk : 0 ≤ k) {n : Nat} (hn : 2 ≤ n) :
    TimeData.init ⟨u, (List.range n).map fun (i : Nat) => a + i * k⟩ none none =
      .ok { unit := u, ticks := (List.range n).map fun (i : Nat) => a + i * k,
            withEnd := (List.range (n + 1)).map fun (i : Nat) => a + i * k, prevDt := .s (k * w) } := by
  have hcast : TArr.cast ⟨u, (List.range n).map fun (i : Nat) => a + i * k⟩ = ⟨u, (List.range n).map fun (i : Nat) => a + i * k⟩ := by
    unfold TArr.cast; rw [if_neg hns]
  have hget : ∀ i : Nat, i < n → ((List.range n).map fun (i : Nat) => a + i * k)[i]? = some (a + i * k) := by
    intro i hi
    rw [List.getElem?_map, List.getElem?_range hi]; rfl
  have hlen : ((List.range n).map fun (i : Nat) => a + i * k).length = n := by simp
  have h1 : pyGetI ((List.range n).map fun (i : Nat) => a + i * k) (-1) = .ok (a + (n - 1 : Nat) * k) := by
    have := (pyGetI_neg (xs := (List.range n).map fun (i : Nat) => a + i * k) (k := 1) (x := a + (n - 1 : Nat) * k) (by omega)).2
      ⟨by rw [hlen]; omega, by rw [hlen]; exact hget _ (by omega)⟩
    exact this
  have h2 : pyGetI ((List.range n).map fun (i : Nat) => a + i * k) (-2) = .ok (a + (n - 2 : Nat) * k) := by
    have := (pyGetI_neg (xs := (List.range n).map fun (i : Nat) => a + i * k) (k := 2) (x := a + (n - 2 : Nat) * k) (by omega)).2
      ⟨by rw [hlen]; omega, by rw [hlen]; exact hget _ (by omega)⟩
    exact this
  have h3 : pyGetI ((List.range n).map fun (i : Nat) => a + i * k) 1 = .ok (a + (1 : Nat) * k) := pyGetI_nat.2 (hget 1 (by omega))
  have h4 : pyGetI ((List.range n).map fun (i : Nat) => a + i * k) 0 = .ok (a + (0 : Nat) * k) := pyGetI_nat.2 (hget 0 (by omega))
  have hend : ((List.range n).map fun (i : Nat) => a + i * k) ++ [a + (n - 1 : Nat) * k + (a + (n - 1 : Nat) * k - (a + (n - 2 : Nat) * k))] =
      (List.range (n + 1)).map fun (i : Nat) => a + i * k := by
    rw [List.range_succ, List.map_append, List.map_singleton]
    congr 2
    obtain ⟨m, rfl⟩ : ∃ m, n = m + 2 := ⟨n - 2, by omega⟩
    have e1 : m + 2 - 1 = m + 1 := by omega
    rw [e1, Nat.add_sub_cancel]
    push_cast
    ring
  have hsort : ((List.range (n + 1)).map fun (i : Nat) => a + i * k).Pairwise (· ≤ ·) := by
    rw [List.pairwise_map]
    refine (List.pairwise_lt_range).imp fun {i j} hij => ?_
    have : (i : Int) * k ≤ j * k := mul_le_mul_of_nonneg_right (by exact_mod_cast hij.le) hk
    omega
  have hany : ¬ (diffs ((List.range (n + 1)).map fun (i : Nat) => a + i * k)).any (· < 0) = true := by
    rw [List.any_eq_true]
    rintro ⟨x, hx, hx0⟩
    have := (diffs_nonneg_iff _).2 hsort x hx
    simp at hx0; omega
  unfold TimeData.init
  simp only [hcast, endTick, previousDt, checkTimeSeries, h1, h2, h3, h4, hw, bind, Except.bind, except_pure, hend]
  rw [if_neg hany]
  simp only [Except.ok.injEq, TimeData.mk.injEq, true_and]
  congr 2
  push_cast
  ring

/-- **C62 (use).**  A time array made with at least two steps and a positive fixed frequency is accepted by the flow system; every step, the last one
too, is as long as the frequency. -/
theorem C62_system {start : TStamp} (hns : start.unit ≠ .ns) {n : Nat} (hn : 2 ≤ n) {freq : String} {k : Nat} {u : TUnit} (hf : Freq freq k u)
    {sa fa : Nat} (hs : start.unit.nanos = some sa) (hu : u.nanos = some fa) :
    ∃ arr d t, createDatetimeArray start (some n) freq none = .ok arr ∧ TimeData.init arr none none = .ok d ∧ d.select none = .ok t ∧
      t.dt = List.replicate n ((k * fa : Nat) / 3600000000000 : ℚ) := by
  obtain ⟨v, hv⟩ := finer_total hs hu
  obtain ⟨a, b, c, h1, h2, h3, h4, h5⟩ := finer_ok hv
  rw [hs] at h1; cases h1
  rw [hu] at h2; cases h2
  obtain ⟨x, hx⟩ := toUnit_total hs h3 start.tick
  obtain ⟨y, hy⟩ := toUnit_total hu h3 k
  have e2 := toUnit_ok hu h3 h5 hy
  have hc : (0 : Int) < c := by exact_mod_cast nanos_pos h3
  have hy0 : 0 ≤ y := by
    have : (0 : Int) ≤ y * c := by rw [e2]; positivity
    exact nonneg_of_mul_nonneg_left this hc
  have hunit : u ≠ .ns := by
    cases hf with
    | number k hc => rintro rfl; unfold unitOfChar at hc; split at hc <;> cases hc
    | letter hc => rintro rfl; unfold unitOfChar at hc; split at hc <;> cases hc
  have hvns : v ≠ .ns := by
    unfold finer at hv
    rw [hs, hu] at hv
    simp only [Except.ok.injEq] at hv
    subst hv
    split <;> assumption
  have hw : v.hours = .ok ((c : ℚ) / 3600000000000) := by unfold TUnit.hours; rw [h3]
  have hinit := init_progression hvns hw (a := x) hy0 hn
  have harr : createDatetimeArray start (some n) freq none = .ok ⟨v, (List.range n).map fun (i : Nat) => x + i * y⟩ := by
    unfold createDatetimeArray
    rw [hf.parse]
    simp only [bind, Except.bind, datesChoose]
    rw [if_neg (by omega), if_neg (by omega)]
    unfold datesSteps
    simp only [bind, Except.bind, hv, hx, hy, except_pure, Int.toNat_natCast]
  obtain ⟨t, ht⟩ := (C40_accepted hinit []).2
  refine ⟨_, _, t, harr, hinit, ht, ?_⟩
  obtain ⟨_, hwe, _⟩ := C40_all hinit ht
  obtain ⟨_, e', w', _, _, _, hw', h1', h2', _⟩ := select_ok ht
  simp only at hw'
  rw [hw] at hw'
  cases hw'
  rw [h2', ← h1', hwe]
  refine List.ext_getElem? fun i => ?_
  rw [List.getElem?_map]
  by_cases hi : i < n
  · rw [diffs_get (by simp; omega)]
    simp only [List.getD_eq_getElem?_getD, List.getElem?_map]
    rw [List.getElem?_range (by omega), List.getElem?_range (by omega), List.getElem?_replicate, if_pos hi]
    simp only [Option.map_some, Option.getD_some, Option.some.injEq]
    have e2' : (y : ℚ) * c = k * fa := by exact_mod_cast e2
    push_cast
    rw [← e2']
    ring
  · rw [List.getElem?_eq_none (by rw [diffs_length]; simp; omega), List.getElem?_eq_none (by simp; omega)]; rfl

/-- **C62 (refused).**  Without an end, no or zero steps raise. -/
theorem C62_refused (start : TStamp) (freq : String) {k : Nat} {u : TUnit} (hf : Freq freq k u) :
    createDatetimeArray start none freq none = .error .value ∧ createDatetimeArray start (some 0) freq none = .error .value := by
  unfold createDatetimeArray
  rw [hf.parse]
  exact ⟨rfl, rfl⟩

/-- **C62 fails** for the code: years and months are documented but raise for a start given as a date; a frequency whose number has other characters
than digits is taken as 1: `1.5h` is one hour, `5ms` one second. -/
theorem C62_wrong :
    createDatetimeArray ⟨.D, 0⟩ (some 3) "1M" none = .error .type ∧
    createDatetimeArray ⟨.D, 0⟩ (some 3) "1.5h" none = .ok ⟨.h, [0, 1, 2]⟩ ∧
    createDatetimeArray ⟨.D, 0⟩ (some 3) "5ms" none = .ok ⟨.s, [0, 1, 2]⟩ := by decide +kernel

example : Freq "15m" 15 .m := Freq.number 15 (c := 'm') rfl
example : Freq "h" 1 .h := Freq.letter (c := 'h') rfl
example : createDatetimeArray ⟨.D, 1⟩ (some 3) "15m" none = .ok ⟨.m, [1440, 1455, 1470]⟩ := by decide +kernel
example : createDatetimeArray ⟨.D, 1⟩ none "8h" (some ⟨.D, 2⟩) = .ok ⟨.h, [24, 32, 40]⟩ := by decide +kernel

end Flix
