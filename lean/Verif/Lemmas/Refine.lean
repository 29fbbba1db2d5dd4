import Verif.Spec.Refine
import Verif.Lemmas.WindowSystem

/-! # Steps and their parts; plans on a finer grid -/

namespace Flix

variable {φ s : Nat → Nat} {sys fine : Sys}

/-! ## The grid -/

namespace Finer

theorem mono (h : Finer φ s sys fine) : ∀ d a, a + d ≤ sys.n → s a ≤ s (a + d)
  | 0, _, _ => le_rfl
  | d + 1, a, ha => le_trans (h.mono d a (by omega)) (h.more (a + d) (by omega)).le

theorem le (h : Finer φ s sys fine) {a b : Nat} (hab : a ≤ b) (hb : b ≤ sys.n) : s a ≤ s b := by
  have := h.mono (b - a) a (by omega)
  rwa [show a + (b - a) = b by omega] at this

theorem find (h : Finer φ s sys fine) : ∀ m ≤ sys.n, ∀ j < s m, ∃ t < m, s t ≤ j ∧ j < s (t + 1)
  | 0, _, j, hj => by rw [h.zero] at hj; omega
  | m + 1, hm, j, hj => by
    by_cases hlt : j < s m
    · obtain ⟨t, h1, h2⟩ := h.find m (by omega) j hlt
      exact ⟨t, by omega, h2⟩
    · exact ⟨m, by omega, by omega, hj⟩

/-- Every step of the fine grid is a part of one step. -/
theorem owner (h : Finer φ s sys fine) {j : Nat} (hj : j < fine.n) : φ j < sys.n ∧ s (φ j) ≤ j ∧ j < s (φ j + 1) := by
  obtain ⟨t, h1, h2, h3⟩ := h.find sys.n le_rfl j (by rw [h.last]; exact hj)
  rw [h.part t h1 j h2 h3]
  exact ⟨h1, h2, h3⟩

theorem inside (h : Finer φ s sys fine) {t j : Nat} (ht : t < sys.n) (hj : j < s (t + 1)) : j < fine.n := by
  have := h.le (a := t + 1) (b := sys.n) (by omega) le_rfl
  rw [h.last] at this
  omega

theorem first (h : Finer φ s sys fine) {t : Nat} (ht : t < sys.n) : φ (s t) = t ∧ s t < fine.n :=
  ⟨h.part t ht _ le_rfl (h.more t ht), h.inside ht (h.more t ht)⟩

theorem start (h : Finer φ s sys fine) (hn : 0 < sys.n) : φ 0 = 0 := by
  have := (h.first hn).1
  rwa [h.zero] at this

theorem pos (h : Finer φ s sys fine) (hn : 0 < sys.n) : 0 < fine.n := by
  have := (h.first hn).2
  omega

/-- The next step is a part of the same step, or the first part of the next one. -/
theorem next (h : Finer φ s sys fine) {j : Nat} (hj : j + 1 < fine.n) : φ (j + 1) = φ j ∨ (φ (j + 1) = φ j + 1 ∧ j + 1 = s (φ j + 1)) := by
  obtain ⟨o1, o2, o3⟩ := h.owner (j := j) (by omega)
  by_cases hc : j + 1 < s (φ j + 1)
  · exact .inl (h.part _ o1 _ (by omega) hc)
  · have e : j + 1 = s (φ j + 1) := by omega
    right
    have hlt : φ j + 1 < sys.n := by
      by_contra hge
      rw [show φ j + 1 = sys.n by omega, h.last] at e
      omega
    exact ⟨by rw [e]; exact (h.first hlt).1, e⟩

theorem phi_mono (h : Finer φ s sys fine) {i j : Nat} (hij : i ≤ j) (hj : j < fine.n) : φ i ≤ φ j := by
  obtain ⟨o1, o2, o3⟩ := h.owner hj
  obtain ⟨p1, p2, p3⟩ := h.owner (j := i) (by omega)
  by_contra hlt
  have := h.le (a := φ j + 1) (b := φ i) (by omega) p1.le
  omega

/-- Sums over the parts. -/
theorem blocks (h : Finer φ s sys fine) (g : Nat → ℚ) : ∀ d a, a + d ≤ sys.n →
    ∑ j ∈ Finset.Ico (s a) (s (a + d)), g j = ∑ t ∈ Finset.Ico a (a + d), ∑ j ∈ Finset.Ico (s t) (s (t + 1)), g j
  | 0, _, _ => by simp
  | d + 1, a, ha => by
    rw [show a + (d + 1) = a + d + 1 from rfl, ← Finset.sum_Ico_consecutive g (h.mono d a (by omega)) (h.more (a + d) (by omega)).le, h.blocks g d a (by omega), Finset.sum_Ico_succ_top (by omega)]

theorem sum_all (h : Finer φ s sys fine) (g : Nat → ℚ) :
    ∑ j ∈ Finset.range fine.n, g j = ∑ t ∈ Finset.range sys.n, ∑ j ∈ Finset.Ico (s t) (s (t + 1)), g j := by
  have := h.blocks g sys.n 0 (by omega)
  simp only [Nat.zero_add, h.zero, h.last] at this
  rwa [← Finset.range_eq_Ico, ← Finset.range_eq_Ico] at this

theorem sum_widths (h : Finer φ s sys fine) {a b : Nat} (hab : a ≤ b) (hb : b ≤ sys.n) :
    ∑ j ∈ Finset.Ico (s a) (s b), fine.width j = ∑ t ∈ Finset.Ico a b, sys.width t := by
  have := h.blocks fine.width (b - a) a (by omega)
  rw [show a + (b - a) = b by omega] at this
  rw [this]
  exact Finset.sum_congr rfl fun t ht => h.width t (by have := (Finset.mem_Ico.1 ht).2; omega)

/-- What is constant within the steps. -/
theorem sum_const (h : Finer φ s sys fine) (g : Nat → ℚ) :
    ∑ j ∈ Finset.range fine.n, fine.width j * g (φ j) = ∑ t ∈ Finset.range sys.n, sys.width t * g t := by
  rw [h.sum_all]
  refine Finset.sum_congr rfl fun t ht => ?_
  have ht := Finset.mem_range.1 ht
  rw [show sys.width t = _ from (h.width t ht).symm, Finset.sum_mul]
  refine Finset.sum_congr rfl fun j hj => ?_
  obtain ⟨j1, j2⟩ := Finset.mem_Ico.1 hj
  rw [h.part t ht j j1 j2]
  rfl

theorem total (h : Finer φ s sys fine) (hv : sys.Valid) (hf : fine.Valid) : fine.total = sys.total := by
  have key : ∀ sy : Sys, sy.Valid → sy.total = ∑ t ∈ Finset.range sy.n, sy.width t := by
    intro sy hy
    rw [hy.htotal, ← hy.hdt]
    have : ∀ l : List ℚ, l.sum = ∑ t ∈ Finset.range l.length, l.getD t 0 := by
      intro l
      induction l with
      | nil => rfl
      | cons a l ih => rw [List.sum_cons, List.length_cons, Finset.sum_range_succ', ih, add_comm]; rfl
    exact this _
  rw [key fine hf, key sys hv]
  simpa using h.sum_const fun _ => 1

end Finer

/-! ## Series -/

theorem at_getD {ys : List ℚ} {i : Nat} (hi : i < ys.length) : (Num.v ys).at i = ys.getD i 0 := by
  match ys, hi with
  | [y], hi =>
    have : i = 0 := by simp at hi; omega
    subst this; rfl
  | y :: z :: ys, _ => rfl

theorem at_spread (h : Finer φ s sys fine) {x : Num} (hx : x.Fits sys.n) {j : Nat} (hj : j < fine.n) : (x.spread fine.n φ).at j = x.at (φ j) := by
  cases x with
  | s x => rfl
  | v xs =>
    rcases hx with e | e
    · cases e
    · have e : xs.length = sys.n := e
      have hlt := (h.owner hj).1
      unfold Num.spread
      rw [at_getD (by simpa using hj), at_getD (by omega)]
      simp [List.getD_eq_getElem?_getD, hj]

theorem fits_spread (N : Nat) (φ : Nat → Nat) (x : Num) : (x.spread N φ).Fits N := by
  cases x with
  | s x => exact .inl rfl
  | v xs => exact .inr (by simp [Num.spread, Num.len])

theorem low_spread (h : Finer φ s sys fine) {f : FlowData} (hf : f.Fits sys.n) {j : Nat} (hj : j < fine.n) :
    (f.spread fine.n φ).lowRel j = f.lowRel (φ j) ∧ (f.spread fine.n φ).highRel j = f.highRel (φ j) := by
  unfold FlowData.lowRel FlowData.highRel FlowData.spread
  cases hp : f.fixedProfile with
  | none => exact ⟨at_spread h hf.relMin hj, at_spread h hf.relMax hj⟩
  | some g => exact ⟨at_spread h (hf.prof g hp) hj, at_spread h (hf.prof g hp) hj⟩

theorem onOff_spread_fits (N : Nat) (φ : Nat → Nat) (q : OnOffParams) : (q.spread N φ).Fits N := by
  constructor <;>
  · intro m hm
    obtain ⟨m', _, rfl⟩ := Option.map_eq_some_iff.1 hm
    exact fits_spread _ _ _

theorem flow_spread_fits (N : Nat) (φ : Nat → Nat) (f : FlowData) : (f.spread N φ).Fits N where
  relMin := fits_spread _ _ _
  relMax := fits_spread _ _ _
  prof := by
    intro g hg
    obtain ⟨g', _, rfl⟩ := Option.map_eq_some_iff.1 hg
    exact fits_spread _ _ _
  onOff := by
    intro q hq
    obtain ⟨q', _, rfl⟩ := Option.map_eq_some_iff.1 hq
    exact onOff_spread_fits _ _ _

theorem nonneg_spread (h : Finer φ s sys fine) {q : OnOffParams} (hq : q.Fits sys.n) (hn : q.NonnegLimits sys.n) : (q.spread fine.n φ).NonnegLimits fine.n := by
  intro m hm j hj
  have key : ∀ x : Option Num, (∀ m, x = some m → m.Fits sys.n ∧ ∀ t < sys.n, 0 ≤ m.at t) → x.map (Num.spread fine.n φ) = some m → 0 ≤ m.at j := by
    intro x hx he
    obtain ⟨m', h1, rfl⟩ := Option.map_eq_some_iff.1 he
    rw [at_spread h (hx m' h1).1 hj]
    exact (hx m' h1).2 _ (h.owner hj).1
  rcases hm with hm | hm | hm | hm
  · exact key _ (fun m' h' => ⟨hq.onMin m' h', hn m' (.inl h')⟩) hm
  · exact key _ (fun m' h' => ⟨hq.onMax m' h', hn m' (.inr (.inl h'))⟩) hm
  · exact key _ (fun m' h' => ⟨hq.offMin m' h', hn m' (.inr (.inr (.inl h')))⟩) hm
  · exact key _ (fun m' h' => ⟨hq.offMax m' h', hn m' (.inr (.inr (.inr h')))⟩) hm

/-! ## Schedules -/

theorem run_spread (h : Finer φ s sys fine) (hf : fine.Valid) {b : Nat → ℚ} {before : ℚ} {j : Nat} {x : ℚ} (hj : j < fine.n)
    (hr : RunUpTo (fun j => b (φ j)) fine.width before j x) :
    ∃ y, RunUpTo b sys.width before (φ j) y ∧ x ≤ y ∧ (j + 1 = s (φ j + 1) → x = y) := by
  obtain ⟨o1, o2, o3⟩ := h.owner hj
  have part : ∀ a ≤ j + 1, ∑ k ∈ Finset.Ico a (j + 1), fine.width k ≤ ∑ k ∈ Finset.Ico a (s (φ j + 1)), fine.width k := by
    intro a _
    refine Finset.sum_le_sum_of_subset_of_nonneg (Finset.Ico_subset_Ico_right (by omega)) fun k hk _ => ?_
    exact (hf.width_pos (h.inside o1 (Finset.mem_Ico.1 hk).2)).le
  cases hr with
  | idle h0 => exact ⟨0, .idle h0, le_rfl, fun _ => rfl⟩
  | @started i _ hij h0 h1 =>
    have hi : i < fine.n := by omega
    obtain ⟨p1, p2, p3⟩ := h.owner hi
    have hlt : φ i < φ j := by
      refine lt_of_le_of_ne (h.phi_mono hij.le hj) fun e => ?_
      have : b (φ j) = 1 := h1 j hij le_rfl
      have h0 : b (φ i) = 0 := h0
      rw [← e, h0] at this
      norm_num at this
    have hst : i + 1 = s (φ i + 1) := by
      rcases h.next (j := i) (by omega) with e | ⟨_, e⟩
      · have : b (φ (i + 1)) = 1 := h1 (i + 1) (by omega) (by omega)
        have h0 : b (φ i) = 0 := h0
        rw [e, h0] at this
        norm_num at this
      · exact e
    refine ⟨_, .started (s := φ i) hlt h0 (fun k hk1 hk2 => ?_), ?_⟩
    · have hkn : k < sys.n := by omega
      have e := (h.first hkn).1
      have := h1 (s k) (by have := h.le (a := φ i + 1) (b := k) hk1 hkn.le; omega) (le_trans (h.le hk2 o1.le) o2)
      simp only [e] at this
      exact this
    · have conv : ∀ (w : Nat → ℚ) (a b : Nat), ∑ k ∈ Finset.Icc a b, w k = ∑ k ∈ Finset.Ico a (b + 1), w k := fun w a b => by
        congr 1
      rw [conv, conv, ← h.sum_widths (a := φ i + 1) (b := φ j + 1) (by omega) (by omega), hst]
      refine ⟨part _ (by omega), fun e => ?_⟩
      rw [← e]
  | carried h1 =>
    refine ⟨_, .carried fun k hk => ?_, ?_⟩
    · have hkn : k < sys.n := by omega
      have e := (h.first hkn).1
      have := h1 (s k) (le_trans (h.le hk o1.le) o2)
      simp only [e] at this
      exact this
    · have e2 : ∑ k ∈ Finset.range (φ j + 1), sys.width k = ∑ k ∈ Finset.Ico 0 (s (φ j + 1)), fine.width k := by
        rw [Finset.range_eq_Ico, ← h.sum_widths (a := 0) (b := φ j + 1) (by omega) (by omega), h.zero]
      rw [e2, Finset.range_eq_Ico]
      refine ⟨by linarith [part 0 (by omega)], fun e => ?_⟩
      rw [e]

theorem runs_spread (h : Finer φ s sys fine) (hn : 0 < sys.n) (hf : fine.Valid) {b : Nat → ℚ} {before : ℚ} {lo hi : Option Num}
    (hlo : ∀ m, lo = some m → m.Fits sys.n) (hhi : ∀ m, hi = some m → m.Fits sys.n) (hr : RunsRespect sys.n b sys.width before (lo.map Num.at) (hi.map Num.at)) :
    RunsRespect fine.n (fun j => b (φ j)) fine.width before ((lo.map (·.spread fine.n φ)).map Num.at) ((hi.map (·.spread fine.n φ)).map Num.at) := by
  refine ⟨fun m hm j x hj h1 h0 hx => ?_, fun m hm j x hj h1 hx => ?_, fun m hm h1 h2 => ?_⟩
  · simp only [Option.map_map, Option.map_eq_some_iff] at hm
    obtain ⟨m', hm', rfl⟩ := hm
    simp only [Function.comp, at_spread h (hlo m' hm') (show j < fine.n by omega)]
    obtain ⟨y, hy, _, he⟩ := run_spread h hf (by omega) hx
    rcases h.next hj with e | ⟨e, e'⟩
    · simp only [e] at h0
      rw [h0] at h1
      norm_num at h1
    · rw [he e']
      have := (h.owner hj).1
      exact hr.longEnough m'.at (by rw [hm']; rfl) (φ j) y (by omega) h1 (by simpa only [e] using h0) hy
  · simp only [Option.map_map, Option.map_eq_some_iff] at hm
    obtain ⟨m', hm', rfl⟩ := hm
    simp only [Function.comp, at_spread h (hhi m' hm') hj]
    obtain ⟨y, hy, hle, _⟩ := run_spread h hf hj hx
    exact le_trans hle (hr.notTooLong m'.at (by rw [hm']; rfl) (φ j) y (h.owner hj).1 h1 hy)
  · simp only [Option.map_map, Option.map_eq_some_iff] at hm
    obtain ⟨m', hm', rfl⟩ := hm
    simp only [Function.comp, at_spread h (hlo m' hm') (h.pos hn), h.start hn] at h2
    simp only [h.start hn]
    exact hr.continued m'.at (by rw [hm']; rfl) h1 h2

theorem schedule_spread (h : Finer φ s sys fine) (hn : 0 < sys.n) (hf : fine.Valid) {q : OnOffParams} (hq : q.Fits sys.n) {hist : List ℚ} {last : ℚ} {b : Nat → ℚ}
    (hs : ScheduleOk sys q hist last b) : ScheduleOk fine (q.spread fine.n φ) hist last fun j => b (φ j) := by
  have hbin : ∀ j < fine.n, (fun j => b (φ j)) j = 0 ∨ (fun j => b (φ j)) j = 1 := fun j hj => hs.bin _ (h.owner hj).1
  have hours : ∑ k ∈ onSteps (fun j => b (φ j)) fine.n, fine.width k = ∑ k ∈ onSteps b sys.n, sys.width k := by
    rw [← sum_onSteps hbin, ← sum_onSteps hs.bin]
    exact h.sum_const b
  refine ⟨hbin, fun m hm => ?_, fun m hm => ?_, fun m hm => ?_, fun before hb => ?_, fun before hb => ?_⟩
  · rw [hours]; exact hs.totalMin m hm
  · rw [hours]; exact hs.totalMax m hm
  · refine le_trans ?_ (hs.starts m hm)
    have key : ∀ j ∈ startSteps (fun j => b (φ j)) last fine.n, φ j ∈ startSteps b last sys.n ∧ j = s (φ j) := by
      intro j hj
      unfold startSteps at hj ⊢
      obtain ⟨hj, h1, h2⟩ := Finset.mem_filter.1 hj
      have hj := Finset.mem_range.1 hj
      have hlt := (h.owner hj).1
      have h2 : b (φ j) = 1 := h2
      cases j with
      | zero =>
        rw [h.start hn] at hlt h2 ⊢
        exact ⟨Finset.mem_filter.2 ⟨Finset.mem_range.2 hlt, h1, h2⟩, h.zero.symm⟩
      | succ i =>
        rcases h.next hj with e | ⟨e, e'⟩
        · have h1 : b (φ i) = 0 := h1
          rw [e, h1] at h2
          norm_num at h2
        · rw [e]
          refine ⟨Finset.mem_filter.2 ⟨Finset.mem_range.2 (by omega), h1, ?_⟩, e'⟩
          rw [← e]
          exact h2
    exact_mod_cast Finset.card_le_card_of_injOn φ (fun j hj => (key j hj).1) fun i hi j hj e => by
      rw [(key i hi).2, (key j hj).2, e]
  · rw [h.cfg, h.before] at hb
    exact runs_spread h hn hf hq.onMin hq.onMax (hs.runsOn before hb)
  · rw [h.cfg, h.before] at hb
    exact runs_spread h hn hf hq.offMin hq.offMax (hs.runsOff before hb)

end Flix
