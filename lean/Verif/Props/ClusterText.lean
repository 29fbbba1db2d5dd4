import Verif.Model.ClusterText
import Verif.Lemmas.Ties
import Std.Data.String.ToNat

/-!
# C120: the description of a clustering
-/

namespace Flix

variable {s : ClusterState} {c : ClusterData} {txt : ClusterText}

/-! ## The text of a range tells the range -/

theorem before_dot {x x' y y' : List Char} (hx : '.' ∉ x) (hx' : '.' ∉ x') (h : x ++ '.' :: y = x' ++ '.' :: y') : x = x' ∧ y = y' := by
  induction x generalizing x' with
  | nil =>
    cases x' with
    | nil => simpa using h
    | cons b x' =>
      simp only [List.nil_append, List.cons_append, List.cons.injEq] at h
      exact absurd (by rw [h.1]; simp) hx'
  | cons a x ih =>
    cases x' with
    | nil =>
      simp only [List.nil_append, List.cons_append, List.cons.injEq] at h
      exact absurd (by rw [← h.1]; simp) hx
    | cons b x' =>
      simp only [List.cons_append, List.cons.injEq] at h
      obtain ⟨h1, h2⟩ := ih (fun hm => hx (by simp [hm])) (fun hm => hx' (by simp [hm])) h.2
      exact ⟨by rw [h.1, h1], h2⟩

theorem no_dot (n : Nat) : '.' ∉ (toString n).toList := by
  intro h
  rw [Nat.toString_eq_repr, Nat.toList_repr] at h
  have := Nat.isDigit_of_mem_toDigits (by decide) (by decide) h
  revert this
  decide

theorem rangeText_inj {a b a' b' : Nat} (h : rangeText a b = rangeText a' b') : a = a' ∧ b = b' := by
  have h := congrArg String.toList h
  simp only [rangeText, String.toList_append, List.append_assoc] at h
  obtain ⟨h1, h2⟩ := before_dot (no_dot a) (no_dot a') h
  refine ⟨Nat.repr_inj.1 (String.toList_injective h1), ?_⟩
  have h3 : (toString b).toList = (toString b').toList := by simpa using h2
  exact Nat.repr_inj.1 (String.toList_injective h3)

/-! ## Ranges -/

theorem vectorText_ok {p : Nat} {t : String} : vectorText (c.periodIndices p) = .ok t ↔ 0 < c.len ∧ p * c.len < c.total ∧ t = rangeText (p * c.len) (min (p * c.len + c.len) c.total - 1) := by
  unfold vectorText ClusterData.periodIndices
  by_cases h : 0 < min (p * c.len + c.len) c.total - p * c.len
  · obtain ⟨m, hm⟩ : ∃ m, min (p * c.len + c.len) c.total - p * c.len = m + 1 := ⟨_, (Nat.succ_pred_eq_of_pos h).symm⟩
    have hl : p * c.len + m = min (p * c.len + c.len) c.total - 1 := by omega
    have h1 : 0 < c.len := by omega
    have h2 : p * c.len < c.total := by omega
    have e2 : (List.range' (p * c.len) (m + 1)).getLast? = some (p * c.len + m) := by
      rw [List.range'_concat]
      simp
    rw [hm, e2, List.range'_succ, hl]
    simp only [List.head?_cons, Except.ok.injEq]
    exact ⟨fun e => ⟨h1, h2, e.symm⟩, fun e => e.2.2.symm⟩
  · have h0 : min (p * c.len + c.len) c.total - p * c.len = 0 := by omega
    rw [h0]
    simp only [List.range'_zero, List.head?_nil, List.getLast?_nil]
    refine ⟨fun e => (by cases e), fun e => ?_⟩
    omega

/-- The ranges of the periods of the cluster `k`. -/
def ClusterData.textsOf (c : ClusterData) (k : Nat) : List String := (periodsOf c.order k).map fun q => rangeText (q.1 * c.len) (min (q.1 * c.len + c.len) c.total - 1)

theorem rangeTexts_ok {r : List (Nat × List String)} : c.rangeTexts = .ok r ↔
    (∀ k ∈ c.order, k ∈ c.keys) ∧ (∀ k ∈ c.keys, ∀ q ∈ periodsOf c.order k, 0 < c.len ∧ q.1 * c.len < c.total) ∧ r = c.keys.map fun k => (k, c.textsOf k) := by
  have one : ∀ (l : List (Nat × Nat)) (ts : List String), (l.map fun q => c.periodIndices q.1).mapM vectorText = .ok ts ↔
      (∀ q ∈ l, 0 < c.len ∧ q.1 * c.len < c.total) ∧ ts = l.map fun q => rangeText (q.1 * c.len) (min (q.1 * c.len + c.len) c.total - 1) := by
    intro l
    induction l with
    | nil => intro ts; simp [except_pure, eq_comm]
    | cons q l ih =>
      intro ts
      simp only [List.map_cons, mapM_ok, List.forall₂_cons_left_iff, List.forall_mem_cons]
      constructor
      · rintro ⟨t, us, h1, h2, rfl⟩
        obtain ⟨a1, a2, rfl⟩ := vectorText_ok.1 h1
        obtain ⟨b1, rfl⟩ := (ih us).1 (mapM_ok.2 h2)
        exact ⟨⟨⟨a1, a2⟩, b1⟩, rfl⟩
      · rintro ⟨⟨⟨a1, a2⟩, b1⟩, rfl⟩
        exact ⟨_, _, vectorText_ok.2 ⟨a1, a2, rfl⟩, mapM_ok.1 ((ih _).2 ⟨b1, rfl⟩), rfl⟩
  have all : ∀ (ks : List Nat) (r : List (Nat × List String)),
      ((ks.map fun k => (k, (periodsOf c.order k).map fun q => c.periodIndices q.1)).mapM (m := Except Err) fun q => do
        let ts ← q.2.mapM vectorText
        return (q.1, ts)) = .ok r ↔ (∀ k ∈ ks, ∀ q ∈ periodsOf c.order k, 0 < c.len ∧ q.1 * c.len < c.total) ∧ r = ks.map fun k => (k, c.textsOf k) := by
    intro ks
    induction ks with
    | nil => intro r; simp [except_pure, eq_comm]
    | cons k ks ih =>
      intro r
      simp only [List.map_cons, mapM_ok, List.forall₂_cons_left_iff, List.forall_mem_cons]
      constructor
      · rintro ⟨t, us, h1, h2, rfl⟩
        peel h1 with ts, hts
        simp only [except_pure, Except.ok.injEq] at h1
        subst h1
        obtain ⟨a1, rfl⟩ := (one _ _).1 hts
        obtain ⟨b1, rfl⟩ := (ih us).1 (mapM_ok.2 h2)
        exact ⟨⟨a1, b1⟩, rfl⟩
      · rintro ⟨⟨a1, b1⟩, rfl⟩
        refine ⟨_, _, ?_, mapM_ok.1 ((ih _).2 ⟨b1, rfl⟩), rfl⟩
        rw [(one _ _).2 ⟨a1, rfl⟩]
        rfl
  unfold ClusterData.rangeTexts
  constructor
  · intro h
    peel h with d, hd
    obtain ⟨h1, rfl⟩ := clusterIndices_ok.1 hd
    obtain ⟨h2, h3⟩ := (all _ _).1 h
    exact ⟨h1, h2, h3⟩
  · rintro ⟨h1, h2, h3⟩
    rw [clusterIndices_ok.2 ⟨h1, rfl⟩]
    exact (all _ _).2 ⟨h2, h3⟩

theorem describe_ranges (h : s.describe.2 = .ok txt) : s.data.rangeTexts = .ok txt.ranges ∧ txt.order = s.data.order ∧ s.describe.1.data = s.data ∧ s.describe.1.high = s.high ∧ s.describe.1.low = s.low := by
  unfold ClusterState.describe at h ⊢
  cases hr : s.data.rangeTexts with
  | error e => rw [hr] at h; cases h
  | ok r =>
    rw [hr] at h
    by_cases hu : s.useExtremes = true
    · simp only [hu, if_true] at h ⊢
      cases hd : (delProfiles s.extremes).2 with
      | error e => rw [hd] at h; cases h
      | ok u =>
        rw [hd] at h
        cases h
        simp
    · simp only [hu] at h ⊢
      cases h
      simp

/-- **C120 (ranges).**  Every time step of a period is in a range described for the cluster of its period and in no range described for another one. -/
theorem C120_ranges (h : s.describe.2 = .ok txt) {t : Nat} (ht : t < s.data.total) (hp : t / s.data.len < s.data.order.length) (k : Nat) :
    (∃ ts a b, (k, ts) ∈ txt.ranges ∧ rangeText a b ∈ ts ∧ a ≤ t ∧ t ≤ b) ↔ s.data.order[t / s.data.len]? = some k := by
  obtain ⟨hr, -⟩ := describe_ranges h
  obtain ⟨h1, h2, h3⟩ := rangeTexts_ok.1 hr
  generalize s.data = c at *
  rw [h3]
  constructor
  · rintro ⟨ts, a, b, hm, hts, ha, hb⟩
    obtain ⟨k', hk', e⟩ := List.mem_map.1 hm
    cases e
    obtain ⟨q, hq, e⟩ := List.mem_map.1 hts
    obtain ⟨e1, e2⟩ := rangeText_inj e
    obtain ⟨h4, h5⟩ := h2 _ hk' q hq
    obtain ⟨g1, g2⟩ := mem_periodsOf.1 hq
    have : t / c.len = q.1 := by
      rw [Nat.div_eq_iff h4]
      constructor <;> omega
    rw [this]
    exact g1
  · intro hk
    have hmem : k ∈ c.order := List.mem_of_getElem? hk
    have hq : (t / c.len, k) ∈ periodsOf c.order k := mem_periodsOf.2 ⟨hk, rfl⟩
    obtain ⟨h4, h5⟩ := h2 k (h1 k hmem) _ hq
    refine ⟨_, _, _, List.mem_map_of_mem (h1 k hmem), List.mem_map_of_mem hq, Nat.div_mul_le_self _ _, ?_⟩
    have := Nat.lt_div_mul_add h4 (a := t)
    show t ≤ min (t / c.len * c.len + c.len) c.total - 1
    omega

theorem zip_range_filter (l : List Nat) (k : Nat) : (periodsOf l k).length = l.count k := by
  unfold periodsOf
  have : ∀ (l : List Nat) (m : Nat), ((List.zip (List.range' m l.length) l).filter fun q => q.2 = k).length = l.count k := by
    intro l
    induction l with
    | nil => intro m; rfl
    | cons a l ih =>
      intro m
      rw [List.length_cons, List.range'_succ, List.zip_cons_cons, List.filter_cons, List.count_cons]
      by_cases ha : a = k
      · simp [ha, ih]
      · simp [ha, ih]
  rw [List.range_eq_range']
  exact this l 0

/-- **C120 (number).**  Every cluster is described, in the order of the clusters, with as many ranges as it has periods. -/
theorem C120_number (h : s.describe.2 = .ok txt) : txt.order = s.data.order ∧ txt.ranges.map (fun q => (q.1, q.2.length)) = s.data.keys.map fun k => (k, s.data.order.count k) := by
  obtain ⟨hr, ho, -⟩ := describe_ranges h
  obtain ⟨-, -, h3⟩ := rangeTexts_ok.1 hr
  refine ⟨ho, ?_⟩
  rw [h3, List.map_map]
  refine List.map_congr_left fun k _ => ?_
  simp only [Function.comp_apply, ClusterData.textsOf, List.length_map, zip_range_filter]

theorem delProfiles_ok : ∀ {l : List (String × List (String × String))}, (delProfiles l).2 = .ok () ↔ ∀ q ∈ l, "profile" ∈ q.2.map Prod.fst
  | [] => by simp [delProfiles]
  | (k, d) :: r => by
    unfold delProfiles
    by_cases h : "profile" ∈ d.map Prod.fst
    · rw [if_pos h]
      simp only [delProfiles_ok (l := r), List.forall_mem_cons]
      exact ⟨fun g => ⟨h, g⟩, fun g => g.2⟩
    · rw [if_neg h]
      simp only [List.forall_mem_cons]
      exact ⟨fun e => (by cases e), fun g => absurd g.1 h⟩

theorem delProfiles_state : ∀ {l : List (String × List (String × String))}, (∀ q ∈ l, "profile" ∈ q.2.map Prod.fst) →
    (delProfiles l).1 = l.map fun q => (q.1, q.2.filter fun r => r.1 ≠ "profile")
  | [], _ => rfl
  | (k, d) :: r, h => by
    rw [List.forall_mem_cons] at h
    unfold delProfiles
    rw [if_pos h.1]
    simp only [delProfiles_state h.2, List.map_cons]

/-- **C120 (succeeds).**  Once the periods are assigned to clusters that exist and none of them begins after the last step, a new clustering can be described. -/
theorem C120_succeeds (hk : ∀ k ∈ s.data.order, k ∈ s.data.keys) (hl : 0 < s.data.len) (ht : ∀ p < s.data.order.length, p * s.data.len < s.data.total)
    (hx : ∀ q ∈ s.extremes, "profile" ∈ q.2.map Prod.fst) : ∃ txt, s.describe.2 = .ok txt := by
  have hr := rangeTexts_ok.2 ⟨hk, fun k _ q hq => ⟨hl, ht q.1 (by
    obtain ⟨g, _⟩ := mem_periodsOf.1 hq
    by_contra hc
    rw [List.getElem?_eq_none (not_lt.1 hc)] at g
    cases g)⟩, rfl⟩
  unfold ClusterState.describe
  rw [hr]
  by_cases hu : s.useExtremes = true
  · simp only [hu, if_true, delProfiles_ok.2 hx]
    exact ⟨_, rfl⟩
  · simp only [hu]
    exact ⟨_, rfl⟩

/-- **C120, the part that holds.**  If no peaks are kept, describing leaves everything as it was, so that describing again gives the same text.  Missing: with peaks. -/
theorem C120_partial (hh : s.high = []) (hl : s.low = []) : s.describe.1 = s ∧ s.describe.1.describe = s.describe := by
  have hu : s.useExtremes = false := by simp [ClusterState.useExtremes, hh, hl]
  have : s.describe.1 = s := by
    unfold ClusterState.describe
    cases s.data.rangeTexts with
    | error e => rfl
    | ok r => simp [hu]
  exact ⟨this, by rw [this]⟩

/-- **C120 (first).**  With peaks, the first text shows the extreme periods without their profiles; and these are what is left of them in the clustering. -/
theorem C120_first (h : s.describe.2 = .ok txt) (hu : s.high ≠ [] ∨ s.low ≠ []) :
    txt.extremes = s.extremes.map (fun q => (q.1, q.2.filter fun r => r.1 ≠ "profile")) ∧ s.describe.1.extremes = txt.extremes ∧ (∀ q ∈ s.extremes, "profile" ∈ q.2.map Prod.fst) := by
  have hu' : s.useExtremes = true := by simpa [ClusterState.useExtremes] using hu
  unfold ClusterState.describe at h ⊢
  cases hr : s.data.rangeTexts with
  | error e => rw [hr] at h; cases h
  | ok r =>
    rw [hr] at h
    simp only [hu', if_true] at h ⊢
    cases hd : (delProfiles s.extremes).2 with
    | error e => rw [hd] at h; cases h
    | ok u =>
      rw [hd] at h
      cases h
      have := delProfiles_ok.1 hd
      exact ⟨delProfiles_state this, rfl, this⟩

/-- **C120 is violated.**  Whenever peaks are kept, describing a clustering with extreme periods deletes their profiles, and describing it again fails with a `KeyError`. -/
theorem C120_wrong (h : s.describe.2 = .ok txt) (hu : s.high ≠ [] ∨ s.low ≠ []) (hx : s.extremes ≠ []) : s.describe.1 ≠ s ∧ s.describe.1.describe.2 = .error .key := by
  obtain ⟨h1, h2, h3⟩ := C120_first h hu
  obtain ⟨hr, _, hd, hh, hl⟩ := describe_ranges h
  rw [h1] at h2
  obtain ⟨q, l, e⟩ := List.exists_cons_of_ne_nil hx
  have hq := h3 q (by rw [e]; exact List.mem_cons_self)
  have gone : "profile" ∉ (q.2.filter fun r => r.1 ≠ "profile").map Prod.fst := by
    intro hm
    obtain ⟨r, hr, hr'⟩ := List.mem_map.1 hm
    have := (List.mem_filter.1 hr).2
    simp [hr'] at this
  refine ⟨fun hs => ?_, ?_⟩
  · rw [hs, e] at h2
    simp only [List.map_cons, List.cons.injEq] at h2
    rw [h2.1] at hq
    exact gone hq
  · have hu' : s.describe.1.useExtremes = true := by
      unfold ClusterState.useExtremes
      rw [hh, hl]
      simpa using hu
    generalize s.describe.1 = s' at *
    unfold ClusterState.describe
    rw [hd, hr]
    simp only [hu', if_true]
    rw [h2, e]
    simp only [List.map_cons, delProfiles, gone, if_false]
    rfl

/-! ## Examples -/

/-- Five periods of two steps (the last one short) in two clusters. -/
def exDescribed (high : List String) : ClusterState :=
  { data := { keys := [0, 1], order := [0, 1, 0, 1, 1], len := 2, total := 9 }, extremes := [("heat max.", [("stepNo", "3"), ("profile", "[1, 2]"), ("column", "heat")])], high := high, low := [] }

/-- The hypotheses are met, without and with peaks. -/
example : (exDescribed []).describe.2 = .ok { order := [0, 1, 0, 1, 1], ranges := [(0, ["0...1", "4...5"]), (1, ["2...3", "6...7", "8...8"])], extremes := [] } ∧
    (exDescribed ["heat"]).describe.2 = .ok { order := [0, 1, 0, 1, 1], ranges := [(0, ["0...1", "4...5"]), (1, ["2...3", "6...7", "8...8"])], extremes := [("heat max.", [("stepNo", "3"), ("column", "heat")])] } ∧
    (exDescribed ["heat"]).describe.1.describe.2 = .error .key := by
  have h : (exDescribed ["heat"]).describe.2 = .ok { order := [0, 1, 0, 1, 1], ranges := [(0, ["0...1", "4...5"]), (1, ["2...3", "6...7", "8...8"])], extremes := [("heat max.", [("stepNo", "3"), ("column", "heat")])] } := by
    decide +kernel
  exact ⟨by decide +kernel, h, (C120_wrong h (.inl (by simp [exDescribed])) (by simp [exDescribed])).2⟩

/-- The hypotheses of `C120_succeeds`. -/
example : ∃ txt, (exDescribed ["heat"]).describe.2 = .ok txt := by
  refine C120_succeeds (by decide) (by decide) (fun p hp => ?_) (by simp [exDescribed])
  have : p < 5 := hp
  show p * 2 < 9
  omega

/-- Step 7 is in a range of cluster 1 only. -/
example : ∃ txt, (exDescribed []).describe.2 = .ok txt ∧ ∀ k, (∃ ts a b, (k, ts) ∈ txt.ranges ∧ rangeText a b ∈ ts ∧ a ≤ 7 ∧ 7 ≤ b) ↔ 1 = k := by
  obtain ⟨txt, h⟩ : ∃ txt, (exDescribed []).describe.2 = .ok txt := C120_succeeds (by decide) (by decide) (fun p hp => by
    have : p < 5 := hp
    show p * 2 < 9
    omega) (by simp [exDescribed])
  exact ⟨txt, h, fun k => (C120_ranges h (t := 7) (by decide) (by decide) k).trans (by simp [exDescribed])⟩

end Flix
