import Verif.Model.Window
import Verif.Props.Exact

/-! # Segments see the declarations of their steps; plans for segments put one after the other -/

namespace Flix

theorem at_cut {xs : List ℚ} {a len t : Nat} (ht : t < len) (h : a + len ≤ xs.length) : (Num.v ((xs.drop a).take len)).at t = (Num.v xs).at (a + t) := by
  have key : ∀ ys : List ℚ, ∀ i < ys.length, (Num.v ys).at i = ys.getD i 0 := by
    intro ys i hi
    match ys, hi with
    | [y], hi =>
      have : i = 0 := by simp at hi; omega
      subst this; rfl
    | y :: z :: ys, _ => rfl
  rw [key _ _ (by simp; omega), key _ _ (by omega)]
  simp only [List.getD_eq_getElem?_getD]
  rw [List.getElem?_take_of_lt ht, List.getElem?_drop]

theorem at_window {n a len t : Nat} {x : Num} (hx : x.Fits n) (hl : a + len ≤ n) (ht : t < len) : (x.window a len).at t = x.at (a + t) := by
  cases x with
  | s x => rfl
  | v xs =>
    rcases hx with h | h
    · cases h
    · exact at_cut ht (by rw [show xs.length = n from h]; exact hl)

theorem fits_window {n a len : Nat} {x : Num} (hx : x.Fits n) (hl : a + len ≤ n) : (x.window a len).Fits len := by
  cases x with
  | s x => exact .inl rfl
  | v xs =>
    rcases hx with h | h
    · cases h
    · right
      have : xs.length = n := h
      simp only [Num.window, Num.len, List.length_take, List.length_drop]
      omega

variable {sys : Sys}

theorem width_window {a len t : Nat} (hv : sys.Valid) (hl : a + len ≤ sys.n) (ht : t < len) : (sys.window a len).width t = sys.width (a + t) := by
  unfold Sys.width Sys.window
  simp only [List.getD_eq_getElem?_getD]
  rw [List.getElem?_take_of_lt ht, List.getElem?_drop]

theorem valid_window {a len : Nat} (hv : sys.Valid) (hl : a + len ≤ sys.n) : (sys.window a len).Valid where
  hdt := by
    have := hv.hdt
    simp only [Sys.window, List.length_take, List.length_drop]
    omega
  hpos := fun d hd => hv.hpos d (List.mem_of_mem_drop (List.mem_of_mem_take hd))
  htotal := rfl
  heps := hv.heps

/-! ## Steps and segments -/

/-- `m` segments of `L` steps and some more cover `N` steps; segment `k` begins at step `k * L` and has `len k` steps. -/
structure Cover (N L m : Nat) (len : Nat → Nat) : Prop where
  pos : 0 < L
  count : N ≤ m * L
  some : 0 < m
  inside : ∀ k < m, k * L + len k ≤ N
  whole : ∀ k, k + 1 < m → L ≤ len k
  last : ∀ k, k + 1 = m → k * L + len k = N
  nonempty : ∀ k < m, 0 < len k

theorem Cover.owner {N L m : Nat} {len : Nat → Nat} (h : Cover N L m len) {t : Nat} (ht : t < N) : t / L < m ∧ t % L < len (t / L) ∧ t / L * L + t % L = t := by
  have e : t / L * L + t % L = t := Nat.div_add_mod' t L
  have h1 : t / L < m := (Nat.div_lt_iff_lt_mul h.pos).2 (lt_of_lt_of_le ht h.count)
  refine ⟨h1, ?_, e⟩
  by_cases hk : t / L + 1 < m
  · exact lt_of_lt_of_le (Nat.mod_lt _ h.pos) (h.whole _ hk)
  · have := h.last (t / L) (by omega)
    omega

/-! ## Declarations without coupling between distant steps -/

/-- States without limits on sums, starts and durations. -/
structure OnOffParams.Local (q : OnOffParams) : Prop where
  hours : q.onHoursTotalMin = none ∧ q.onHoursTotalMax = none
  starts : q.switchOnTotalMax = none
  on : q.consecOnMin = none ∧ q.consecOnMax = none
  off : q.consecOffMin = none ∧ q.consecOffMax = none

/-- A flow of given size without limits on sums. -/
structure FlowData.Local (f : FlowData) : Prop where
  size : ∀ q, f.size ≠ .invest q
  hours : f.flowHoursTotalMin = none ∧ f.flowHoursTotalMax = none
  load : f.loadFactorMin = none ∧ f.loadFactorMax = none
  onOff : ∀ q, f.onOff = some q → q.Local

theorem OnOffParams.Local.window {q : OnOffParams} (h : q.Local) (a len : Nat) : (q.window a len).Local :=
  ⟨h.hours, h.starts, by simp [OnOffParams.window, h.on], by simp [OnOffParams.window, h.off]⟩

theorem OnOffParams.Local.fits {q : OnOffParams} (h : q.Local) (n : Nat) : q.Fits n :=
  ⟨by simp [h.on], by simp [h.on], by simp [h.off], by simp [h.off]⟩

theorem OnOffParams.Local.nonneg {q : OnOffParams} (h : q.Local) (n : Nat) : q.NonnegLimits n := by
  intro m hm
  simp [h.on, h.off] at hm

theorem OnOffParams.Local.schedule {q : OnOffParams} (h : q.Local) {hist : List ℚ} {last : ℚ} {b : Nat → ℚ} (hb : ∀ t < sys.n, b t = 0 ∨ b t = 1) :
    ScheduleOk sys q hist last b where
  bin := hb
  totalMin := by simp [h.hours]
  totalMax := by simp [h.hours]
  starts := by simp [h.starts]
  runsOn := fun _ _ => by simp only [h.on]; exact ⟨by simp, by simp, by simp⟩
  runsOff := fun _ _ => by simp only [h.off]; exact ⟨by simp, by simp, by simp⟩

section Flow

variable {f : FlowData} {a len : Nat} {prev : Option Num}

theorem low_window (hf : f.Fits sys.n) (hl : a + len ≤ sys.n) {t : Nat} (ht : t < len) :
    (f.window a len prev).lowRel t = f.lowRel (a + t) ∧ (f.window a len prev).highRel t = f.highRel (a + t) := by
  unfold FlowData.lowRel FlowData.highRel FlowData.window
  cases hp : f.fixedProfile with
  | none => exact ⟨at_window hf.relMin hl ht, at_window hf.relMax hl ht⟩
  | some g => exact ⟨at_window (hf.prof g hp) hl ht, at_window (hf.prof g hp) hl ht⟩

theorem flow_window_fits (hf : f.Fits sys.n) (ho : ∀ q, f.onOff = some q → q.Local) (hl : a + len ≤ sys.n) : (f.window a len prev).Fits len where
  relMin := fits_window hf.relMin hl
  relMax := fits_window hf.relMax hl
  prof := by
    intro g hg
    obtain ⟨g', h1, rfl⟩ := Option.map_eq_some_iff.1 hg
    exact fits_window (hf.prof g' h1) hl
  onOff := by
    intro q hq
    obtain ⟨q', h1, rfl⟩ := Option.map_eq_some_iff.1 hq
    exact ((ho q' h1).window a len).fits len

theorem flow_window_sensible (hf : f.Fits sys.n) (h : f.Sensible sys.cfg sys.n) (hl : a + len ≤ sys.n) : (f.window a len prev).Sensible sys.cfg len where
  size := h.size
  low := by
    intro t ht
    rw [(low_window hf hl ht).1, (low_window hf hl ht).2]
    exact h.low _ (by omega)
  invest := h.invest

theorem flow_window_proper (h : f.Local) : (f.window a len prev).Proper len := by
  refine ⟨fun q hq => ?_, fun q hq => absurd hq (h.size q)⟩
  obtain ⟨q', h1, rfl⟩ := Option.map_eq_some_iff.1 hq
  exact ((h.onOff q' h1).window a len).nonneg len

theorem capacity_window (p p' : FlowPlan) (h : f.Local) : p.capacity sys.cfg (f.window a len prev) = p'.capacity sys.cfg f := by
  unfold FlowPlan.capacity FlowData.window
  cases hs : f.size with
  | unset => rfl
  | num x => rfl
  | invest q => exact absurd hs (h.size q)

end Flow

/-- The plans of the segments one after the other: the first `L` steps of each. -/
def FlowPlan.join (L : Nat) (p : Nat → FlowPlan) : FlowPlan where
  r t := (p (t / L)).r (t % L)
  b t := (p (t / L)).b (t % L)
  s := (p 0).s
  d := (p 0).d
  val := (p 0).val

def CompPlan.join (L : Nat) (p : Nat → CompPlan) : CompPlan where
  flow l := FlowPlan.join L fun k => (p k).flow l
  on t := (p (t / L)).on (t % L)

section Join

variable {L m : Nat} {len : Nat → Nat}

theorem flow_join (hv : sys.Valid) (hc : Cover sys.n L m len) {f : FlowData} (hf : f.Fits sys.n) (hs : f.Sensible sys.cfg sys.n) (hl : f.Local)
    {prev : Nat → Option Num} (h0 : prev 0 = f.previousFlowRate) {p : Nat → FlowPlan}
    (hp : ∀ k < m, (p k).Allows (sys.window (k * L) (len k)) (f.window (k * L) (len k) (prev k))) : (FlowPlan.join L p).Allows sys f := by
  have cap : ∀ k, (p k).capacity (sys.window (k * L) (len k)).cfg (f.window (k * L) (len k) (prev k)) = (FlowPlan.join L p).capacity sys.cfg f := fun k =>
    capacity_window _ _ hl
  refine ⟨hs, ⟨fun ho t ht => ?_, fun ho t ht => ?_, fun q hq => ?_, by simp [hl.hours], by simp [hl.hours], by simp [hl.load], by simp [hl.load]⟩, fun q hq => absurd hq (hl.size q)⟩
  · obtain ⟨o1, o2, o3⟩ := hc.owner ht
    have hw := (hp _ o1).follows.always (by simp [FlowData.window, ho]) _ o2
    rw [cap, (low_window hf (hc.inside _ o1) o2).1, (low_window hf (hc.inside _ o1) o2).2, o3] at hw
    exact hw
  · obtain ⟨o1, o2, o3⟩ := hc.owner ht
    have hw := (hp _ o1).follows.running (by simpa [FlowData.window] using ho) _ o2
    rw [cap, (low_window hf (hc.inside _ o1) o2).1, (low_window hf (hc.inside _ o1) o2).2, o3] at hw
    exact hw
  · refine ⟨(hl.onOff q hq).nonneg _, ?_⟩
    obtain ⟨_, last, h1, _⟩ := (hp 0 hc.some).follows.schedule (q.window (0 * L) (len 0)) (by simp [FlowData.window, hq])
    rw [show (f.window (0 * L) (len 0) (prev 0)).previousFlowRate = f.previousFlowRate from h0] at h1
    refine ⟨last, h1, (hl.onOff q hq).schedule fun t ht => ?_⟩
    obtain ⟨o1, o2, o3⟩ := hc.owner ht
    obtain ⟨_, _, _, hsch⟩ := (hp _ o1).follows.schedule (q.window (t / L * L) (len (t / L))) (by simp [FlowData.window, hq])
    exact hsch.bin _ o2

end Join

end Flix
