import Verif.Lemmas.CompComplete
import Verif.Props.StorageInvest

/-! # What the declarations of a flow allow, and that the flow's model accepts it

`Follows` is the specification: the operation of a flow of the installed size `S`; `Allows` adds the decision on the size. -/

namespace Flix

/-- The operation of a flow of the installed size `S` respects the declarations: between the relative limits whenever it runs, on a
permitted schedule if it has states, with the permitted flow hours and load. -/
structure FlowPlan.Follows (sys : Sys) (f : FlowData) (p : FlowPlan) (S : ℚ) : Prop where
  always : f.onOff = none → ∀ t < sys.n, f.lowRel t * S ≤ p.r t ∧ p.r t ≤ f.highRel t * S
  running : f.onOff ≠ none → ∀ t < sys.n, (p.b t = 0 ∧ p.r t = 0) ∨
    (p.b t = 1 ∧ sys.cfg.eps ≤ p.r t ∧ f.lowRel t * S ≤ p.r t ∧ p.r t ≤ f.highRel t * S)
  schedule : ∀ q, f.onOff = some q → q.NonnegLimits sys.n ∧ ∃ last, (flowHistory sys.cfg.eps f.previousFlowRate).getLast? = some last ∧
    ScheduleOk sys q (flowHistory sys.cfg.eps f.previousFlowRate) last p.b
  hmin : ∀ m, f.flowHoursTotalMin = some m → m ≤ ∑ k ∈ Finset.range sys.n, sys.width k * p.r k
  hmax : ∀ m, f.flowHoursTotalMax = some m → ∑ k ∈ Finset.range sys.n, sys.width k * p.r k ≤ m
  lmin : ∀ m, f.loadFactorMin = some m → S * (sys.total * m) ≤ ∑ k ∈ Finset.range sys.n, sys.width k * p.r k
  lmax : ∀ m, f.loadFactorMax = some m → ∑ k ∈ Finset.range sys.n, sys.width k * p.r k ≤ S * (sys.total * m)

/-- The decision on the size of the flow respects the declarations of the investment `q`, and two conditions that the code adds: a flow
without states can be declined only if the smallest size forces no rate, and a profile applies in every step, whether the flow runs or not. -/
structure FlowPlan.Invests (sys : Sys) (f : FlowData) (q : InvestParams) (p : FlowPlan) : Prop where
  decided : Decided sys.cfg q p.s p.d
  mandatory : q.optional = false → p.d = 1
  segments : q.segEffects.Nodup ∧ SegmentsAllow q p.s p.d p.val
  declined : q.optional = true → p.d = 0 → f.onOff = none → ∀ t < sys.n, f.lowRel t * q.fixedSize.getD q.minimumSize ≤ 0
  profile : ∀ g, f.fixedProfile = some g → ∀ t < sys.n, p.r t = g.at t * p.s

/-- The numbers given for the flow make sense. -/
structure FlowData.Sensible (cfg : Cfg) (n : Nat) (f : FlowData) : Prop where
  size : (∀ x, f.size = .num x → 0 < x) ∧ 0 ≤ cfg.big
  low : ∀ t < n, 0 ≤ f.lowRel t ∧ f.lowRel t ≤ f.highRel t
  invest : ∀ q, f.size = .invest q → q.NoZero ∧ q.NonnegSizes cfg ∧ 0 ≤ q.minimumSize

/-- The installed size: as given, unlimited (`big`) if nothing is given, or as decided. -/
def FlowPlan.capacity (cfg : Cfg) (f : FlowData) (p : FlowPlan) : ℚ :=
  match f.size with
  | .unset => cfg.big
  | .num x => x
  | .invest _ => p.s

/-- The plan respects everything declared for the flow. -/
structure FlowPlan.Allows (sys : Sys) (f : FlowData) (p : FlowPlan) : Prop where
  sensible : f.Sensible sys.cfg sys.n
  follows : p.Follows sys f (p.capacity sys.cfg f)
  invests : ∀ q, f.size = .invest q → p.Invests sys f q

theorem minSize_eq {q : InvestParams} (hz : q.NoZero) : q.minSize = q.fixedSize.getD q.minimumSize := by
  unfold InvestParams.minSize
  cases hf : q.fixedSize with
  | none => simp [pyOr]
  | some v =>
    have : v ≠ 0 := fun h0 => hz.1 (by rw [hf, h0])
    simp [pyOr, this]

theorem decided_size {cfg : Cfg} {q : InvestParams} {S d : ℚ} (hn : q.NonnegSizes cfg) (hz : q.NoZero) (h : Decided cfg q S d) :
    S ≤ q.maxSize cfg ∧ ((q.optional = true ∧ d = 0 ∧ S = 0) ∨ q.fixedSize.getD q.minimumSize ≤ S) := by
  have hm := maxSize_eq (cfg := cfg) hz
  rcases h with ⟨h1, h2, h3⟩ | ⟨_, h⟩
  · exact ⟨h3 ▸ maxSize_nonneg hn, .inl ⟨h1, h2, h3⟩⟩
  · unfold SizeIn at h
    rw [hm]
    cases hf : q.fixedSize with
    | some v => rw [hf] at h; rw [show S = v from h]; exact ⟨le_rfl, .inr le_rfl⟩
    | none =>
      rw [hf] at h
      refine ⟨h.2, .inr (le_trans ?_ h.1)⟩
      show q.minimumSize ≤ _
      split
      · exact le_max_right _ _
      · exact le_rfl

/-- A flow of a given size. -/
theorem plan_ok_given {sys : Sys} (hv : sys.Valid) {f : FlowData} {p : FlowPlan} {S : ℚ} (hsz : f.fixSize sys.cfg = S) (hni : ∀ q, f.size ≠ .invest q)
    (hp : p.Follows sys f S) : p.Ok sys f := by
  have hinst : p.installed sys f = S := by rw [fixSize_noninvest hni, hsz]
  have hb : ∀ t, (f.absBounds sys.cfg).1.at t = f.lowRel t * S ∧ (f.absBounds sys.cfg).2.at t = f.highRel t * S := by
    intro t
    obtain ⟨h1, h2⟩ := relBounds_at (f := f) t
    rw [← hsz]
    unfold FlowData.absBounds FlowData.fixSize FlowData.effSize
    cases hs : f.size with
    | invest q => exact absurd hs (hni q)
    | unset => simp [at_mulr, h1, h2]
    | num x => simp [at_mulr, h1, h2]
  refine ⟨?_, hp.schedule, ?_, fun q hq => absurd hq (hni q), hp.hmin, hp.hmax, ?_, ?_⟩
  · intro ho t ht
    rw [(hb t).1, (hb t).2]
    exact hp.always ho t ht
  · intro ho t ht
    rw [(hb t).1, (hb t).2]
    rcases hp.running ho t ht with ⟨h1, h2⟩ | ⟨h1, h2, h3, h4⟩
    · rw [h1, h2]; simp
    · rw [h1, mul_one, mul_one]
      exact ⟨le_trans hv.heps.le h2, max_le h2 h3, h4⟩
  · intro m hm; rw [hinst]; exact hp.lmin m hm
  · intro m hm; rw [hinst]; exact hp.lmax m hm

/-- A flow whose size is decided. -/
theorem plan_ok_invest {sys : Sys} (hv : sys.Valid) {f : FlowData} {q : InvestParams} {p : FlowPlan} (hq : f.size = .invest q)
    (hse : f.Sensible sys.cfg sys.n) (hp : p.Follows sys f p.s) (hi : p.Invests sys f q) : p.Ok sys f := by
  obtain ⟨hz, hn, hmin0⟩ := hse.invest q hq
  have hm0 := maxSize_nonneg hn
  obtain ⟨hup, hlow⟩ := decided_size hn hz hi.decided
  have hinst : p.installed sys f = p.s := by unfold FlowPlan.installed; rw [hq]
  have hmx := maxSize_eq (cfg := sys.cfg) hz
  have hS0 : 0 ≤ p.s := by
    rcases hi.decided with ⟨_, _, h3⟩ | ⟨_, h⟩
    · rw [h3]
    · unfold SizeIn at h
      cases hf : q.fixedSize with
      | some v => rw [hf] at h; rw [show p.s = v from h]; exact hn.2.1 v hf
      | none =>
        rw [hf] at h
        refine le_trans hmin0 (le_trans ?_ h.1)
        split
        · exact le_max_right _ _
        · exact le_rfl
  have hb : ∀ t, (f.absBounds sys.cfg).1.at t = f.lowRel t * q.fixedSize.getD q.minimumSize ∧ (f.absBounds sys.cfg).2.at t = f.highRel t * q.maxSize sys.cfg := by
    intro t
    obtain ⟨h1, h2⟩ := absBounds_invest (sys := sys) hq t
    refine ⟨h1, ?_⟩
    rw [h2, hmx]
    cases q.fixedSize <;> rfl
  have hhigh : ∀ t < sys.n, f.highRel t * p.s ≤ f.highRel t * q.maxSize sys.cfg := fun t ht =>
    mul_le_mul_of_nonneg_left hup (le_trans (hse.low t ht).1 (hse.low t ht).2)
  refine ⟨?_, hp.schedule, ?_, ?_, hp.hmin, hp.hmax, ?_, ?_⟩
  · intro ho t ht
    rw [(hb t).1, (hb t).2]
    obtain ⟨h1, h2⟩ := hp.always ho t ht
    refine ⟨?_, le_trans h2 (hhigh t ht)⟩
    rcases hlow with ⟨o1, o2, o3⟩ | hlow
    · rw [o3, mul_zero] at h1
      exact le_trans (hi.declined o1 o2 ho t ht) h1
    · exact le_trans (mul_le_mul_of_nonneg_left hlow (hse.low t ht).1) h1
  · intro ho t ht
    rw [(hb t).1, (hb t).2]
    rcases hp.running ho t ht with ⟨h1, h2⟩ | ⟨h1, h2, h3, h4⟩
    · rw [h1, h2]; simp
    · rw [h1, mul_one, mul_one]
      refine ⟨le_trans hv.heps.le h2, max_le h2 ?_, le_trans h4 (hhigh t ht)⟩
      rcases hlow with ⟨o1, o2, o3⟩ | hlow
      · rw [o3, mul_zero] at h4
        exact absurd (lt_of_lt_of_le hv.heps h2) (not_lt.2 h4)
      · exact le_trans (mul_le_mul_of_nonneg_left hlow (hse.low t ht).1) h3
  · intro q' hq'
    rw [hq] at hq'
    cases hq'
    refine ⟨hi.segments.1, hi.mandatory, hi.segments.2, ?_⟩
    have base : InvestRows sys.cfg q 0 (fun _ => 0) (fun _ => p.s) (if q.optional then some (fun _ => p.d) else none) none (.s 0) (.s 0) none :=
      (investRows_iff hz hn hv.heps).2 ⟨hi.decided, fun t ht => absurd ht (Nat.not_lt_zero t)⟩
    have hrel := fun t => relBounds_at (f := f) t
    refine ⟨base.fixed, base.lower, base.upper, base.bin, base.optFixed, base.optUpper, base.optLower, ?_, ?_, ?_, ?_⟩
    · intro g hg t ht; exact hi.profile g hg t ht
    · intro hg t ht
      rw [(hrel t).2]
      by_cases ho : f.onOff = none
      · exact (hp.always ho t ht).2
      · rcases hp.running ho t ht with ⟨_, h2⟩ | ⟨_, _, _, h4⟩
        · rw [h2]; exact mul_nonneg (le_trans (hse.low t ht).1 (hse.low t ht).2) hS0
        · exact h4
    · intro _ ho t ht
      rw [(hrel t).1]
      exact (hp.always (by cases hx : f.onOff with | none => rfl | some x => rw [hx] at ho; cases ho) t ht).1
    · intro _ b hb' t ht
      rw [(hrel t).1, (hrel t).2]
      have ho : f.onOff ≠ none := by intro hx; rw [hx] at hb'; cases hb'
      have hbb : b = p.b := by
        obtain ⟨x, hx⟩ := Option.ne_none_iff_exists'.1 ho
        rw [hx] at hb'
        exact (Option.some.inj hb').symm
      rw [hbb]
      rcases hp.running ho t ht with ⟨h1, h2⟩ | ⟨h1, _, h3, _⟩
      · rw [h1, h2, mul_zero, add_zero, zero_add]
        calc f.lowRel t * p.s ≤ f.highRel t * p.s := mul_le_mul_of_nonneg_right (hse.low t ht).2 hS0
          _ ≤ _ := hhigh t ht
      · rw [h1, mul_one]; linarith
  · intro m hm; rw [hinst]; exact hp.lmin m hm
  · intro m hm; rw [hinst]; exact hp.lmax m hm

theorem plan_ok {sys : Sys} (hv : sys.Valid) {f : FlowData} {p : FlowPlan} (hp : p.Allows sys f) : p.Ok sys f := by
  have hf := hp.follows
  unfold FlowPlan.capacity at hf
  cases hs : f.size with
  | invest q =>
    rw [hs] at hf
    exact plan_ok_invest hv hs hp.sensible hf (hp.invests q hs)
  | unset =>
    rw [hs] at hf
    exact plan_ok_given hv (by unfold FlowData.fixSize FlowData.effSize; rw [hs]) (fun q => by rw [hs]; simp) hf
  | num x =>
    rw [hs] at hf
    have hx : x ≠ 0 := (hp.sensible.size.1 x hs).ne'
    exact plan_ok_given hv (by unfold FlowData.fixSize FlowData.effSize; rw [hs]; simp [pyOr, hx]) (fun q => by rw [hs]; simp) hf

end Flix
