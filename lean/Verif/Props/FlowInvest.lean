import Verif.Props.Invest
import Verif.Lemmas.FlowComplete
import Mathlib.Tactic.IntervalCases

/-! # C17–C19, C37–C39: flows with investments, load factors, profiles, zero sizes -/

namespace Flix

variable {sys : Sys} {el : String} {f : FlowData} {o : FlowOut} {q : InvestParams} {σ : Assignment}

/-- The relative lower limit of a flow: its profile if there is one. -/
def FlowData.lowRel (f : FlowData) (t : Nat) : ℚ := match f.fixedProfile with | some g => g.at t | none => f.relMin.at t

/-- The relative upper limit of a flow. -/
def FlowData.highRel (f : FlowData) (t : Nat) : ℚ := match f.fixedProfile with | some g => g.at t | none => f.relMax.at t

theorem relBounds_at (t : Nat) : f.relBounds.1.at t = f.lowRel t ∧ f.relBounds.2.at t = f.highRel t := by
  unfold FlowData.relBounds FlowData.lowRel FlowData.highRel
  cases f.fixedProfile <;> simp

theorem absBounds_invest (hs : f.size = .invest q) (t : Nat) :
    (f.absBounds sys.cfg).1.at t = f.lowRel t * q.fixedSize.getD q.minimumSize ∧
    (f.absBounds sys.cfg).2.at t = f.highRel t * q.fixedSize.getD (q.maxSize sys.cfg) := by
  obtain ⟨h1, h2⟩ := relBounds_at (f := f) t
  unfold FlowData.absBounds FlowData.effSize
  rw [hs]
  cases hf : q.fixedSize with
  | some v => simp [at_mulr, h1, h2, hf]
  | none => simp [at_mulr, h1, h2, InvestParams.minSize, hf, pyOr]

/-- Given sizes are not negative. -/
def InvestParams.NonnegSizes (cfg : Cfg) (q : InvestParams) : Prop :=
  0 ≤ cfg.big ∧ (∀ v, q.fixedSize = some v → 0 ≤ v) ∧ ∀ v, q.maximumSize = some v → 0 ≤ v

theorem maxSize_nonneg {cfg : Cfg} (h : q.NonnegSizes cfg) : 0 ≤ q.maxSize cfg := by
  obtain ⟨h1, h2, h3⟩ := h
  unfold InvestParams.maxSize pyOr
  cases hf : q.fixedSize with
  | some v =>
    have := h2 v hf
    cases hm : q.maximumSize with
    | some w => have := h3 w hm; simp only; split <;> first | (split <;> assumption) | assumption
    | none => simp only; split <;> assumption
  | none =>
    cases hm : q.maximumSize with
    | some w => have := h3 w hm; simp only; split <;> assumption
    | none => exact h1

theorem flow_has_invest (h : flowModel sys el f = .ok o) (hs : f.size = .invest q) :
    ∃ i, o.invest = some i ∧ investModel sys.cfg el q o.flowRate f.relBounds.1 f.relBounds.2 f.fixedProfile (o.onOff.map (·.on)) = .ok i := by
  obtain ⟨_, _, h3, _⟩ := flow_inv h
  cases hi : o.invest with
  | none => rw [hi] at h3; exact absurd hs (flowInvest_none h3 q)
  | some i =>
    rw [hi] at h3
    obtain ⟨q', hq', hm⟩ := flowInvest_some h3
    rw [hs] at hq'; cases hq'
    exact ⟨i, rfl, hm⟩

theorem flow_on_len (h : flowModel sys el f = .ok o) : ∀ b, (o.onOff.map (·.on)) = some b → b.length = sys.n := by
  obtain ⟨_, h2, _⟩ := flow_inv h
  intro b hb
  cases ho : o.onOff with
  | none => rw [ho] at hb; simp at hb
  | some oo =>
    rw [ho] at hb h2; simp at hb; subst hb
    obtain ⟨q', _, hoo⟩ := flowOnOff_some h2
    exact (onOff_on_length hoo).1

/-- All rows of the investment of a flow. -/
theorem flow_invest_rows (hv : sys.Valid) (hf : f.Fits sys.n) (h : flowModel sys el f = .ok o) (hs : f.size = .invest q)
    (hσ : o.tree.Solves σ) : ∃ i, o.invest = some i ∧
      InvestRows sys.cfg q sys.n (σ o.flowRate.label) (σ i.size.label) (i.isInvested.map fun i => σ i.label)
        ((o.onOff.map (·.on)).map fun b => σ b.label) f.relBounds.1 f.relBounds.2 f.fixedProfile := by
  obtain ⟨i, hi, hm⟩ := flow_has_invest h hs
  obtain ⟨hlen, _⟩ := (flowRate_ok (flow_inv h).1).2
  obtain ⟨_, _, _, _, hiff⟩ := invest_iff hlen hf.relBounds.1 hf.relBounds.2 hf.prof (flow_on_len h) hm
  exact ⟨i, hi, ((hiff σ).1 (((flow_iff hv hf h σ).1 hσ).invest i hi)).1⟩

/-! ## C17: declining an optional investment -/

/-- The rows of a declined investment. -/
theorem declined_rows {cfg : Cfg} {N : Nat} {on : Option (Nat → ℚ)} {relMin relMax : Num} {profile : Option Num}
    (hopt : q.optional = true) (hn : q.NonnegSizes cfg)
    (hon : ∀ b, on = some b → ∀ t < N, b t = 0 ∧ 0 ≤ relMax.at t) :
    InvestRows cfg q N (fun _ => 0) (fun _ => 0) (if q.optional then some (fun _ => 0) else none) on relMin relMax profile := by
  have hm := maxSize_nonneg hn
  rw [hopt]
  refine ⟨?_, ?_, ?_, ?_, ?_, ?_, ?_, ?_, ?_, ?_, ?_⟩
  · intro v _ _ ho; rw [hopt] at ho; cases ho
  · intro _; rw [hopt]; simp
  · intro _; exact hm
  · intro i hi; simp at hi; subst hi; left; rfl
  · intro i hi v _ _; simp at hi; subst hi; simp
  · intro i hi _; simp at hi; subst hi; simp
  · intro i hi _; simp at hi; subst hi; simp
  · intro g _ t _; simp
  · intro _ t _; simp
  · intro _ _ t _; simp
  · intro _ b hb t ht
    obtain ⟨h0, h1⟩ := hon b hb t ht
    rw [h0]
    have := mul_nonneg h1 hm
    linarith

/-- C17 for flows without on/off: size 0 with flow rate 0 is a solution exactly if the bounds of the flow rate computed from
the smallest size allow 0 (and the limits on flow hours do). -/
theorem C17_iff (hv : sys.Valid) (hf : f.Fits sys.n) (h : flowModel sys el f = .ok o) (hs : f.size = .invest q)
    (hopt : q.optional = true) (hoo : f.onOff = none) (hn : q.NonnegSizes sys.cfg) (hdict : q.segEffects.Nodup)
    (hpd : sys.prevDt.Nonneg) :
    (∃ τ i, o.invest = some i ∧ o.tree.Solves τ ∧ τ i.size.label 0 = 0 ∧ ∀ t < sys.n, τ o.flowRate.label t = 0) ↔
      (∀ t < sys.n, f.lowRel t * q.fixedSize.getD q.minimumSize ≤ 0 ∧ 0 ≤ f.highRel t * q.fixedSize.getD (q.maxSize sys.cfg)) ∧
      (∀ m, f.flowHoursTotalMin = some m → m ≤ 0) ∧ (∀ m, f.flowHoursTotalMax = some m → 0 ≤ m) := by
  constructor
  · rintro ⟨τ, i, hi, hτ, hsz, hr⟩
    have rows := (flow_iff hv hf h τ).1 hτ
    have hsum : τ o.sumFlowHours.label 0 = 0 := by
      rw [rows.sum]
      refine Finset.sum_eq_zero fun k hk => ?_
      rw [hr k (Finset.mem_range.1 hk), mul_zero]
    refine ⟨fun t ht => ?_, fun m hm => hsum ▸ rows.sumMin m hm, fun m hm => hsum ▸ rows.sumMax m hm⟩
    obtain ⟨h1, h2⟩ := absBounds_invest (sys := sys) hs t
    rw [← h1, ← h2, ← hr t ht]
    exact ⟨rows.lower hoo t ht, rows.upper hoo t ht⟩
  · rintro ⟨h1, h2, h3⟩
    obtain ⟨i, hi, _⟩ := flow_has_invest h hs
    obtain ⟨τ, t1, t2, _, t4, _⟩ := flow_complete hv hf h hpd (p := ⟨fun _ => 0, fun _ => 0, 0, 0, fun _ => 0⟩) (by
      refine ⟨?_, ?_, ?_, ?_, ?_, ?_, ?_, ?_⟩
      · intro _ t ht
        obtain ⟨e1, e2⟩ := absBounds_invest (sys := sys) hs t
        rw [e1, e2]; exact h1 t ht
      · intro q' hq'; rw [hoo] at hq'; simp at hq'
      · intro hne; exact absurd hoo hne
      · intro q' hq'
        rw [hs] at hq'; cases hq'
        refine ⟨hdict, fun ho => by rw [hopt] at ho; simp at ho, ?_, ?_⟩
        · intro xs es _; exact Or.inl ⟨rfl, rfl, fun _ _ => rfl⟩
        · refine declined_rows hopt hn ?_
          intro b hb; rw [hoo] at hb; simp at hb
      · intro m hm; simpa using h2 m hm
      · intro m hm; simpa using h3 m hm
      · intro m _; simp [FlowPlan.installed, hs]
      · intro m _; simp [FlowPlan.installed, hs]) (fun _ _ => 0)
    exact ⟨τ, i, hi, t1, (t4 i hi).1, fun t _ => by rw [t2]⟩

/-- C17 for flows without on/off, provided that the smallest size does not force a flow. -/
theorem C17_partial (hv : sys.Valid) (hf : f.Fits sys.n) (h : flowModel sys el f = .ok o) (hs : f.size = .invest q)
    (hopt : q.optional = true) (hoo : f.onOff = none) (hn : q.NonnegSizes sys.cfg) (hdict : q.segEffects.Nodup)
    (hpd : sys.prevDt.Nonneg) (hlow : ∀ t < sys.n, f.lowRel t = 0 ∨ q.fixedSize.getD q.minimumSize = 0)
    (hhigh : ∀ t < sys.n, 0 ≤ f.highRel t)
    (h2 : ∀ m, f.flowHoursTotalMin = some m → m ≤ 0) (h3 : ∀ m, f.flowHoursTotalMax = some m → 0 ≤ m) :
    ∃ τ i, o.invest = some i ∧ o.tree.Solves τ ∧ τ i.size.label 0 = 0 ∧ ∀ t < sys.n, τ o.flowRate.label t = 0 := by
  refine (C17_iff hv hf h hs hopt hoo hn hdict hpd).2 ⟨fun t ht => ⟨?_, ?_⟩, h2, h3⟩
  · rcases hlow t ht with h0 | h0 <;> rw [h0] <;> simp
  · refine mul_nonneg (hhigh t ht) ?_
    cases hfx : q.fixedSize with
    | none => exact maxSize_nonneg hn
    | some v => exact hn.2.1 v hfx

/-- C17 for flows with on/off: if being off throughout is an allowed schedule, then the investment can be declined. -/
theorem C17_onOff {oq : OnOffParams} (hv : sys.Valid) (hf : f.Fits sys.n) (h : flowModel sys el f = .ok o)
    (hs : f.size = .invest q) (hopt : q.optional = true) (hoo : f.onOff = some oq) (hn : q.NonnegSizes sys.cfg)
    (hdict : q.segEffects.Nodup) (hpd : sys.prevDt.Nonneg) (hnn : oq.NonnegLimits sys.n) {last : ℚ}
    (hlast : (flowHistory sys.cfg.eps f.previousFlowRate).getLast? = some last)
    (hb : ScheduleOk sys oq (flowHistory sys.cfg.eps f.previousFlowRate) last fun _ => 0)
    (hhigh : ∀ t < sys.n, 0 ≤ f.highRel t)
    (h2 : ∀ m, f.flowHoursTotalMin = some m → m ≤ 0) (h3 : ∀ m, f.flowHoursTotalMax = some m → 0 ≤ m) :
    ∃ τ i, o.invest = some i ∧ o.tree.Solves τ ∧ τ i.size.label 0 = 0 ∧ ∀ t < sys.n, τ o.flowRate.label t = 0 := by
  obtain ⟨i, hi, _⟩ := flow_has_invest h hs
  obtain ⟨τ, t1, t2, _, t4, _⟩ := flow_complete hv hf h hpd (p := ⟨fun _ => 0, fun _ => 0, 0, 0, fun _ => 0⟩) (by
    refine ⟨?_, ?_, ?_, ?_, ?_, ?_, ?_, ?_⟩
    · intro hne; rw [hoo] at hne; simp at hne
    · intro q' hq'
      rw [hoo] at hq'; cases hq'
      exact ⟨hnn, last, hlast, hb⟩
    · intro _ t _; simp
    · intro q' hq'
      rw [hs] at hq'; cases hq'
      refine ⟨hdict, fun ho => by rw [hopt] at ho; simp at ho, ?_, ?_⟩
      · intro xs es _; exact Or.inl ⟨rfl, rfl, fun _ _ => rfl⟩
      · refine declined_rows hopt hn ?_
        intro b hb t ht
        rw [hoo] at hb; simp at hb; subst hb
        exact ⟨rfl, by rw [(relBounds_at (f := f) t).2]; exact hhigh t ht⟩
    · intro m hm; simpa using h2 m hm
    · intro m hm; simpa using h3 m hm
    · intro m _; simp [FlowPlan.installed, hs]
    · intro m _; simp [FlowPlan.installed, hs]) (fun _ _ => 0)
  exact ⟨τ, i, hi, t1, (t4 i hi).1, fun t _ => by rw [t2]⟩

/-- C17 fails in general: without on/off, a smallest (or fixed) size and a positive relative minimum (or profile) in any
single step rule out every solution with size 0. -/
theorem C17_forced (hv : sys.Valid) (hf : f.Fits sys.n) (h : flowModel sys el f = .ok o) (hs : f.size = .invest q)
    (hoo : f.onOff = none) {t : Nat} (ht : t < sys.n) (hlow : 0 < f.lowRel t * q.fixedSize.getD q.minimumSize)
    (hσ : o.tree.Solves σ) : ∃ i, o.invest = some i ∧ σ i.size.label 0 ≠ 0 := by
  obtain ⟨i, hi, hr⟩ := flow_invest_rows hv hf h hs hσ
  refine ⟨i, hi, fun h0 => ?_⟩
  have h1 := ((flow_iff hv hf h σ).1 hσ).lower hoo t ht
  rw [(absBounds_invest (sys := sys) hs t).1] at h1
  cases hp : f.fixedProfile with
  | some g => have := hr.prof g hp t ht; rw [h0, mul_zero] at this; linarith
  | none => have := hr.le hp t ht; rw [h0, mul_zero] at this; linarith

/-- A flow with an optional investment of at least 10 and a relative minimum of one half. -/
def exForced : FlowData :=
  { label := "f", size := .invest { minimumSize := 10, maximumSize := some 100, optional := true }, relMin := .s (1 / 2) }

/-- C17 is false: an optional investment that can not be declined. -/
theorem C17_wrong : ∃ o i, flowModel exSys "c__f" exForced = .ok o ∧ o.invest = some i ∧
    ∀ σ : Assignment, o.tree.Solves σ → σ i.size.label 0 ≠ 0 := by
  obtain ⟨o, ho⟩ : ∃ o, flowModel exSys "c__f" exForced = .ok o := ⟨_, rfl⟩
  obtain ⟨i, hi, _⟩ := flow_has_invest ho (q := { minimumSize := 10, maximumSize := some 100, optional := true }) rfl
  refine ⟨o, i, ho, hi, fun σ hσ => ?_⟩
  obtain ⟨j, hj, hne⟩ := C17_forced exSys_valid (by simp [exForced]; exact ⟨by simp, by simp, by simp, by simp⟩) ho rfl rfl (t := 0)
    (by decide) (by simp [FlowData.lowRel, exForced]) hσ
  rw [hi] at hj; cases hj; exact hne

/-! ## C18: flows and sizes -/

/-- C18: with an investment the flow rate follows the profile times the size; without a profile it is at most the relative
maximum times the size and, if there is no on/off or the flow is on, at least the relative minimum times the size. -/
theorem C18 (hv : sys.Valid) (hf : f.Fits sys.n) (h : flowModel sys el f = .ok o) (hs : f.size = .invest q)
    (hσ : o.tree.Solves σ) : ∃ i, o.invest = some i ∧ ∀ t < sys.n,
      (∀ g, f.fixedProfile = some g → σ o.flowRate.label t = g.at t * σ i.size.label 0) ∧
      (f.fixedProfile = none → σ o.flowRate.label t ≤ f.relMax.at t * σ i.size.label 0) ∧
      (f.fixedProfile = none → o.onOff = none → f.relMin.at t * σ i.size.label 0 ≤ σ o.flowRate.label t) ∧
      (f.fixedProfile = none → ∀ oo, o.onOff = some oo → σ oo.on.label t = 1 →
        f.relMin.at t * σ i.size.label 0 ≤ σ o.flowRate.label t) := by
  obtain ⟨i, hi, hr⟩ := flow_invest_rows hv hf h hs hσ
  refine ⟨i, hi, fun t ht => ⟨fun g hg => hr.prof g hg t ht, fun hp => ?_, fun hp ho => ?_, fun hp oo ho h1 => ?_⟩⟩
  · have := hr.le hp t ht
    simpa [FlowData.relBounds, hp] using this
  · have := hr.ge hp (by rw [ho]; rfl) t ht
    simpa [FlowData.relBounds, hp] using this
  · have := hr.geOn hp (σ oo.on.label) (by rw [ho]; rfl) t ht
    rw [h1] at this
    have h2 : f.relBounds.1 = f.relMin := by simp [FlowData.relBounds, hp]
    rw [h2] at this
    linarith

/-- C18, converse for flows without on/off: a size that may be installed, together with any rates within the relative limits
of that size (or on the profile), is part of a solution. -/
theorem C18_converse (hv : sys.Valid) (hf : f.Fits sys.n) (h : flowModel sys el f = .ok o) (hs : f.size = .invest q)
    (hoo : f.onOff = none) (hz : q.NoZero) (hdict : q.segEffects.Nodup) (hpd : sys.prevDt.Nonneg) {s : ℚ} {r : Nat → ℚ} {val : String → ℚ}
    (hsize : (q.optional = false ∧ SizeIn q sys.cfg.big q.minimumSize s) ∨
      (q.optional = true ∧ 0 ≤ s ∧ SizeIn q sys.cfg.big (max sys.cfg.eps q.minimumSize) s))
    (hseg : SegmentsAllow q s 1 val)
    (hrel : ∀ t < sys.n, 0 ≤ f.lowRel t ∧ 0 ≤ f.highRel t)
    (hrate : ∀ t < sys.n, RateFits f.relMin f.relMax f.fixedProfile s t (r t))
    (hmin : ∀ m, f.flowHoursTotalMin = some m → m ≤ ∑ k ∈ Finset.range sys.n, sys.width k * r k)
    (hmax : ∀ m, f.flowHoursTotalMax = some m → ∑ k ∈ Finset.range sys.n, sys.width k * r k ≤ m)
    (hlmin : ∀ m, f.loadFactorMin = some m → s * (sys.total * m) ≤ ∑ k ∈ Finset.range sys.n, sys.width k * r k)
    (hlmax : ∀ m, f.loadFactorMax = some m → ∑ k ∈ Finset.range sys.n, sys.width k * r k ≤ s * (sys.total * m))
    (σ : Assignment) :
    ∃ τ i, o.invest = some i ∧ o.tree.Solves τ ∧ τ i.size.label 0 = s ∧ τ o.flowRate.label = r ∧
      ∀ l ∉ flowAllLabels el f, τ l = σ l := by
  obtain ⟨i, hi, _⟩ := flow_has_invest h hs
  have hm := maxSize_eq (cfg := sys.cfg) hz
  have ht := truthy_eq hz
  have hlims : q.fixedSize.getD q.minimumSize ≤ s ∧ s ≤ q.fixedSize.getD (q.maxSize sys.cfg) := by
    cases hfx : q.fixedSize with
    | some v =>
      have : s = v := by
        rcases hsize with ⟨_, hs⟩ | ⟨_, _, hs⟩ <;> simpa [SizeIn, hfx] using hs
      simp [this]
    | none =>
      rw [hm, hfx]
      rcases hsize with ⟨_, hs⟩ | ⟨_, _, hs⟩
      · simpa [SizeIn, hfx] using hs
      · simp only [SizeIn, hfx] at hs
        exact ⟨le_trans (le_max_right _ _) hs.1, hs.2⟩
  have hrate' : ∀ t < sys.n, f.lowRel t * s ≤ r t ∧ r t ≤ f.highRel t * s := by
    intro t ht
    have := hrate t ht
    unfold RateFits at this
    unfold FlowData.lowRel FlowData.highRel
    cases hp : f.fixedProfile with
    | some g => rw [hp] at this; simp [this]
    | none => rw [hp] at this; exact this
  obtain ⟨τ, t1, t2, t3, t4, _⟩ := flow_complete hv hf h hpd (p := ⟨r, fun _ => 0, s, 1, val⟩) (by
    refine ⟨?_, ?_, ?_, ?_, hmin, hmax, ?_, ?_⟩
    · intro _ t ht
      obtain ⟨e1, e2⟩ := absBounds_invest (sys := sys) hs t
      rw [e1, e2]
      obtain ⟨a, b⟩ := hrel t ht
      obtain ⟨c, d⟩ := hrate' t ht
      exact ⟨le_trans (mul_le_mul_of_nonneg_left hlims.1 a) c, le_trans d (mul_le_mul_of_nonneg_left hlims.2 b)⟩
    · intro q' hq'; rw [hoo] at hq'; simp at hq'
    · intro hne; exact absurd hoo hne
    · intro q' hq'
      rw [hs] at hq'; cases hq'
      refine ⟨hdict, fun _ => rfl, hseg, ?_⟩
      have hfix : ∀ v, q.fixedSize = some v → s = v := by
        intro v hv'
        rcases hsize with ⟨_, hs⟩ | ⟨_, _, hs⟩ <;> simpa [SizeIn, hv'] using hs
      refine ⟨?_, ?_, ?_, ?_, ?_, ?_, ?_, ?_, ?_, ?_, ?_⟩
      · intro v hv' _ _; exact hfix v hv'
      · intro hc
        rcases hsize with ⟨ho, hs⟩ | ⟨ho, h0, hs⟩
        · have hfx : q.fixedSize = none := by rw [ht, ho] at hc; simpa using hc
          simp only [SizeIn, hfx] at hs
          simpa [ho, InvestParams.minSize, hfx, pyOr] using hs.1
        · simpa [ho] using h0
      · intro _
        refine le_trans hlims.2 (le_of_eq ?_)
        rw [hm]; cases q.fixedSize <;> rfl
      · intro i hi
        right
        cases ho : q.optional <;> rw [ho] at hi <;> simp at hi
        subst hi; rfl
      · intro i hi v hv' _
        cases ho : q.optional <;> rw [ho] at hi <;> simp at hi
        subst hi
        simpa using hfix v hv'
      · intro i hi _
        cases ho : q.optional <;> rw [ho] at hi <;> simp at hi
        subst hi
        have : q.fixedSize.getD (q.maxSize sys.cfg) = q.maxSize sys.cfg := by rw [hm]; cases q.fixedSize <;> rfl
        rw [mul_one, ← this]; exact hlims.2
      · intro i hi hc
        cases ho : q.optional <;> rw [ho] at hi <;> simp at hi
        subst hi
        have hfx : q.fixedSize = none := by rw [ht] at hc; simpa using hc
        rcases hsize with ⟨ho', _⟩ | ⟨_, _, hs⟩
        · rw [ho] at ho'; simp at ho'
        · simp only [SizeIn, hfx] at hs
          simpa [InvestParams.minSize, hfx, pyOr] using hs.1
      · intro g hg t ht'
        have := hrate t ht'; unfold RateFits at this; rw [hg] at this; exact this
      · intro hp t ht'
        have := (hrate' t ht').2
        rw [(relBounds_at t).2]; exact this
      · intro hp _ t ht'
        have := (hrate' t ht').1
        rw [(relBounds_at t).1]; exact this
      · intro _ b hb; rw [hoo] at hb; simp at hb
    · intro m hm; simpa [FlowPlan.installed, hs] using hlmin m hm
    · intro m hm; simpa [FlowPlan.installed, hs] using hlmax m hm) σ
  exact ⟨τ, i, hi, t1, (t4 i hi).1, t2, t3⟩

/-- A flow with the example investment. -/
def exInvFlow : FlowData :=
  { label := "f", size := .invest exInv, relMin := .v [0, 1 / 5, 0], relMax := .s 1, loadFactorMax := some (9 / 10),
    flowHoursTotalMin := some 5 }

theorem exInvFlow_fits : exInvFlow.Fits 3 :=
  ⟨by simp [exInvFlow, Num.Fits, Num.len], by simp [exInvFlow], by simp [exInvFlow], by simp [exInvFlow]⟩

/-- The hypotheses of C17, C18, C37 are met: the example flow has a solution with size 6 and rates 2, 3, 4. -/
theorem exInvFlow_solvable : ∃ o i τ, flowModel exSys "c__f" exInvFlow = .ok o ∧ o.invest = some i ∧ o.tree.Solves τ ∧
    τ i.size.label 0 = 6 ∧ τ o.flowRate.label 2 = 4 := by
  obtain ⟨o, ho⟩ : ∃ o, flowModel exSys "c__f" exInvFlow = .ok o := ⟨_, rfl⟩
  obtain ⟨τ, i, hi, h1, h2, h3, _⟩ := C18_converse exSys_valid exInvFlow_fits ho (q := exInv) rfl rfl
    (by simp [InvestParams.NoZero, exInv]) (by decide) (by simp [exSys, Num.Nonneg]) (s := 6) (r := fun t => t + 2)
    (val := fun e => if e = "costs" then 32 / 5 else 9 / 5)
    (Or.inr ⟨rfl, by norm_num, by simp [SizeIn, exInv, exSys, exCfg]; norm_num⟩)
    (by
      rintro xs es ⟨⟩
      refine Or.inr ⟨rfl, 1, by decide, 1 / 5, by norm_num, by norm_num, ⟨_, rfl, by norm_num⟩, ?_⟩
      intro e he
      simp only [List.mem_cons, List.not_mem_nil, or_false] at he
      rcases he with rfl | rfl
      · exact ⟨_, rfl, by norm_num⟩
      · exact ⟨_, rfl, by simp only [show ("co2" : String) ≠ "costs" by decide, if_false]; norm_num⟩)
    (by
      intro t ht
      have : t < 3 := ht
      interval_cases t <;> simp [exInvFlow, FlowData.lowRel, FlowData.highRel, Num.at])
    (by
      intro t ht
      have : t < 3 := ht
      interval_cases t <;> simp [exInvFlow, RateFits, Num.at] <;> norm_num)
    (by
      intro m hm; simp [exInvFlow] at hm; subst hm
      simp [exSys, Sys.width, Sys.n, Finset.sum_range_succ]; norm_num)
    (by simp [exInvFlow]) (by simp [exInvFlow])
    (by
      intro m hm; simp [exInvFlow] at hm; subst hm
      simp [exSys, Sys.width, Sys.n, Finset.sum_range_succ]; norm_num)
    (fun _ _ => 0)
  exact ⟨o, i, τ, ho, hi, h1, h2, by rw [h3]; norm_num⟩

/-! ## C37: flow hours and load factors -/

/-- C37: the reported flow hours are the sum of rate times width, within the limits of the flow hours, and within the load
factors of what is installed. -/
theorem C37_flowHours (hv : sys.Valid) (hf : f.Fits sys.n) (h : flowModel sys el f = .ok o) (hσ : o.tree.Solves σ) :
    σ o.sumFlowHours.label 0 = ∑ k ∈ Finset.range sys.n, sys.width k * σ o.flowRate.label k ∧
    (∀ m, f.flowHoursTotalMin = some m → m ≤ ∑ k ∈ Finset.range sys.n, sys.width k * σ o.flowRate.label k) ∧
    (∀ m, f.flowHoursTotalMax = some m → ∑ k ∈ Finset.range sys.n, sys.width k * σ o.flowRate.label k ≤ m) := by
  have rows := (flow_iff hv hf h σ).1 hσ
  exact ⟨rows.sum, fun m hm => rows.sum ▸ rows.sumMin m hm, fun m hm => rows.sum ▸ rows.sumMax m hm⟩

/-- `S` is the size installed in the solution `σ`. -/
def Installed (cfg : Cfg) (f : FlowData) (o : FlowOut) (σ : Assignment) (S : ℚ) : Prop :=
  f.HasSize cfg S ∨ ∃ i, o.invest = some i ∧ σ i.size.label 0 = S

theorem C37_loadFactor (hv : sys.Valid) (hf : f.Fits sys.n) (h : flowModel sys el f = .ok o) (hσ : o.tree.Solves σ) {S : ℚ}
    (hS : Installed sys.cfg f o σ S) :
    (∀ m, f.loadFactorMin = some m → m * S * sys.total ≤ ∑ k ∈ Finset.range sys.n, sys.width k * σ o.flowRate.label k) ∧
    (∀ m, f.loadFactorMax = some m → ∑ k ∈ Finset.range sys.n, sys.width k * σ o.flowRate.label k ≤ m * S * sys.total) := by
  have rows := (flow_iff hv hf h σ).1 hσ
  rw [← rows.sum]
  rcases hS with hS | ⟨i, hi, rfl⟩
  · have hfix : f.fixSize sys.cfg = S := by
      unfold FlowData.fixSize FlowData.effSize
      rcases hS with ⟨h, h0⟩ | ⟨h, rfl⟩
      · simp [h, pyOr, h0]
      · simp [h]
    have hinv : o.invest = none := by
      cases hi : o.invest with
      | none => rfl
      | some i =>
        have h3 := (flow_inv h).2.2.1
        rw [hi] at h3
        obtain ⟨q', hq', _⟩ := flowInvest_some h3
        rcases hS with ⟨h, _⟩ | ⟨h, _⟩ <;> rw [h] at hq' <;> simp at hq'
    refine ⟨fun m hm => ?_, fun m hm => ?_⟩
    · have := rows.loadMin' m hm hinv; rw [hfix] at this; linarith
    · have := rows.loadMax' m hm hinv; rw [hfix] at this; linarith
  · refine ⟨fun m hm => ?_, fun m hm => ?_⟩
    · have := rows.loadMin m hm i hi; linarith
    · have := rows.loadMax m hm i hi; linarith

/-! ## C38: profiles -/

/-- C38 without on/off or with an investment: the flow rate is the profile times what is installed. -/
theorem C38_partial (hv : sys.Valid) (hf : f.Fits sys.n) (h : flowModel sys el f = .ok o) (hσ : o.tree.Solves σ) {S : ℚ}
    (hS : Installed sys.cfg f o σ S) {g : Num} (hg : f.fixedProfile = some g) (hc : f.onOff = none ∨ ∃ q, f.size = .invest q) :
    ∀ t < sys.n, σ o.flowRate.label t = S * g.at t := by
  intro t ht
  by_cases hinv : ∃ q, f.size = .invest q
  · obtain ⟨q, hq⟩ := hinv
    obtain ⟨i, hi, hr⟩ := C18 hv hf h hq hσ
    have : S = σ i.size.label 0 := by
      rcases hS with (⟨hS, _⟩ | ⟨hS, _⟩) | ⟨j, hj, hS⟩
      · rw [hq] at hS; simp at hS
      · rw [hq] at hS; simp at hS
      · rw [hi] at hj; cases hj; exact hS.symm
    rw [(hr t ht).1 g hg, this, mul_comm]
  · have hoo : f.onOff = none := hc.resolve_right hinv
    have hS' : f.HasSize sys.cfg S := by
      rcases hS with hS | ⟨j, hj, hS⟩
      · exact hS
      · have h3 := (flow_inv h).2.2.1
        rw [hj] at h3
        obtain ⟨q', hq', _⟩ := flowInvest_some h3
        exact absurd ⟨q', hq'⟩ hinv
    have rows := (flow_iff hv hf h σ).1 hσ
    have h1 := rows.lower hoo t ht
    have h2 := rows.upper hoo t ht
    have hab : (f.absBounds sys.cfg).1.at t = S * g.at t ∧ (f.absBounds sys.cfg).2.at t = S * g.at t := by
      unfold FlowData.absBounds FlowData.relBounds FlowData.effSize
      rcases hS' with ⟨h, h0⟩ | ⟨h, rfl⟩
      · simp only [h, hg, pyOr, h0, if_false, at_mulr]; exact ⟨mul_comm _ _, mul_comm _ _⟩
      · simp only [h, hg, at_mulr]; exact ⟨mul_comm _ _, mul_comm _ _⟩
    rw [hab.1] at h1
    rw [hab.2] at h2
    exact le_antisymm h2 h1

/-- A flow with a profile, a size, and on/off parameters. -/
def exProfOn : FlowData := { label := "f", size := .num 10, fixedProfile := some (.v [1, 1 / 2, 1]), onOff := some {} }

theorem exProfOn_fits : exProfOn.Fits 3 := by
  refine ⟨by simp [exProfOn], by simp [exProfOn], by simp [exProfOn, Num.Fits, Num.len], ?_⟩
  intro q hq; simp [exProfOn] at hq; subst hq
  exact ⟨by simp, by simp, by simp, by simp⟩

/-- C38 is false for flows with on/off parameters and without investment: the flow may stand still. -/
theorem C38_wrong : ∃ o σ, flowModel exSys "c__f" exProfOn = .ok o ∧ o.tree.Solves σ ∧ σ o.flowRate.label 0 = 0 := by
  obtain ⟨o, ho⟩ : ∃ o, flowModel exSys "c__f" exProfOn = .ok o := ⟨_, rfl⟩
  obtain ⟨τ, h1, h2, _⟩ := flow_complete exSys_valid exProfOn_fits ho (by simp [exSys, Num.Nonneg])
    (p := ⟨fun _ => 0, fun _ => 0, 0, 0, fun _ => 0⟩) (by
      refine ⟨?_, ?_, ?_, ?_, ?_, ?_, ?_, ?_⟩
      · intro h; simp [exProfOn] at h
      · intro q hq; simp [exProfOn] at hq; subst hq
        refine ⟨by intro m hm; simp at hm, 0, rfl, ⟨fun _ _ => Or.inl rfl, by simp, by simp, by simp, ?_, ?_⟩⟩
        all_goals intro before _; exact ⟨by simp, by simp, by simp⟩
      · intro _ t _; simp
      · intro q hq; simp [exProfOn] at hq
      · simp [exProfOn]
      · simp [exProfOn]
      · simp [exProfOn]
      · simp [exProfOn]) (fun _ _ => 0)
  exact ⟨o, τ, ho, h1, by rw [h2]⟩

/-! ## C39: zero sizes -/

/-- C39, the part that holds: no flow where the installed size is zero. -/
theorem C39_partial (hv : sys.Valid) (hf : f.Fits sys.n) (h : flowModel sys el f = .ok o) (hs : f.size = .invest q)
    (hσ : o.tree.Solves σ) (hnn : ∀ t < sys.n, 0 ≤ f.lowRel t)
    (hz : q.fixedSize = some 0 ∨ ∃ i, o.invest = some i ∧ σ i.size.label 0 = 0) (hmin : 0 ≤ q.fixedSize.getD q.minimumSize) :
    ∀ t < sys.n, σ o.flowRate.label t = 0 := by
  intro t ht
  have rows := (flow_iff hv hf h σ).1 hσ
  have h0 : 0 ≤ σ o.flowRate.label t := by
    by_cases hoo : f.onOff = none
    · have := rows.lower hoo t ht
      rw [(absBounds_invest hs t).1] at this
      exact le_trans (mul_nonneg (hnn t ht) hmin) this
    · exact rows.nonneg hoo t ht
  refine le_antisymm ?_ h0
  rcases hz with hz | ⟨i, hi, hz⟩
  · have hub : (f.absBounds sys.cfg).2.at t = 0 := by rw [(absBounds_invest hs t).2, hz]; simp
    by_cases hoo : f.onOff = none
    · have := rows.upper hoo t ht
      rw [hub] at this; exact this
    · obtain ⟨oq, hoq⟩ := Option.ne_none_iff_exists'.1 hoo
      obtain ⟨h1, h2, _⟩ := flow_inv h
      cases ho : o.onOff with
      | none => rw [ho] at h2; exact absurd (flowOnOff_none h2) hoo
      | some oo =>
        rw [ho] at h2
        obtain ⟨q', hq', hm⟩ := flowOnOff_some h2
        obtain ⟨hlen, _⟩ := (flowRate_ok h1).2
        obtain ⟨ha1, ha2⟩ := hf.absBounds sys.cfg
        obtain ⟨_, _, _, hiff⟩ := onOff_iff hv (hf.onOff q' hq') (by simpa using ⟨hlen, ha1, ha2⟩) hm
        have hr := ((hiff σ).1 (rows.onOff oo ho)).onRel
        have : σ o.flowRate.label t ≤ (f.absBounds sys.cfg).2.at t * σ oo.on.label t := (hr t ht).2
        rw [hub, zero_mul] at this; exact this
  · obtain ⟨j, hj, hr⟩ := C18 hv hf h hs hσ
    rw [hi] at hj; cases hj
    cases hp : f.fixedProfile with
    | some g => rw [(hr t ht).1 g hp, hz, mul_zero]
    | none => have := (hr t ht).2.1 hp; rw [hz, mul_zero] at this; exact this

/-- A flow of size zero. -/
def exZero : FlowData := { label := "f", size := .num 0 }
/-- A flow with an investment of at most zero. -/
def exZeroMax : FlowData := { label := "f", size := .invest { maximumSize := some 0, optional := false } }

theorem exZero_fits : exZero.Fits 3 ∧ exZeroMax.Fits 3 :=
  ⟨⟨by simp [exZero], by simp [exZero], by simp [exZero], by simp [exZero]⟩,
   ⟨by simp [exZeroMax], by simp [exZeroMax], by simp [exZeroMax], by simp [exZeroMax]⟩⟩

/-- C39 is false for `size=0`: zero counts as not given, the flow may run at rate 7. -/
theorem C39_wrong : ∃ o σ, flowModel exSys "c__f" exZero = .ok o ∧ o.tree.Solves σ ∧ ∀ t, σ o.flowRate.label t = 7 := by
  obtain ⟨o, ho⟩ : ∃ o, flowModel exSys "c__f" exZero = .ok o := ⟨_, rfl⟩
  obtain ⟨τ, h1, h2, _⟩ := flow_complete exSys_valid exZero_fits.1 ho (by simp [exSys, Num.Nonneg])
    (p := ⟨fun _ => 7, fun _ => 0, 0, 0, fun _ => 0⟩) (by
      refine ⟨?_, ?_, ?_, ?_, ?_, ?_, ?_, ?_⟩
      · intro _ t _
        simp [FlowData.absBounds, FlowData.relBounds, FlowData.effSize, exZero, pyOr, exSys, exCfg, at_mulr]; norm_num
      all_goals simp [exZero]) (fun _ _ => 0)
  exact ⟨o, τ, ho, h1, by rw [h2]; simp⟩

/-- C39 is false for `maximum_size=0`: the investment may have size 7 and the flow may use it. -/
theorem C39_wrong_max : ∃ o i σ, flowModel exSys "c__f" exZeroMax = .ok o ∧ o.invest = some i ∧ o.tree.Solves σ ∧
    σ i.size.label 0 = 7 ∧ ∀ t, σ o.flowRate.label t = 7 := by
  obtain ⟨o, ho⟩ : ∃ o, flowModel exSys "c__f" exZeroMax = .ok o := ⟨_, rfl⟩
  obtain ⟨i, hi, _⟩ := flow_has_invest ho (q := { maximumSize := some 0, optional := false }) rfl
  obtain ⟨τ, h1, h2, _, h4, _⟩ := flow_complete exSys_valid exZero_fits.2 ho (by simp [exSys, Num.Nonneg])
    (p := ⟨fun _ => 7, fun _ => 0, 7, 1, fun _ => 0⟩) (by
      refine ⟨?_, ?_, ?_, ?_, ?_, ?_, ?_, ?_⟩
      · intro _ t _
        obtain ⟨e1, e2⟩ := absBounds_invest (sys := exSys) (f := exZeroMax) (q := { maximumSize := some 0, optional := false }) rfl t
        rw [e1, e2]
        simp [FlowData.lowRel, FlowData.highRel, exZeroMax, InvestParams.maxSize, pyOr, exSys, exCfg]; norm_num
      · simp [exZeroMax]
      · simp [exZeroMax]
      · intro q hq; simp [exZeroMax] at hq; subst hq
        refine ⟨by decide, by simp, by intro xs es h; simp at h, ?_⟩
        refine ⟨by simp, ?_, ?_, by simp, by simp, by simp, by simp, by simp [exZeroMax], ?_, ?_, by simp [exZeroMax]⟩
        · intro _; simp [InvestParams.minSize, pyOr]
        · intro _; simp [InvestParams.maxSize, pyOr, exSys, exCfg]; norm_num
        · intro _ t _; simp [FlowData.relBounds, exZeroMax]
        · intro _ _ t _; simp [FlowData.relBounds, exZeroMax]
      all_goals simp [exZeroMax]) (fun _ _ => 0)
  exact ⟨o, i, τ, ho, hi, h1, (h4 i hi).1, by rw [h2]; simp⟩

end Flix
