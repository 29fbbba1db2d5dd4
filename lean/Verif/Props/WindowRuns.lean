import Verif.Lemmas.Window
import Verif.Lemmas.Check

/-!
# C87: within a segment the durations keep the limits of the steps of the segment

`C87_partial` and `C91_partial` speak of declarations without limits on durations (`OnOffParams.Local`).  With limits, which may differ from step to
step, a solution of a segment need not be part of a solution of the whole horizon (`C87_duration_wrong`); what holds within the segment is stated here:
the limit that applies in step `t` of the segment is the one declared for step `a + t` of the horizon.
-/

namespace Flix

variable {sys : Sys} {q : OnOffParams} {a k : Nat}

theorem OnOffParams.Fits.window (h : q.Fits sys.n) (hi : a + k ≤ sys.n) : (q.window a k).Fits k := by
  constructor
  · intro m hm; obtain ⟨x, hx, rfl⟩ := Option.map_eq_some_iff.1 hm; exact fits_window (h.onMin x hx) hi
  · intro m hm; obtain ⟨x, hx, rfl⟩ := Option.map_eq_some_iff.1 hm; exact fits_window (h.onMax x hx) hi
  · intro m hm; obtain ⟨x, hx, rfl⟩ := Option.map_eq_some_iff.1 hm; exact fits_window (h.offMin x hx) hi
  · intro m hm; obtain ⟨x, hx, rfl⟩ := Option.map_eq_some_iff.1 hm; exact fits_window (h.offMax x hx) hi

theorem FlowData.Fits.window {f : FlowData} (h : f.Fits sys.n) (prev : Option Num) (hi : a + k ≤ sys.n) : (f.window a k prev).Fits k where
  relMin := fits_window h.relMin hi
  relMax := fits_window h.relMax hi
  prof := by
    intro g hg
    obtain ⟨g', h1, rfl⟩ := Option.map_eq_some_iff.1 hg
    exact fits_window (h.prof g' h1) hi
  onOff := by
    intro q hq
    obtain ⟨q', h1, rfl⟩ := Option.map_eq_some_iff.1 hq
    exact (h.onOff q' h1).window hi

theorem run_width {b w w' : Nat → ℚ} {before x : ℚ} {t : Nat} (hw : ∀ i ≤ t, w i = w' i) (h : RunUpTo b w before t x) : RunUpTo b w' before t x := by
  cases h with
  | idle h => exact .idle h
  | started h1 h2 h3 =>
    rw [Finset.sum_congr rfl fun i hi => hw i (Finset.mem_Icc.1 hi).2]
    exact .started h1 h2 h3
  | carried h1 =>
    rw [Finset.sum_congr rfl fun i hi => hw i (by have := Finset.mem_range.1 hi; omega)]
    exact .carried h1

/-- Durations over the steps of a segment, with the limits and widths of the horizon. -/
theorem runs_window {b : Nat → ℚ} {before : ℚ} {lo hi : Option Num} (hv : sys.Valid) (hk : 0 < k) (hi' : a + k ≤ sys.n)
    (hlo : ∀ m, lo = some m → m.Fits sys.n) (hhi : ∀ m, hi = some m → m.Fits sys.n)
    (h : RunsRespect k b (sys.window a k).width before ((lo.map (·.window a k)).map Num.at) ((hi.map (·.window a k)).map Num.at)) :
    RunsRespect k b (fun t => sys.width (a + t)) before (lo.map fun m t => m.at (a + t)) (hi.map fun m t => m.at (a + t)) := by
  have hw : ∀ t < k, sys.width (a + t) = (sys.window a k).width t := fun t ht => (width_window hv hi' ht).symm
  constructor
  · intro m hm t x ht h1 h0 hx
    obtain ⟨m, rfl, rfl⟩ := Option.map_eq_some_iff.1 hm
    have := h.longEnough _ rfl t x ht h1 h0 (run_width (fun i hi => hw i (by omega)) hx)
    rwa [at_window (hlo m rfl) hi' (by omega)] at this
  · intro m hm t x ht h1 hx
    obtain ⟨m, rfl, rfl⟩ := Option.map_eq_some_iff.1 hm
    have := h.notTooLong _ rfl t x ht h1 (run_width (fun i hi => hw i (by omega)) hx)
    rwa [at_window (hhi m rfl) hi' ht] at this
  · intro m hm h1 h2
    obtain ⟨m, rfl, rfl⟩ := Option.map_eq_some_iff.1 hm
    refine h.continued _ rfl h1 ?_
    rwa [at_window (hlo m rfl) hi' hk]

/-- The limits on durations, over the steps `a`, …, `a + k - 1` of the horizon; `b` are the states in these steps, `hist` the states before. -/
structure SegmentRuns (sys : Sys) (q : OnOffParams) (a k : Nat) (hist : List ℚ) (b : Nat → ℚ) : Prop where
  on : ∀ before, getConsecutiveDuration sys.cfg.eps (.v hist) sys.prevDt = .ok before →
    RunsRespect k b (fun t => sys.width (a + t)) before (q.consecOnMin.map fun m t => m.at (a + t)) (q.consecOnMax.map fun m t => m.at (a + t))
  off : ∀ before, getConsecutiveDuration sys.cfg.eps (.v (hist.map (1 - ·))) sys.prevDt = .ok before →
    RunsRespect k (fun t => 1 - b t) (fun t => sys.width (a + t)) before (q.consecOffMin.map fun m t => m.at (a + t)) (q.consecOffMax.map fun m t => m.at (a + t))

/-- **C87 (durations within a segment).**  In every solution of the on/off model of a segment the durations keep the limits declared for these steps. -/
theorem C87_runs (hv : sys.Valid) (hi : a + k ≤ sys.n) (hk : 0 < k) (hq : q.Fits sys.n) {el : String} {ds : List (Var × Num × Num)} {o : OnOffOut}
    (hds : ∀ d ∈ ds, d.1.length = k ∧ d.2.1.Fits k ∧ d.2.2.Fits k) (h : onOffModel (sys.window a k) el (q.window a k) ds = .ok o) {σ : Assignment}
    (hs : o.tree.Solves σ) :
    ∃ hist, previousOnValues sys.cfg.eps (ds.map (·.1)) = .ok hist ∧ SegmentRuns sys q a k hist (σ o.on.label) := by
  obtain ⟨hist, last, h1, _, h3⟩ := schedule_sound (valid_window hv hi) (hq.window hi) hds h hs
  exact ⟨hist, h1, fun before hb => runs_window hv hk hi hq.onMin hq.onMax (h3.runsOn before hb),
    fun before hb => runs_window hv hk hi hq.offMin hq.offMax (h3.runsOff before hb)⟩

/-- **C87 (durations of a flow within a segment).**  The same for every flow with states; the states before the segment are read from the rate handed over. -/
theorem C87_runs_flow (hv : sys.Valid) (hi : a + k ≤ sys.n) (hk : 0 < k) {f : FlowData} (hf : f.Fits sys.n) (hq : f.onOff = some q) {el : String}
    {prev : Option Num} {o : FlowOut} (h : flowModel (sys.window a k) el (f.window a k prev) = .ok o) {σ : Assignment} (hs : o.tree.Solves σ) :
    SegmentRuns sys q a k (flowHistory sys.cfg.eps prev) (σ (el ++ "__OnOff" ++ "_" ++ "on")) := by
  have hfk : (f.window a k prev).Fits (sys.window a k).n := hf.window prev hi
  have hvk := valid_window hv hi
  have hqk : (f.window a k prev).onOff = some (q.window a k) := by simp [FlowData.window, hq]
  obtain ⟨oo, ho, hm, hlen, -⟩ := flow_state hvk hfk h hqk hs
  have hr := (flow_iff hvk hfk h σ).1 hs
  obtain ⟨h1, -⟩ := flow_inv h
  obtain ⟨-, -, -, -, hprevr, -⟩ := flowRate_ok h1
  obtain ⟨ha1, ha2⟩ := hfk.absBounds (sys.window a k).cfg
  have hds : ∀ d ∈ [(o.flowRate, (f.window a k prev).absBounds (sys.window a k).cfg)], d.1.length = k ∧ d.2.1.Fits k ∧ d.2.2.Fits k := by
    simpa using ⟨hlen, ha1, ha2⟩
  obtain ⟨h2n, -⟩ := onOff_iff hvk (hfk.onOff _ hqk) hds hm
  obtain ⟨hist, e, key⟩ := C87_runs hv hi hk (hf.onOff q hq) hds hm (hr.onOff oo ho)
  have hs1 := C14_single_partial (eps := sys.cfg.eps) (d := o.flowRate) (by omega)
  simp only [List.map_cons, List.map_nil] at e
  rw [hs1, hprevr, if_pos (by omega)] at e
  cases e
  rw [(onOff_on_length hm).2.1] at key
  exact key

/-- Four hours; a segment are the last three of them. -/
def exRunHours : Sys := ⟨4, [1, 1, 1, 1], 4, .s 1, ⟨1/100000, 100000000⟩⟩

/-- Once on, the flow stays on for a time that differs from step to step. -/
def exRunFlow : FlowData :=
  { label := "Q", size := .num 10, onOff := some { consecOnMin := some (.v [1, 1, 2, 3]), consecOffMax := some (.v [1, 1, 2, 3]) } }

def exRunSol : Assignment := tableSol [("c__Q_flow_rate", [4, 5, 0]), ("c__Q_sumFlowHours", [9]), ("c__Q__OnOff_on", [1, 1, 0]),
  ("c__Q__OnOff_totalOnHours", [2]), ("c__Q__OnOff_off", [0, 0, 1]), ("c__Q__OnOff_consecutiveOnHours", [1, 2, 0]),
  ("c__Q__OnOff_consecutiveOffHours", [0, 0, 1]), ("c__Q__OnOff_switchOn", [1, 0, 0]), ("c__Q__OnOff_switchOff", [0, 0, 1]), ("c__Q__OnOff_nrSwitchOn", [1])]

theorem exRun_solves : ∃ o, flowModel (exRunHours.window 1 3) "c__Q" (exRunFlow.window 1 3 (some (.s 0))) = .ok o ∧ o.tree.Solves exRunSol := by
  obtain ⟨o, h1, h2⟩ := builds_and_solves (σ := exRunSol) (r := flowModel (exRunHours.window 1 3) "c__Q" (exRunFlow.window 1 3 (some (.s 0))))
    (f := fun o : FlowOut => o.tree) (by decide +kernel)
  exact ⟨o, h1, h2⟩

/-- The hypotheses of `C87_runs_flow` are met by a flow whose limits differ from step to step; the run that ends after the second step of the segment lasts at
least the two hours declared for the third step of the horizon. -/
example : SegmentRuns exRunHours { consecOnMin := some (.v [1, 1, 2, 3]), consecOffMax := some (.v [1, 1, 2, 3]) } 1 3 [0]
    (exRunSol ("c__Q" ++ "__OnOff" ++ "_" ++ "on")) := by
  obtain ⟨o, h1, h2⟩ := exRun_solves
  have hist : flowHistory exRunHours.cfg.eps (some (.s 0)) = [0] := by decide +kernel
  rw [← hist]
  refine C87_runs_flow (f := exRunFlow) ⟨rfl, ?_, ?_, ?_⟩ (by decide) (by decide) ?_ rfl h1 h2
  · simp [exRunHours]
  · norm_num [exRunHours]
  · norm_num [exRunHours]
  · constructor <;> simp [exRunFlow, Num.Fits, Num.isScalar]
    constructor <;> simp [Num.Fits, Num.len, exRunHours]

end Flix
