import Verif.Lemmas.SegAgain
import Verif.Props.Segmented
import Verif.Props.SegResults
import Verif.Lemmas.Check

/-! # C102: running a segmented calculation again -/

namespace Flix

/-- States of one `SegmentedCalculation`: constructed, run any number of times with any solvers (the runs may raise), with start values
changed by the user at any time between. -/
inductive SegCalc.Reached (c : SegCalc) : SegState → Prop
  | start (fs ss : List StartVal) : c.Reached (SegState.start fs ss)
  | run (solver : SegSolver) {s : SegState} : c.Reached s → c.Reached (c.solveAll solver s).1
  | set (fs ss : List StartVal) {s : SegState} : c.Reached s → c.Reached { s with flows := fs, stores := ss }

theorem SegCalc.loop_nodup {c : SegCalc} {solver : SegSolver} (m : Nat) : ∀ {i : Nat} {s : SegState}, (s.given.map Prod.fst).Nodup →
    ((c.loop solver m i s).1.given.map Prod.fst).Nodup := by
  induction m with
  | zero => intro i s h; exact h
  | succ m ih =>
    intro i s h
    unfold SegCalc.loop
    obtain ⟨g1, g2, g3⟩ := c.enter_given (i := i) (s := s)
    have hn : ((c.enter i s).1.given.map Prod.fst).Nodup := by
      by_cases he : (c.enter i s).2 = none
      · by_cases hs : s.subs = []
        · rw [g2 he hs]; exact h
        · rw [g3 he hs]; exact nodup_setEntry h
      · rw [g1 he]; exact h
    rcases he : c.enter i s with ⟨s1, e⟩
    rw [he] at hn
    cases e with
    | some e => exact hn
    | none =>
      have h1 : ((c.solveSeg solver i s1).1.given.map Prod.fst).Nodup := hn
      simp only
      rcases hv : c.solveSeg solver i s1 with ⟨s2, e⟩
      rw [hv] at h1
      cases e with
      | some e => exact h1
      | none => exact ih h1

theorem SegCalc.Reached.nodup {c : SegCalc} {s : SegState} (h : c.Reached s) : (s.given.map Prod.fst).Nodup := by
  induction h with
  | start fs ss => simp [SegState.start]
  | set fs ss _ ih => exact ih
  | run solver _ ih =>
    unfold SegCalc.solveAll
    have := c.loop_nodup (solver := solver) c.nSeg (i := 0) ih
    rcases hl : c.loop solver c.nSeg 0 _ with ⟨s1, e⟩
    rw [hl] at this
    cases e with
    | some e => exact this
    | none => rw [s1.reset_frame.2.1]; exact this

/-- **C102 (later runs).**  A further run that returns, whatever happened to the calculation before, solves every segment once more on the
same indices, keeps the sub calculations of the earlier runs, and the overview of start values then shows for every segment the values
of this run. -/
theorem C102_overview_partial {c : SegCalc} {solver : SegSolver} {s s2 : SegState} (hr : c.Reached s) (hs : s.subs ≠ [])
    (h : c.solveAll solver s = (s2, none)) :
    ∃ new d, s2.subs = s.subs ++ new ∧ new.length = c.nSeg ∧ s2.startValues = .ok d ∧
      ∀ k a, new[k]? = some a → a.idx = c.indices k ∧ d.lookup ("Segment_" ++ toString (k + 1)) = some (a.flows, a.stores) := by
  unfold SegCalc.solveAll at h
  rcases hl : c.loop solver c.nSeg 0 s with ⟨s1, e⟩
  rw [hl] at h
  cases e with
  | some e => simp at h
  | none =>
    simp only at h
    obtain ⟨r1, r2, -, -⟩ := s1.reset_frame
    rw [h] at r1 r2
    simp only at r1 r2
    obtain ⟨n1, ⟨new, e1, e2, e3⟩, -⟩ := c.loop_again c.nSeg hs hr.nodup hl
    refine ⟨new, _, by rw [r1, e1], e2, by rw [SegState.startValues, if_neg (by rw [r1, e1]; simp [hs])], ?_⟩
    intro k a ha
    obtain ⟨q1, q2⟩ := e3 k a ha
    rw [Nat.zero_add] at q1 q2
    refine ⟨q1, ?_⟩
    rw [lookup_foldl_setEntry (by rw [r2]; exact n1), r2, show "Segment_" ++ toString (k + 1) = segName k from rfl, q2]
    rfl

/-- A second run with two segments. -/
example : ∃ c s, SegCalc.init 6 none 3 0 = .ok c ∧ c.Reached (c.solveAll stepSolver (SegState.start [.none] [.num (.s 0)])).1 ∧
    (c.solveAll stepSolver (SegState.start [.none] [.num (.s 0)])).1.subs ≠ [] ∧
    c.solveAll stepSolver (c.solveAll stepSolver (SegState.start [.none] [.num (.s 0)])).1 = (s, none) ∧ s.subs.length = 4 :=
  ⟨_, _, rfl, .run _ (.start _ _), by decide +kernel, rfl, by decide +kernel⟩

/-- **C102 (a new calculation).**  After a run that returned, a new calculation on the same flow system starts from the same state, hence
does exactly what the first one did. -/
theorem C102_new {c : SegCalc} {solver : SegSolver} {fs ss : List StartVal} {s : SegState}
    (h : c.solveAll solver (SegState.start fs ss) = (s, none)) :
    c.solveAll solver (SegState.start s.flows s.stores) = (s, none) := by
  have h1 := C47_unchanged (c := c) (solver := solver) (fs := fs) (ss := ss) (by rw [h])
  rw [h] at h1
  simp only at h1
  rw [h1.1, h1.2]
  exact h

example : ∃ c s, SegCalc.init 6 none 3 0 = .ok c ∧ c.solveAll stepSolver (SegState.start [.none] [.num (.s 0)]) = (s, none) :=
  ⟨_, _, rfl, rfl⟩

/-- C102 is false for the start: the first segment of a second run does not begin with the user's start values but with the values at the
end of the first run, although the start values had been reset. -/
theorem C102_start_wrong : ∃ c s, SegCalc.init 6 none 3 0 = .ok c ∧
    (c.solveAll stepSolver (SegState.start [.none] [.num (.s 0)])).2 = none ∧
    (c.solveAll stepSolver (SegState.start [.none] [.num (.s 0)])).1.flows = [.none] ∧
    c.solveAll stepSolver (c.solveAll stepSolver (SegState.start [.none] [.num (.s 0)])).1 = (s, none) ∧
    (s.subs.map fun a => a.idx) = [[0, 1, 2], [3, 4, 5], [0, 1, 2], [3, 4, 5]] ∧
    (s.subs.map fun a => a.flows) = [[.none], [.num (.s 2)], [.num (.s 5)], [.num (.s 2)]] :=
  ⟨_, _, rfl, by decide +kernel, by decide +kernel, rfl, by decide +kernel, by decide +kernel⟩

/-- C102 is false for the results: after a second run the combined series contain both runs, twice as many values as the horizon has steps. -/
theorem C102_results_wrong : ∃ c s res, SegCalc.init 6 none 3 0 = .ok c ∧
    c.solveAll stepSolver (c.solveAll stepSolver (SegState.start [.none] [.num (.s 0)])).1 = (s, none) ∧
    c.results true false false (s.subs.map fun a => .dict [("flow_rate", .arr ((a.res.map fun r => r.flowRates.flatten).getD []))]) = .ok res ∧
    res.get ["flow_rate"] = some (.arr [0, 1, 2, 3, 4, 5, 0, 1, 2, 3, 4, 5]) :=
  ⟨_, _, _, rfl, rfl, rfl, rfl⟩

end Flix
