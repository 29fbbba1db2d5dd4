import Verif.Lemmas.SegResults
import Verif.Props.Segmented

/-!
# C86: what a segmented calculation reports
-/

namespace Flix

/-- **C86 (options).**  Anything but exactly one option is refused; the individual results of a segment stand under its name. -/
theorem C86_options (c : SegCalc) (arrays scalars individual : Bool) (trees : List RTree) :
    (¬ (arrays = true ∧ scalars = false ∧ individual = false) ∧ ¬ (arrays = false ∧ scalars = true ∧ individual = false) ∧
      ¬ (arrays = false ∧ scalars = false ∧ individual = true) → c.results arrays scalars individual trees = .error .assertion) ∧
    ∃ res, c.results false false true trees = .ok res ∧ ∀ (k : Nat) (t : RTree), trees[k]? = some t → ∀ p, res.get (("Segment_" ++ toString (k + 1)) :: p) = t.get p := by
  constructor
  · rintro ⟨h1, h2, h3⟩
    cases arrays <;> cases scalars <;> cases individual <;> simp_all [SegCalc.results]
  · refine ⟨_, rfl, ?_⟩
    intro k t ht p
    have hl : (trees.mapIdx fun i t => (segName i, t)).lookup (segName k) = some t := by
      have aux : ∀ (l : List RTree) (j : Nat), l[k]? = some t →
          (l.mapIdx fun i t => (segName (i + j), t)).lookup (segName (k + j)) = some t := by
        clear ht
        induction k with
        | zero =>
          intro l j hl
          cases l with
          | nil => simp at hl
          | cons a l =>
            simp only [List.getElem?_cons_zero, Option.some.injEq] at hl
            subst hl
            simp [List.mapIdx_cons]
        | succ k ih =>
          intro l j hl
          cases l with
          | nil => simp at hl
          | cons a l =>
            rw [List.getElem?_cons_succ] at hl
            rw [List.mapIdx_cons, List.lookup_cons]
            have : (segName (k + 1 + j) == segName (0 + j)) = false := by
              rw [beq_eq_false_iff_ne]
              intro he
              have := segName_inj he
              omega
            rw [this]
            have := ih l (j + 1) hl
            simpa only [Nat.add_assoc, Nat.add_comm 1 j] using this
      exact aux trees 0 ht
    change (RTree.dict _).get (segName k :: p) = _
    rw [RTree.get_dict, hl]
    rfl

/-- **C86 (scalars).**  The combined scalars contain a list at a path exactly if every segment has a scalar there, and the list has the value
of every segment, in their order. -/
theorem C86_scalars {c : SegCalc} {trees : List RTree} {res : RTree} (hr : c.results false true false trees = .ok res)
    (hu : ∀ t ∈ trees, t.Uniq) (path : List String) (xs : List ℚ) :
    res.get path = some (.arr xs) ↔ List.Forall₂ (fun t x => RTree.get t path = some (.scal x)) trees xs := by
  cases trees with
  | nil => cases hr
  | cons t rest =>
    rw [combineScalars_arr (show combineScalars (t :: rest) = .ok res from hr) (hu t (by simp)) path xs]
    constructor
    · rintro ⟨a, as, h1, h2, rfl⟩
      exact .cons h1 h2
    · intro h
      cases h with
      | cons h1 h2 => exact ⟨_, _, h1, h2, rfl⟩

/-- Nothing is reported twice: a path with combined arrays has no combined scalars. -/
theorem C86_separate {c : SegCalc} {trees : List RTree} {ra rs : RTree} (ha : c.results true false false trees = .ok ra)
    (hs : c.results false true false trees = .ok rs) (hu : ∀ t ∈ trees, t.Uniq) (path : List String) :
    ¬ ((∃ xs, ra.get path = some (.arr xs)) ∧ ∃ xs, rs.get path = some (.arr xs)) := by
  rintro ⟨h1, ⟨ys, h2⟩⟩
  cases trees with
  | nil => cases hs
  | cons t rest =>
    rw [C45_content (show combineArrays c.L.toNat (t :: rest) = .ok ra from ha) (hu t (by simp))] at h1
    rw [C86_scalars hs hu] at h2
    obtain ⟨xs, hx⟩ := h1 t (by simp)
    cases h2 with
    | cons h3 _ => rw [h3] at hx; cases hx

/-- **C86 (nothing is lost)** for results that are of the same kind in all segments. -/
theorem C86_complete_partial {c : SegCalc} {trees : List RTree} {ra rs : RTree} (ha : c.results true false false trees = .ok ra)
    (hs : c.results false true false trees = .ok rs) (hu : ∀ t ∈ trees, t.Uniq) (path : List String)
    (hk : (∀ t ∈ trees, ∃ xs, t.get path = some (.arr xs)) ∨ (∀ t ∈ trees, ∃ x, t.get path = some (.scal x))) :
    (∃ xs, ra.get path = some (.arr xs)) ∨ ∃ xs, rs.get path = some (.arr xs) := by
  rcases hk with hk | hk
  · left
    cases trees with
    | nil => cases hs
    | cons t rest =>
      rw [C45_content (show combineArrays c.L.toNat (t :: rest) = .ok ra from ha) (hu t (by simp))]
      exact hk
  · right
    have : ∃ xs, List.Forall₂ (fun t x => RTree.get t path = some (.scal x)) trees xs := by
      clear ha hs hu
      induction trees with
      | nil => exact ⟨[], .nil⟩
      | cons t rest ih =>
        obtain ⟨x, hx⟩ := hk t (by simp)
        obtain ⟨xs, hxs⟩ := ih (fun t' h' => hk t' (by simp [h']))
        exact ⟨x :: xs, .cons hx hxs⟩
    obtain ⟨xs, hxs⟩ := this
    exact ⟨xs, (C86_scalars hs hu path xs).2 hxs⟩

/-- C86 is false for a series that has several values in some segments and one in the last: neither of the combined results has it. -/
theorem C86_complete_wrong : ∃ c ra rs, SegCalc.init 7 none 3 0 = .ok c ∧
    c.results true false false [segResults [1, 2, 3] [0, 1, 2, 3] 7, segResults [5, 6, 7] [3, 4, 5, 6] 8, segResults [9] [6, 7] 9] = .ok ra ∧
    c.results false true false [segResults [1, 2, 3] [0, 1, 2, 3] 7, segResults [5, 6, 7] [3, 4, 5, 6] 8, segResults [9] [6, 7] 9] = .ok rs ∧
    (ra.get ["Components", "Boiler", "flow_rate"]).isNone = true ∧ (rs.get ["Components", "Boiler", "flow_rate"]).isNone = true :=
  ⟨_, _, _, rfl, rfl, rfl, rfl, rfl⟩

/-- Two segments: the objectives are combined to a list, the series to one array, and each segment can be looked up. -/
example : ∃ c ra rs ri, SegCalc.init 5 none 3 1 = .ok c ∧
    c.results true false false [segResults [1, 2, 3, 4] [0, 1, 2, 3, 4] 7, segResults [5, 6] [3, 4, 5] 8] = .ok ra ∧
    c.results false true false [segResults [1, 2, 3, 4] [0, 1, 2, 3, 4] 7, segResults [5, 6] [3, 4, 5] 8] = .ok rs ∧
    c.results false false true [segResults [1, 2, 3, 4] [0, 1, 2, 3, 4] 7, segResults [5, 6] [3, 4, 5] 8] = .ok ri ∧
    (∀ t ∈ [segResults [1, 2, 3, 4] [0, 1, 2, 3, 4] 7, segResults [5, 6] [3, 4, 5] 8], t.Uniq) ∧
    ra.get ["Components", "Boiler", "flow_rate"] = some (.arr [1, 2, 3, 5, 6]) ∧ rs.get ["Objective"] = some (.arr [7, 8]) ∧
    ri.get ["Segment_2", "Objective"] = some (.scal 8) :=
  ⟨_, _, _, _, rfl, rfl, rfl, rfl, by simp [segResults_uniq], rfl, rfl, rfl⟩

/-- The combination of scalars succeeds when every path of the first segment exists in the others. -/
theorem C86_total {c : SegCalc} {t : RTree} {rest : List RTree} (hu : t.Uniq) (h : ∀ r ∈ rest, ∀ p, (t.get p).isSome → (r.get p).isSome) :
    ∃ res, c.results false true false (t :: rest) = .ok res := combineScalars_total hu h

/-- **C86 (start values).**  After the first run of a calculation, whether it raised or not, the overview names exactly the segments that were
begun, and for each the start values its model was built with. -/
theorem C86_start_partial {c : SegCalc} {solver : SegSolver} {fs ss : List StartVal} {s : SegState}
    (hs : (c.solveAll solver (SegState.start fs ss)).1 = s) (hne : s.subs ≠ []) :
    ∃ d, s.startValues = .ok d ∧ d.length = s.subs.length ∧
      ∀ (k : Nat) (a : SegSub), s.subs[k]? = some a → d[k]? = some ("Segment_" ++ toString (k + 1), (a.flows, a.stores)) := by
  subst hs
  refine ⟨_, c.startValues_run hne, by simp [SegState.overview], ?_⟩
  intro k a ha
  unfold SegState.overview
  rw [List.getElem?_mapIdx, ha]
  rfl

/-- Three segments. -/
example : ∃ c s, SegCalc.init 9 none 3 0 = .ok c ∧ (c.solveAll stepSolver (SegState.start [.none] [.num (.s 0)])) = (s, none) ∧ s.subs ≠ [] ∧
    s.startValues = .ok [("Segment_1", ([.none], [.num (.s 0)])), ("Segment_2", ([.num (.s 2)], [.num (.s 100)])), ("Segment_3", ([.num (.s 5)], [.num (.s 100)]))] :=
  ⟨_, _, rfl, rfl, by decide +kernel, by decide +kernel⟩

/-- C86 is false when the user changes a start value between the construction of the calculation and its run: the first segment is built
with the new value, the overview shows the old one. -/
theorem C86_start_wrong : ∃ c s, SegCalc.init 9 none 3 0 = .ok c ∧
    (c.solveAll stepSolver { SegState.start [.none] [.num (.s 0)] with flows := [.num (.s 5)] }) = (s, none) ∧
    (s.subs.map fun a => a.flows) = [[.num (.s 5)], [.num (.s 2)], [.num (.s 5)]] ∧
    s.startValues = .ok [("Segment_1", ([.none], [.num (.s 0)])), ("Segment_2", ([.num (.s 2)], [.num (.s 100)])), ("Segment_3", ([.num (.s 5)], [.num (.s 100)]))] :=
  ⟨_, _, rfl, rfl, by decide +kernel, by decide +kernel⟩

end Flix
