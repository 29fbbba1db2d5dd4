import Verif.Lemmas.Combine
import Verif.Lemmas.Check

/-!
# Segmented calculations (C44-C48)
-/

namespace Flix

/-! ## C44: the segments -/

/-- C44 for an overlap that is not negative, for every accepted segmented calculation: segment `k` is the run of consecutive steps that
begins at `k` times the segment length, the segments cover exactly the horizon, and all but the last have at least the segment length. -/
theorem C44_partial {nTime : Nat} {js : Option (List Int)} {L o : Int} {c : SegCalc} (h : SegCalc.init nTime js L o = .ok c) (ho : 0 ≤ o) :
    (∀ k < c.nSeg, (c.indices k)[0]? = some (k * L)) ∧
    (∀ k j : Nat, ∀ t, (c.indices k)[j]? = some t → t = k * L + j) ∧
    (∀ t : Nat, t < totalLength nTime js → ∃ k < c.nSeg, (t : Int) ∈ c.indices k) ∧
    (∀ k, ∀ t ∈ c.indices k, 0 ≤ t ∧ t < totalLength nTime js) ∧
    (∀ k, k + 1 < c.nSeg → L ≤ (c.indices k).length) := by
  obtain ⟨hL, hfit, rfl⟩ := SegCalc.init_ok.1 h
  generalize hc : ({ L := L, o := o, total := totalLength nTime js } : SegCalc) = c
  have e1 : c.L = L := by rw [← hc]
  have e2 : c.o = o := by rw [← hc]
  have e3 : c.total = totalLength nTime js := by rw [← hc]
  rw [← e3]
  have hL0 : 0 < c.L := by omega
  refine ⟨?_, ?_, ?_, ?_, ?_⟩
  · intro k hk
    have := c.starts_inside hL0 hk
    unfold SegCalc.indices
    rw [pyRange_get (by omega), e1]
    simp
  · intro k j t ht
    have hlt : j < (c.indices k).length := by
      by_contra hn
      rw [List.getElem?_eq_none (by omega)] at ht
      cases ht
    unfold SegCalc.indices at ht hlt
    rw [pyRange_length] at hlt
    rw [pyRange_get hlt, Option.some.injEq, e1] at ht
    exact ht.symm
  · intro t ht
    have hs := (c.nSeg_spec hL0).1
    have hdiv1 : (t : Int) / c.L * c.L ≤ t := Int.ediv_mul_le _ (by omega)
    have hdiv2 : (t : Int) < (t : Int) / c.L * c.L + c.L := Int.lt_ediv_add_one_mul_self (t : Int) hL0 |>.trans_eq (by ring)
    have hnn : 0 ≤ (t : Int) / c.L := Int.ediv_nonneg (by omega) (by omega)
    have hk : ((t : Int) / c.L).toNat = (t : Int) / c.L := Int.toNat_of_nonneg hnn
    refine ⟨((t : Int) / c.L).toNat, ?_, ?_⟩
    · by_contra hn
      have : (c.nSeg : Int) ≤ (t : Int) / c.L := by omega
      nlinarith
    · unfold SegCalc.indices
      rw [mem_pyRange, hk]
      omega
  · intro k t ht
    unfold SegCalc.indices at ht
    rw [mem_pyRange] at ht
    have : 0 ≤ (k : Int) * c.L := by positivity
    omega
  · intro k hk
    have := c.not_last hL0 hk
    unfold SegCalc.indices
    rw [pyRange_length]
    have h2 : ((k : Int) + 1) * c.L = k * c.L + c.L := by ring
    omega

example : ∃ c, SegCalc.init 10 none 4 3 = .ok c ∧ c.nSeg = 3 ∧ c.indices 1 = [4, 5, 6, 7, 8, 9] ∧ c.indices 2 = [8, 9] :=
  ⟨_, rfl, by decide +kernel, by decide +kernel, by decide +kernel⟩

/-- C44 is false for a negative overlap, which is accepted: steps between the segments are not solved. -/
theorem C44_negative_wrong : ∃ c, SegCalc.init 10 none 5 (-2) = .ok c ∧ c.nSeg = 2 ∧ ∀ k < c.nSeg, (3 : Int) ∉ c.indices k :=
  ⟨_, rfl, by decide +kernel, by decide +kernel⟩

/-- With a negative overlap the steps that are left out are exactly the last ones of every full segment. -/
theorem C44_negative {c : SegCalc} (hL : 2 < c.L) (ho : c.o < 0) (hpos : -c.o < c.L) {t : Nat} (ht : t < c.total) :
    (∃ k < c.nSeg, (t : Int) ∈ c.indices k) ↔ (t : Int) % c.L < c.L + c.o := by
  have hL0 : 0 < c.L := by omega
  have hs := (c.nSeg_spec hL0).1
  have hm := Int.emod_add_mul_ediv (t : Int) c.L
  have hm0 := Int.emod_nonneg (t : Int) (show c.L ≠ 0 by omega)
  have hm1 := Int.emod_lt_of_pos (t : Int) hL0
  have hnn : 0 ≤ (t : Int) / c.L := Int.ediv_nonneg (by omega) (by omega)
  constructor
  · rintro ⟨k, hk, hmem⟩
    unfold SegCalc.indices at hmem
    rw [mem_pyRange, lt_min_iff] at hmem
    have hk' : (t : Int) / c.L = k := by
      apply le_antisymm
      · by_contra hn
        have : (k : Int) + 1 ≤ (t : Int) / c.L := by omega
        nlinarith
      · by_contra hn
        have : (t : Int) / c.L + 1 ≤ k := by omega
        nlinarith
    rw [hk'] at hm
    have : c.L * (k : Int) = k * c.L := by ring
    omega
  · intro h
    have hk : ((t : Int) / c.L).toNat = (t : Int) / c.L := Int.toNat_of_nonneg hnn
    refine ⟨((t : Int) / c.L).toNat, ?_, ?_⟩
    · by_contra hn
      have : (c.nSeg : Int) ≤ (t : Int) / c.L := by omega
      nlinarith
    · unfold SegCalc.indices
      rw [mem_pyRange, hk]
      have : c.L * ((t : Int) / c.L) = (t : Int) / c.L * c.L := by ring
      omega

/-! ## C48: the selected time indices -/

/-- C48 holds exactly for selections of the first steps: the segments together contain the steps `0 … T-1` for `T` selected indices,
whatever the selected indices are. -/
theorem C48_iff {nTime : Nat} {js : List Int} {L o : Int} {c : SegCalc} (h : SegCalc.init nTime (some js) L o = .ok c) (ho : 0 ≤ o) :
    (∀ t : Int, (∃ k < c.nSeg, t ∈ c.indices k) ↔ t ∈ js) ↔ ∀ t : Int, t ∈ js ↔ 0 ≤ t ∧ t < js.length := by
  obtain ⟨-, -, h3, h4, -⟩ := C44_partial h ho
  have key : ∀ t : Int, (∃ k < c.nSeg, t ∈ c.indices k) ↔ 0 ≤ t ∧ t < js.length := by
    intro t
    constructor
    · rintro ⟨k, -, hk⟩; exact h4 k t hk
    · rintro ⟨h0, h1⟩
      have := h3 t.toNat (by simp only [totalLength]; omega)
      rwa [Int.toNat_of_nonneg h0] at this
  constructor
  · intro hall t
    rw [← hall t, key t]
  · intro hall t
    rw [hall t, key t]

/-- C48 for a calculation over all steps. -/
theorem C48_partial {nTime : Nat} {L o : Int} {c : SegCalc} (h : SegCalc.init nTime none L o = .ok c) (ho : 0 ≤ o) (t : Int) :
    (∃ k < c.nSeg, t ∈ c.indices k) ↔ 0 ≤ t ∧ t < nTime := by
  obtain ⟨-, -, h3, h4, -⟩ := C44_partial h ho
  constructor
  · rintro ⟨k, -, hk⟩; exact h4 k t hk
  · rintro ⟨h0, h1⟩
    have := h3 t.toNat (by simp only [totalLength]; omega)
    rwa [Int.toNat_of_nonneg h0] at this

example : ∃ c, SegCalc.init 7 none 3 2 = .ok c := ⟨_, rfl⟩

/-- C48 is false: the second day is selected and the first one calculated. -/
theorem C48_wrong : ∃ c, SegCalc.init 48 (some (pyRange 24 48)) 8 0 = .ok c ∧ ∀ k < c.nSeg, ∀ t ∈ c.indices k, t ∉ pyRange 24 48 :=
  ⟨_, rfl, by decide +kernel⟩

/-! ## C46: start values -/

/-- The results of a segment have one flow rate per step of the segment, one charge state more, and one series per element. -/
def SegSolver.Good (solver : SegSolver) : Prop :=
  ∀ i idx fs ss, (solver i idx fs ss).1 = none → ∃ r, (solver i idx fs ss).2 = some r ∧ r.flowRates.length = fs.length ∧
    r.charges.length = ss.length ∧ (∀ xs ∈ r.flowRates, xs.length = idx.length) ∧ ∀ xs ∈ r.charges, xs.length = idx.length + 1

/-- The value at position `p` of every series. -/
def ValuesAt (p : Nat) (xss : List (List ℚ)) (ws : List StartVal) : Prop :=
  List.Forall₂ (fun xs w => ∃ x, xs[p]? = some x ∧ w = StartVal.num (.s x)) xss ws

theorem valuesAt_of {o : Int} (ho : 0 ≤ o) {xss : List (List ℚ)} {vs ws : List StartVal} {n p : Nat}
    (h : transferList (-(1 + o)) xss vs = (ws, none)) (hl : xss.length = vs.length) (hn : ∀ xs ∈ xss, xs.length = n)
    (hp : (p : Int) = n - 1 - o) : ValuesAt p xss ws := by
  have := transferList_ok h hl
  clear h hl
  induction this with
  | nil => exact .nil
  | cons h1 _ ih =>
    rename_i xs w xss ws _
    obtain ⟨x, hx, rfl⟩ := h1
    have hxl := hn xs (by simp)
    refine .cons ⟨x, ?_, rfl⟩ (ih fun ys hy => hn ys (by simp [hy]))
    unfold resultGet at hx
    split at hx
    · cases hx
    · have hk : -(1 + o) = -((1 + o).toNat : Int) := by omega
      rw [hk, pyGetI_neg (by omega)] at hx
      have : xs.length - (1 + o).toNat = p := by omega
      rw [this] at hx
      exact hx.2

/-- The start values of segment `k+1`, for every solver, every overlap that is not negative and every point at which the run may stop:
they are the values of segment `k` at the position `length of segment k - 1 - overlap` (one more for charge states). -/
theorem C46_all {c : SegCalc} (ho : 0 ≤ c.o) {solver : SegSolver} (hs : solver.Good) {fs ss : List StartVal}
    {k : Nat} {a b : SegSub} (ha : (c.solveAll solver (SegState.start fs ss)).1.subs[k]? = some a)
    (hb : (c.solveAll solver (SegState.start fs ss)).1.subs[k + 1]? = some b) {p : Nat}
    (hp : (p : Int) = (c.indices k).length - 1 - c.o) :
    ∃ r, a.res = some r ∧ ValuesAt p r.flowRates b.flows ∧ ValuesAt (p + 1) r.charges b.stores := by
  obtain ⟨htr, -⟩ := SegCalc.solveAll_trace (c := c) (solver := solver) (fs := fs) (ss := ss)
  have hlen : k + 1 < (c.solveAll solver (SegState.start fs ss)).1.subs.length := by
    by_contra hn
    rw [List.getElem?_eq_none (by omega)] at hb
    cases hb
  obtain ⟨s1, s2⟩ := htr.sub k a ha (Nat.zero_le _)
  have hd := htr.done k a ha (Nat.zero_le _) hlen
  obtain ⟨r, hr, t1, t2⟩ := htr.link k a b ha hb (Nat.zero_le _)
  obtain ⟨r', g1, g2, g3, g4, g5⟩ := hs _ _ _ _ hd
  have : r' = r := by
    rw [← s2, hr] at g1
    cases g1; rfl
  subst this
  refine ⟨r', hr, valuesAt_of ho t1 g2 g4 (by rw [s1]; exact hp), valuesAt_of ho t2 g3 g5 (by rw [s1]; push_cast; simp only [Nat.sub_zero]; omega)⟩

/-- C46 for a segment `k` that is not cut by the end of the horizon: segment `k+1` starts with the flow rates of segment `k` at its local
step `segment_length - 1`, the last step before segment `k+1`, and with the charge states at the beginning of segment `k+1`. -/
theorem C46_partial {nTime : Nat} {js : Option (List Int)} {c : SegCalc} {L o : Int} (hi : SegCalc.init nTime js L o = .ok c) (ho : 0 ≤ o)
    {solver : SegSolver} (hs : solver.Good) {fs ss : List StartVal} {k : Nat} {a b : SegSub}
    (ha : (c.solveAll solver (SegState.start fs ss)).1.subs[k]? = some a)
    (hb : (c.solveAll solver (SegState.start fs ss)).1.subs[k + 1]? = some b)
    (hfit : ((k : Int) + 1) * L + o ≤ totalLength nTime js) :
    ∃ r j j', a.res = some r ∧ a.idx[j]? = some (((k : Int) + 1) * L - 1) ∧ a.idx.length + 1 > j' ∧ k * L + j' = ((k : Int) + 1) * L ∧
      ValuesAt j r.flowRates b.flows ∧ ValuesAt j' r.charges b.stores := by
  obtain ⟨hL, hfit0, rfl⟩ := SegCalc.init_ok.1 hi
  have hlen : ((({ L := L, o := o, total := totalLength nTime js } : SegCalc).indices k).length : Int) = L + o := by
    simp only [SegCalc.indices]
    rw [pyRange_length]
    have h2 : ((k : Int) + 1) * L = k * L + L := by ring
    omega
  have hp : ((L - 1).toNat : Int) = (({ L := L, o := o, total := totalLength nTime js } : SegCalc).indices k).length - 1 - o := by
    rw [hlen]; omega
  obtain ⟨htr, -⟩ := SegCalc.solveAll_trace (c := { L := L, o := o, total := totalLength nTime js }) (solver := solver) (fs := fs) (ss := ss)
  obtain ⟨s1, -⟩ := htr.sub k a ha (Nat.zero_le _)
  obtain ⟨r, hr, v1, v2⟩ := C46_all (c := { L := L, o := o, total := totalLength nTime js }) ho hs ha hb hp
  refine ⟨r, (L - 1).toNat, (L - 1).toNat + 1, hr, ?_, ?_, ?_, v1, v2⟩
  · rw [s1]
    simp only [SegCalc.indices, Nat.sub_zero] at hlen ⊢
    rw [pyRange_length] at hlen
    rw [pyRange_get (by omega)]
    congr 1
    have h2 : ((k : Int) + 1) * L = k * L + L := by ring
    omega
  · rw [s1]
    simp only [Nat.sub_zero]
    omega
  · have h2 : ((k : Int) + 1) * L = k * L + L := by ring
    push_cast
    omega

/-- No jump of the charge states: if the models of segment `k+1` begin with the given initial charge states (`C33_initial`), its first values are the
values of segment `k` at the same moment. -/
theorem C46_no_jump_partial {nTime : Nat} {js : Option (List Int)} {c : SegCalc} {L o : Int} (hi : SegCalc.init nTime js L o = .ok c)
    (ho : 0 ≤ o) {solver : SegSolver} (hs : solver.Good) {fs ss : List StartVal} {k : Nat} {a b : SegSub}
    (ha : (c.solveAll solver (SegState.start fs ss)).1.subs[k]? = some a)
    (hb : (c.solveAll solver (SegState.start fs ss)).1.subs[k + 1]? = some b)
    (hfit : ((k : Int) + 1) * L + o ≤ totalLength nTime js) {r' : SegRes}
    (hinit : List.Forall₂ (fun w ys => ∀ x, w = StartVal.num (.s x) → ys[0]? = some x) b.stores r'.charges) :
    ∃ r, a.res = some r ∧ List.Forall₂ (fun xs ys => ∃ x, xs[L.toNat]? = some x ∧ ys[0]? = some x) r.charges r'.charges := by
  obtain ⟨hL, -, -⟩ := SegCalc.init_ok.1 hi
  obtain ⟨r, j, j', hr, -, -, hj, -, hv⟩ := C46_partial hi ho hs ha hb hfit
  have : j' = L.toNat := by
    have h2 : ((k : Int) + 1) * L = k * L + L := by ring
    omega
  subst this
  refine ⟨r, hr, ?_⟩
  exact forall₂_chain hv hinit (List.forall₂_same.2 fun _ _ => rfl) fun xs w ys ys' ⟨x, h1, h2⟩ h3 h4 => ⟨x, h1, by rw [← h4]; exact h3 x h2⟩

/-- When the overlap is not longer than the last segment, no segment that hands over its values is cut, and C46 holds for all of them. -/
theorem C46_fits {nTime : Nat} {js : Option (List Int)} {c : SegCalc} {L o : Int} (hi : SegCalc.init nTime js L o = .ok c) (ho : 0 ≤ o)
    (hlast : ((c.nSeg : Int) - 1) * L + o ≤ totalLength nTime js) {k : Nat} (hk : k + 1 < c.nSeg) :
    ((k : Int) + 1) * L + o ≤ totalLength nTime js := by
  obtain ⟨hL, -, -⟩ := SegCalc.init_ok.1 hi
  have : ((k : Int) + 1) ≤ (c.nSeg : Int) - 1 := by omega
  nlinarith

/-- A solver for the examples: one flow and one storage, the results are the numbers of the steps in the whole horizon. -/
def stepSolver : SegSolver := fun _ idx fs ss =>
  (none, some { flowRates := fs.map fun _ => idx.map fun (t : Int) => (t : ℚ),
                charges := ss.map fun _ => idx.map (fun (t : Int) => (t : ℚ)) ++ [100] })

theorem stepSolver_good : stepSolver.Good := by
  intro i idx fs ss _
  refine ⟨_, rfl, by simp, by simp, ?_, ?_⟩
  · intro xs hx
    simp only [List.mem_map] at hx
    obtain ⟨_, _, rfl⟩ := hx
    simp
  · intro xs hx
    simp only [List.mem_map] at hx
    obtain ⟨_, _, rfl⟩ := hx
    simp

example : ∃ c, SegCalc.init 10 none 4 2 = .ok c ∧ c.nSeg = 3 ∧ ((c.nSeg : Int) - 1) * 4 + 2 ≤ totalLength 10 none ∧ stepSolver.Good ∧
    ((c.solveAll stepSolver (SegState.start [.none] [.num (.s 0)])).1.subs.map fun a => a.flows) =
      [[.none], [.num (.s 3)], [.num (.s 7)]] :=
  ⟨_, rfl, by decide +kernel, by decide +kernel, stepSolver_good, by decide +kernel⟩

/-- C46 is false when the overlap is cut by the end of the horizon: 10 steps, segment length 4, overlap 3.  The third segment, steps 8 and
9, starts with the values of step 6 instead of step 7. -/
theorem C46_wrong : ∃ c, SegCalc.init 10 none 4 3 = .ok c ∧
    (c.solveAll stepSolver (SegState.start [.none] [.num (.s 0)])).2 = none ∧
    ((c.solveAll stepSolver (SegState.start [.none] [.num (.s 0)])).1.subs.map fun a => (a.idx, a.flows, a.stores)) =
      [([0, 1, 2, 3, 4, 5, 6], [.none], [.num (.s 0)]), ([4, 5, 6, 7, 8, 9], [.num (.s 3)], [.num (.s 4)]),
       ([8, 9], [.num (.s 6)], [.num (.s 7)])] :=
  ⟨_, rfl, by decide +kernel, by decide +kernel⟩

/-- An overlap longer than that ends the run with an `IndexError`. -/
theorem C46_index_error : ∃ c, SegCalc.init 10 none 3 7 = .ok c ∧
    (c.solveAll stepSolver (SegState.start [.none] [.num (.s 0)])).2 = some .index :=
  ⟨_, rfl, by decide +kernel⟩

/-- Whenever a segment that hands over its values is cut, the start values are those of an earlier step than the right one. -/
theorem C46_cut {nTime : Nat} {js : Option (List Int)} {c : SegCalc} {L o : Int} (hi : SegCalc.init nTime js L o = .ok c) (ho : 0 ≤ o)
    {k p : Nat} (hp : (p : Int) = (c.indices k).length - 1 - o) (hcut : totalLength nTime js < ((k : Int) + 1) * L + o) :
    (p : Int) < L - 1 := by
  obtain ⟨hL, hfit0, rfl⟩ := SegCalc.init_ok.1 hi
  simp only [SegCalc.indices] at hp
  rw [pyRange_length] at hp
  have h2 : ((k : Int) + 1) * L = k * L + L := by ring
  omega

example : ∃ c, SegCalc.init 10 none 4 3 = .ok c ∧ ((2 : Nat) : Int) = (c.indices 1).length - 1 - 3 ∧
    ((totalLength 10 none : Nat) : Int) < (((1 : Nat) : Int) + 1) * 4 + 3 := ⟨_, rfl, by decide +kernel, by decide +kernel⟩

/-! ## C47: the user's start values -/

/-- C47 for a run that returns: the start values are those of the moment when the calculation was constructed, whatever the solver does
and whatever they were when the run began. -/
theorem C47_partial {c : SegCalc} {solver : SegSolver} {s : SegState} (h1 : s.origF.length = s.flows.length)
    (h2 : s.origS.length = s.stores.length) (hok : (c.solveAll solver s).2 = none) :
    (c.solveAll solver s).1.flows = s.origF ∧ (c.solveAll solver s).1.stores = s.origS := by
  unfold SegCalc.solveAll at hok ⊢
  obtain ⟨f1, f2, f3, f4⟩ := c.loop_frame (solver := solver) c.nSeg 0 s
  rcases hl : c.loop solver c.nSeg 0 s with ⟨s1, e⟩
  rw [hl] at f1 f2 f3 f4 hok
  cases e with
  | some e => simp at hok
  | none =>
    simp only at f1 f2 f3 f4 ⊢
    unfold SegState.reset
    rw [resetList_same (by rw [f1, f3, h1]), resetList_same (by rw [f2, f4, h2])]
    exact ⟨f1, f2⟩

/-- In particular, values that were not touched since the construction are unchanged. -/
theorem C47_unchanged {c : SegCalc} {solver : SegSolver} {fs ss : List StartVal}
    (hok : (c.solveAll solver (SegState.start fs ss)).2 = none) :
    (c.solveAll solver (SegState.start fs ss)).1.flows = fs ∧ (c.solveAll solver (SegState.start fs ss)).1.stores = ss :=
  C47_partial (s := SegState.start fs ss) rfl rfl hok

example : ∃ c, SegCalc.init 10 none 4 2 = .ok c ∧ (c.solveAll stepSolver (SegState.start [.none] [.text "lastValueOfSim"])).2 = none :=
  ⟨_, rfl, by decide +kernel⟩

/-- A solver whose second segment fails. -/
def failSolver : SegSolver := fun i idx fs ss => if i = 1 then (some .exception, none) else stepSolver i idx fs ss

/-- C47 is false when a segment raises: the values of the last transfer remain. -/
theorem C47_raise_wrong : ∃ c, SegCalc.init 10 none 4 2 = .ok c ∧
    (c.solveAll failSolver (SegState.start [.none] [.num (.s 0)])).2 = some .exception ∧
    (c.solveAll failSolver (SegState.start [.none] [.num (.s 0)])).1.flows = [.num (.s 3)] ∧
    (c.solveAll failSolver (SegState.start [.none] [.num (.s 0)])).1.stores = [.num (.s 4)] :=
  ⟨_, rfl, by decide +kernel, by decide +kernel, by decide +kernel⟩

/-- C47 is false for values the user sets between the construction and the run: they are replaced by the older ones. -/
theorem C47_later_wrong : ∃ c, SegCalc.init 10 none 4 2 = .ok c ∧
    (c.solveAll stepSolver { SegState.start [.none] [.num (.s 0)] with flows := [.num (.s 5)] }).2 = none ∧
    (c.solveAll stepSolver { SegState.start [.none] [.num (.s 0)] with flows := [.num (.s 5)] }).1.flows = [.none] :=
  ⟨_, rfl, by decide +kernel, by decide +kernel⟩

/-- A failing first segment leaves everything as it was. -/
theorem C47_first {c : SegCalc} {solver : SegSolver} {fs ss : List StartVal} {e : Err} (hn : c.nSeg ≠ 0)
    (he : (solver 0 (c.indices 0) fs ss).1 = some e) :
    (c.solveAll solver (SegState.start fs ss)).2 = some e ∧ (c.solveAll solver (SegState.start fs ss)).1.flows = fs ∧
      (c.solveAll solver (SegState.start fs ss)).1.stores = ss := by
  obtain ⟨m, hm⟩ := Nat.exists_eq_succ_of_ne_zero hn
  unfold SegCalc.solveAll
  rw [hm]
  simp only [SegCalc.loop, SegCalc.enter, SegState.start, if_true, SegCalc.solveSeg]
  rcases ho : solver 0 (c.indices 0) fs ss with ⟨e', r⟩
  rw [ho] at he
  simp only at he
  subst he
  exact ⟨rfl, rfl, rfl⟩

example : ∃ c, SegCalc.init 10 none 4 2 = .ok c ∧ c.nSeg ≠ 0 := ⟨_, rfl, by decide +kernel⟩

/-! ## C45: combined results -/

/-- C45 for series that every segment delivers as arrays.  `ext` is 0 for series with one value per step and 1 for series that include
the end of the segment.  The combined results contain the series at the same path; it has one value per step of the horizon (and the
end), and the value of step `t` comes from the segment `k` that owns `t` at the local position where that segment has the step `t`. -/
theorem C45_partial {nTime : Nat} {js : Option (List Int)} {L o : Int} {c : SegCalc} (hi : SegCalc.init nTime js L o = .ok c) (ho : 0 ≤ o)
    {trees : List RTree} (hu : ∀ t ∈ trees, t.Uniq) (hm : trees.length = c.nSeg) {res : RTree}
    (hr : combineArrays L.toNat trees = .ok res) (path : List String) (series : List (List ℚ)) (ext : Nat)
    (hser : List.Forall₂ (fun t xs => RTree.get t path = some (.arr xs)) trees series)
    (hlen : ∀ k < c.nSeg, (series.getD k []).length = (c.indices k).length + ext) :
    ∃ xs, res.get path = some (.arr xs) ∧ xs.length = c.total + ext ∧
      (∀ t < c.total, ∃ k j : Nat, k < c.nSeg ∧ k * L ≤ t ∧ (t : Int) < (k + 1) * L ∧ (c.indices k)[j]? = some (t : Int) ∧
        xs[t]? = (series.getD k [])[j]? ∧ j < (series.getD k []).length) ∧
      ∀ i < ext, xs[c.total + i]? = (series.getD (c.nSeg - 1) [])[(c.indices (c.nSeg - 1)).length + i]? := by
  obtain ⟨hL, hfit0, hc⟩ := SegCalc.init_ok.1 hi
  obtain ⟨h1, h2, h3, h4, h5⟩ := C44_partial hi ho
  have eL : c.L = L := by rw [hc]
  have eo : c.o = o := by rw [hc]
  have hL0 : 0 < c.L := by omega
  have hspec := c.nSeg_spec hL0
  have htot : (0 : Int) < c.total := by
    have : (c.total : Int) = totalLength nTime js := by rw [hc]
    omega
  have hn0 : c.nSeg ≠ 0 := by
    intro h0
    rw [h0] at hspec
    simp at hspec
    omega
  have hsl : series.length = c.nSeg := by rw [← hser.length_eq, hm]
  have hbig : ∀ i, i + 1 < series.length → L.toNat ≤ (series.getD i []).length := by
    intro i hi'
    rw [hlen i (by omega)]
    have := h5 i (by omega)
    omega
  -- the combination
  obtain ⟨t0, rest, rfl⟩ : ∃ t0 rest, trees = t0 :: rest := by
    cases trees with
    | nil => simp at hm; omega
    | cons t0 rest => exact ⟨t0, rest, rfl⟩
  have hres : res.get path = some (.arr (concatLimited L.toNat series)) := by
    cases hser with
    | cons q1 q2 => exact (combineArrays_arr hr (hu _ (by simp)) path _).2 ⟨_, _, q1, q2, rfl⟩
  -- the length of the last segment
  have hlast : ((c.indices (c.nSeg - 1)).length : Int) = c.total - ((c.nSeg : Int) - 1) * c.L := by
    unfold SegCalc.indices
    rw [pyRange_length]
    have e1 : ((c.nSeg - 1 : Nat) : Int) = (c.nSeg : Int) - 1 := by omega
    rw [e1]
    have h6 : ((c.nSeg : Int) - 1) * c.L + c.L = c.nSeg * c.L := by ring
    omega
  have hLn : ((L.toNat : Nat) : Int) = c.L := by omega
  have hidx : ∀ k j : Nat, (k : Int) * c.L + j < min (k * c.L + c.L + c.o) c.total → (c.indices k)[j]? = some (k * c.L + j) ∧
      j < (c.indices k).length := by
    intro k j hj
    unfold SegCalc.indices
    rw [pyRange_length]
    exact ⟨pyRange_get (by omega), by omega⟩
  refine ⟨_, hres, ?_, ?_, ?_⟩
  · rw [concatLimited_length series (by rintro rfl; simp at hsl; omega) hbig, hsl, hlen _ (by omega)]
    have : (((c.nSeg - 1) * L.toNat : Nat) : Int) = ((c.nSeg : Int) - 1) * c.L := by
      push_cast
      rw [hLn]
      congr 1
      omega
    omega
  · intro t ht
    obtain ⟨q, j, hq, hj⟩ : ∃ q j, t = q * L.toNat + j ∧ j < L.toNat :=
      ⟨t / L.toNat, t % L.toNat, by rw [Nat.mul_comm]; exact (Nat.div_add_mod t L.toNat).symm, Nat.mod_lt _ (by omega)⟩
    have hcast : (q : Int) * c.L + (j : Int) = t := by
      rw [hq]
      push_cast
      rw [hLn]
    have hk : q < c.nSeg := by
      by_contra hn
      have : (c.nSeg : Int) ≤ (q : Int) := by omega
      nlinarith
    obtain ⟨g1, g2⟩ := hidx q j (by rw [hcast]; omega)
    refine ⟨q, j, hk, ?_, ?_, ?_, ?_, ?_⟩
    · rw [← eL]; omega
    · rw [← eL]
      have : ((q : Int) + 1) * c.L = (q : Int) * c.L + c.L := by ring
      omega
    · rw [g1, hcast]
    · rw [← concatLimited_get (n := L.toNat) (by omega) series _ _ (by omega) hbig (fun _ => hj), hq]
    · rw [hlen _ hk]; omega
  · intro i hi'
    rw [← concatLimited_get (n := L.toNat) (by omega) series _ _ (by omega) hbig (fun h => by omega)]
    congr 1
    have : (((c.nSeg - 1) * L.toNat : Nat) : Int) = ((c.nSeg : Int) - 1) * c.L := by
      push_cast
      rw [hLn]
      congr 1
      omega
    omega

/-- Results of a segment for the examples: a flow rate, a charge state and a number. -/
def segResults (a b : List ℚ) (x : ℚ) : RTree :=
  .dict [("Components", .dict [("Boiler", .dict [("flow_rate", varResult a)]), ("Storage", .dict [("charge_state", varResult b)])]),
    ("Objective", .scal x)]

theorem segResults_uniq (a b : List ℚ) (x : ℚ) : (segResults a b x).Uniq := by
  have hv : ∀ xs : List ℚ, ∀ p kvs, (varResult xs).get p ≠ some (.dict kvs) := by
    intro xs p kvs h
    have : ∀ t : RTree, t.dict? = none → t.get p ≠ some (.dict kvs) := by
      intro t ht h
      cases p with
      | nil => rw [RTree.get_nil, Option.some.injEq] at h; subst h; simp [RTree.dict?] at ht
      | cons k p => simp [RTree.get, ht] at h
    refine this _ ?_ h
    unfold varResult
    split <;> rfl
  intro p kvs h
  unfold segResults at h
  cases p with
  | nil =>
    simp only [RTree.get_nil, Option.some.injEq, RTree.dict.injEq] at h
    subst h
    simp
  | cons k p =>
    obtain ⟨kvs', t', e, h1, h2⟩ := RTree.get_cons h
    cases e
    have := lookup_mem h1
    simp only [List.mem_cons, Prod.mk.injEq, List.not_mem_nil, or_false] at this
    rcases this with ⟨-, rfl⟩ | ⟨-, rfl⟩
    · cases p with
      | nil =>
        simp only [RTree.get_nil, Option.some.injEq, RTree.dict.injEq] at h2
        subst h2
        simp
      | cons k p =>
        obtain ⟨kvs', t', e, h1, h2⟩ := RTree.get_cons h2
        cases e
        have := lookup_mem h1
        simp only [List.mem_cons, Prod.mk.injEq, List.not_mem_nil, or_false] at this
        rcases this with ⟨-, rfl⟩ | ⟨-, rfl⟩
        all_goals
          cases p with
          | nil =>
            simp only [RTree.get_nil, Option.some.injEq, RTree.dict.injEq] at h2
            subst h2
            simp
          | cons k p =>
            obtain ⟨kvs', t', e, h1, h2⟩ := RTree.get_cons h2
            cases e
            have := lookup_mem h1
            simp only [List.mem_cons, Prod.mk.injEq, List.not_mem_nil, or_false] at this
            obtain ⟨-, rfl⟩ := this
            exact absurd h2 (hv _ _ _)
    · cases p with
      | nil => simp [RTree.get_nil] at h2
      | cons k p => simp [RTree.get, RTree.dict?] at h2

example : ∃ c, SegCalc.init 8 none 3 1 = .ok c ∧ c.nSeg = 3 ∧
    ∃ res, combineArrays 3 [segResults [1, 2, 3, 4] [0, 1, 2, 3, 4] 7, segResults [5, 6, 7, 8] [3, 4, 5, 6, 7] 8, segResults [9, 10] [6, 7, 8] 9] = .ok res ∧
      res.get ["Components", "Boiler", "flow_rate"] = some (.arr [1, 2, 3, 5, 6, 7, 9, 10]) ∧
      res.get ["Components", "Storage", "charge_state"] = some (.arr [0, 1, 2, 3, 4, 5, 6, 7, 8]) :=
  ⟨_, rfl, by decide +kernel, _, rfl, rfl, rfl⟩

/-- What the combined results contain: an array stands at a path exactly if every segment has an array there. -/
theorem C45_content {n : Nat} {t res : RTree} {rest : List RTree} (hr : combineArrays n (t :: rest) = .ok res) (hu : t.Uniq)
    (path : List String) : (∃ xs, res.get path = some (.arr xs)) ↔ ∀ r ∈ t :: rest, ∃ xs, r.get path = some (.arr xs) := by
  constructor
  · rintro ⟨xs, h⟩
    obtain ⟨a, as, h1, h2, -⟩ := (combineArrays_arr hr hu path xs).1 h
    intro r hr'
    rcases List.mem_cons.1 hr' with rfl | hr'
    · exact ⟨a, h1⟩
    · obtain ⟨b, -, hb⟩ := forall₂_mem_left h2 hr'
      exact ⟨b, hb⟩
  · intro h
    obtain ⟨a, ha⟩ := h t (by simp)
    have : ∃ as, List.Forall₂ (fun r b => RTree.get r path = some (.arr b)) rest as := by
      have hrest : ∀ r ∈ rest, ∃ xs, r.get path = some (.arr xs) := fun r hr' => h r (by simp [hr'])
      clear h hr
      induction rest with
      | nil => exact ⟨[], .nil⟩
      | cons r rest ih =>
        obtain ⟨b, hb⟩ := hrest r (by simp)
        obtain ⟨bs, hbs⟩ := ih (fun r' h' => hrest r' (by simp [h']))
        exact ⟨b :: bs, .cons hb hbs⟩
    obtain ⟨as, has⟩ := this
    exact ⟨_, (combineArrays_arr hr hu path _).2 ⟨a, as, ha, has, rfl⟩⟩

/-- The combination succeeds when every path of the first segment exists in the others. -/
theorem C45_total {n : Nat} {t : RTree} {rest : List RTree} (hu : t.Uniq) (h : ∀ r ∈ rest, ∀ p, (t.get p).isSome → (r.get p).isSome) :
    ∃ res, combineArrays n (t :: rest) = .ok res := combineArrays_total hu h

/-- C45 is false when the last segment has a single step: a variable with one value is stored as a scalar, and the series is missing in the
combined results, for every variable with one value per step. -/
theorem C45_single_wrong {nTime : Nat} {js : Option (List Int)} {L o : Int} {c : SegCalc} (hi : SegCalc.init nTime js L o = .ok c)
    (ho : 0 ≤ o) (hone : (c.indices (c.nSeg - 1)).length = 1) {trees : List RTree} (hu : ∀ t ∈ trees, t.Uniq) (hm : trees.length = c.nSeg)
    {res : RTree} (hr : combineArrays L.toNat trees = .ok res) (path : List String) (series : List (List ℚ))
    (hser : List.Forall₂ (fun t xs => RTree.get t path = some (varResult xs)) trees series)
    (hlen : ∀ k < c.nSeg, (series.getD k []).length = (c.indices k).length) : ¬ ∃ xs, res.get path = some (.arr xs) := by
  have hL := (SegCalc.init_ok.1 hi).1
  obtain ⟨t0, rest, rfl⟩ : ∃ t0 rest, trees = t0 :: rest := by
    cases trees with
    | nil =>
      exfalso
      simp only [List.length_nil] at hm
      obtain ⟨-, hf, hc⟩ := SegCalc.init_ok.1 hi
      have eL : c.L = L := by rw [hc]
      have et : (c.total : Int) = totalLength nTime js := by rw [hc]
      have := (c.nSeg_spec (by omega)).1
      rw [← hm] at this
      simp at this
      omega
    | cons t0 rest => exact ⟨t0, rest, rfl⟩
  rw [C45_content hr (hu _ (by simp))]
  intro hall
  have hsl := hser.length_eq
  rw [hm] at hsl
  have hpos : c.nSeg - 1 < c.nSeg := by simp only [List.length_cons] at hm; omega
  have hget : ∃ t, (t0 :: rest)[c.nSeg - 1]? = some t := ⟨_, List.getElem?_eq_getElem (by omega)⟩
  obtain ⟨t, ht⟩ := hget
  have hs : series[c.nSeg - 1]? = some (series.getD (c.nSeg - 1) []) := by
    rw [List.getD_eq_getElem?_getD, List.getElem?_eq_getElem (by omega)]
    rfl
  have hts : t.get path = some (varResult (series.getD (c.nSeg - 1) [])) := by
    have := List.forall₂_iff_get.1 hser
    have h2 := this.2 (c.nSeg - 1) (by omega) (by omega)
    rw [List.getElem?_eq_getElem (by omega), Option.some.injEq] at ht hs
    simp only [List.get_eq_getElem] at h2
    rw [ht, hs] at h2
    exact h2
  obtain ⟨xs, hx⟩ := hall t (List.mem_of_getElem? ht)
  rw [hts, Option.some.injEq] at hx
  have hl1 := hlen _ hpos
  rw [hone] at hl1
  obtain ⟨x, hx'⟩ := List.length_eq_one_iff.1 hl1
  rw [hx'] at hx
  simp [varResult] at hx

example : ∃ c, SegCalc.init 7 none 3 0 = .ok c ∧ c.nSeg = 3 ∧ (c.indices (c.nSeg - 1)).length = 1 ∧
    ∃ res, combineArrays 3 [segResults [1, 2, 3] [0, 1, 2, 3] 7, segResults [5, 6, 7] [3, 4, 5, 6] 8, segResults [9] [6, 7] 9] = .ok res ∧
      (res.get ["Components", "Boiler", "flow_rate"]).isNone = true ∧
      res.get ["Components", "Storage", "charge_state"] = some (.arr [0, 1, 2, 3, 4, 5, 6, 7]) :=
  ⟨_, rfl, by decide +kernel, by decide +kernel, _, rfl, rfl, rfl⟩

/-- C45 for variables: unless the last segment has a single step, or the series includes the end of the segment, every result of a variable
is combined. -/
theorem C45_variables_partial {nTime : Nat} {js : Option (List Int)} {L o : Int} {c : SegCalc} (hi : SegCalc.init nTime js L o = .ok c)
    (ho : 0 ≤ o) {trees : List RTree} (hu : ∀ t ∈ trees, t.Uniq) (hm : trees.length = c.nSeg) {res : RTree}
    (hr : combineArrays L.toNat trees = .ok res) (path : List String) (series : List (List ℚ)) (ext : Nat)
    (hser : List.Forall₂ (fun t xs => RTree.get t path = some (varResult xs)) trees series)
    (hlen : ∀ k < c.nSeg, (series.getD k []).length = (c.indices k).length + ext)
    (hone : (c.indices (c.nSeg - 1)).length + ext ≠ 1) :
    ∃ xs, res.get path = some (.arr xs) ∧ xs.length = c.total + ext ∧
      ∀ t < c.total, ∃ k j : Nat, k < c.nSeg ∧ k * L ≤ t ∧ (t : Int) < (k + 1) * L ∧ (c.indices k)[j]? = some (t : Int) ∧
        xs[t]? = (series.getD k [])[j]? ∧ j < (series.getD k []).length := by
  have hL := (SegCalc.init_ok.1 hi).1
  obtain ⟨-, -, -, -, h5⟩ := C44_partial hi ho
  have hsl := hser.length_eq
  have hser' : List.Forall₂ (fun t xs => RTree.get t path = some (.arr xs)) trees series := by
    rw [List.forall₂_iff_get] at hser ⊢
    refine ⟨hser.1, fun i h1 h2 => ?_⟩
    rw [hser.2 i h1 h2]
    have hk := hlen i (by omega)
    rw [List.getD_eq_getElem?_getD, List.getElem?_eq_getElem h2] at hk
    simp only [Option.getD_some] at hk
    have hne : (series.get ⟨i, h2⟩).length ≠ 1 := by
      rw [List.get_eq_getElem, hk]
      by_cases hl : i + 1 < c.nSeg
      · have := h5 i hl
        omega
      · have : i = c.nSeg - 1 := by omega
        rw [this]; exact hone
    congr 1
    generalize series.get ⟨i, h2⟩ = xs at hne
    unfold varResult
    split
    · simp at hne
    · rfl
  obtain ⟨xs, g1, g2, g3, -⟩ := C45_partial hi ho hu hm hr path series ext hser' hlen
  exact ⟨xs, g1, g2, g3⟩

/-- A second run of the same calculation: `sub_calculations` are not emptied, so the results contain both runs one after the other, and the
first segment of the second run starts with values handed over from the last segment of the first. -/
theorem C45_second_run_wrong : ∃ c, SegCalc.init 9 none 3 0 = .ok c ∧
    (c.solveAll stepSolver (c.solveAll stepSolver (SegState.start [.none] [.num (.s 0)])).1).2 = none ∧
    ((c.solveAll stepSolver (c.solveAll stepSolver (SegState.start [.none] [.num (.s 0)])).1).1.subs.map fun a => (a.idx, a.flows)) =
      [([0, 1, 2], [.none]), ([3, 4, 5], [.num (.s 2)]), ([6, 7, 8], [.num (.s 5)]),
       ([0, 1, 2], [.num (.s 8)]), ([3, 4, 5], [.num (.s 2)]), ([6, 7, 8], [.num (.s 5)])] :=
  ⟨_, rfl, by decide +kernel, by decide +kernel⟩

end Flix
