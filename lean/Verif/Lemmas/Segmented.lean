import Verif.Model.Segmented
import Verif.Lemmas.Time
import Mathlib.Tactic.Linarith

/-!
# Segments: index arithmetic, the loop, the combination of results
-/

namespace Flix

theorem mem_pyRange {a b t : Int} : t ∈ pyRange a b ↔ a ≤ t ∧ t < b := by
  unfold pyRange
  simp only [List.mem_map, List.mem_range]
  constructor
  · rintro ⟨k, hk, rfl⟩; omega
  · rintro ⟨h1, h2⟩; exact ⟨(t - a).toNat, by omega, by omega⟩

theorem pyRange_length (a b : Int) : (pyRange a b).length = (b - a).toNat := by simp [pyRange]

theorem pyRange_get {a b : Int} {k : Nat} (h : k < (b - a).toNat) : (pyRange a b)[k]? = some (a + k) := by
  simp [pyRange, h]

/-- The two assertions of the constructor. -/
structure SegCalc.Ok (c : SegCalc) : Prop where
  hL : 2 < c.L
  hfit : c.L + c.o ≤ c.total

theorem SegCalc.init_ok {nTime : Nat} {js : Option (List Int)} {L o : Int} {c : SegCalc} :
    SegCalc.init nTime js L o = .ok c ↔
      2 < L ∧ L + o ≤ totalLength nTime js ∧ c = { L := L, o := o, total := totalLength nTime js } := by
  unfold SegCalc.init
  split
  · rename_i h
    constructor
    · intro h'; cases h'
    · rintro ⟨h1, -⟩; omega
  · split
    · constructor
      · intro h'; cases h'
      · rintro ⟨h1, -⟩; omega
    · split
      · constructor
        · intro h'; cases h'
        · rintro ⟨-, h1, -⟩; omega
      · rename_i h1 h2 h3
        simp only [Except.ok.injEq]
        constructor
        · rintro rfl; exact ⟨by omega, by omega, rfl⟩
        · rintro ⟨-, -, rfl⟩; rfl

theorem SegCalc.nSeg_spec {c : SegCalc} (hL : 0 < c.L) : (c.total : Int) ≤ c.nSeg * c.L ∧ c.nSeg * c.L < c.total + c.L := by
  have h1 : (-(c.total : Int)) / c.L * c.L ≤ -(c.total : Int) := Int.ediv_mul_le _ (by omega)
  have h2 : -(c.total : Int) < (-(c.total : Int)) / c.L * c.L + c.L := Int.lt_ediv_add_one_mul_self (-(c.total : Int)) hL |>.trans_eq (by ring)
  have h3 : (-(c.total : Int)) / c.L ≤ 0 := by
    by_contra hn
    have : 1 ≤ (-(c.total : Int)) / c.L := by omega
    nlinarith
  have h4 : (c.nSeg : Int) = -((-(c.total : Int)) / c.L) := by
    unfold SegCalc.nSeg
    omega
  rw [h4]
  constructor <;> nlinarith

/-- The segment that is not the last one is followed by at least one more step. -/
theorem SegCalc.not_last {c : SegCalc} (hL : 0 < c.L) {k : Nat} (hk : k + 1 < c.nSeg) : ((k : Int) + 1) * c.L < c.total := by
  have := (c.nSeg_spec hL).2
  have h2 : ((k : Int) + 2) * c.L ≤ c.nSeg * c.L := by
    have : ((k : Int) + 2) ≤ c.nSeg := by omega
    nlinarith
  nlinarith

theorem SegCalc.starts_inside {c : SegCalc} (hL : 0 < c.L) {k : Nat} (hk : k < c.nSeg) : (k : Int) * c.L < c.total := by
  have := (c.nSeg_spec hL).2
  have h2 : ((k : Int) + 1) * c.L ≤ c.nSeg * c.L := by
    have : ((k : Int) + 1) ≤ c.nSeg := by omega
    nlinarith
  nlinarith

/-! ## The loop -/

theorem transferList_ok {pos : Int} : ∀ {xss : List (List ℚ)} {vs ws : List StartVal}, transferList pos xss vs = (ws, none) →
    xss.length = vs.length → List.Forall₂ (fun xs w => ∃ x, resultGet xs pos = .ok x ∧ w = StartVal.num (.s x)) xss ws := by
  intro xss
  induction xss with
  | nil =>
    intro vs ws h hl
    cases vs with
    | nil => simp only [transferList, Prod.mk.injEq] at h; rw [← h.1]; exact .nil
    | cons v vs => simp at hl
  | cons xs xss ih =>
    intro vs ws h hl
    cases vs with
    | nil => simp at hl
    | cons v vs =>
      simp only [transferList] at h
      cases hr : resultGet xs pos with
      | error e => simp [hr] at h
      | ok x =>
        simp only [hr, Prod.mk.injEq] at h
        rw [← h.1]
        exact .cons ⟨x, hr, rfl⟩ (ih (by rw [← h.2]) (by simpa using hl))

theorem transferList_length {pos : Int} : ∀ (xss : List (List ℚ)) (vs : List StartVal), (transferList pos xss vs).1.length = vs.length := by
  intro xss
  induction xss with
  | nil => intro vs; simp [transferList]
  | cons xs xss ih =>
    intro vs
    cases vs with
    | nil => simp [transferList]
    | cons v vs =>
      simp only [transferList]
      cases resultGet xs pos with
      | error e => rfl
      | ok x => simp [ih vs]

/-- Two neighbouring segments: the second was built with the values transferred from the first. -/
def SegCalc.Link (c : SegCalc) (a b : SegSub) : Prop :=
  ∃ r, a.res = some r ∧ transferList (-(1 + c.o)) r.flowRates a.flows = (b.flows, none) ∧
    transferList (-(1 + c.o)) r.charges a.stores = (b.stores, none)

/-- Segments from number `i`: indices, results and links. -/
structure SegCalc.Trace (c : SegCalc) (solver : SegSolver) (i : Nat) (subs : List SegSub) : Prop where
  sub : ∀ (k : Nat) (a : SegSub), subs[k]? = some a → i ≤ k → a.idx = c.indices (k - i) ∧ a.res = (solver (k - i) a.idx a.flows a.stores).2
  done : ∀ (k : Nat) (a : SegSub), subs[k]? = some a → i ≤ k → k + 1 < subs.length → (solver (k - i) a.idx a.flows a.stores).1 = none
  link : ∀ (k : Nat) (a b : SegSub), subs[k]? = some a → subs[k + 1]? = some b → i ≤ k + 1 → c.Link a b

/-- The state between two segments. -/
structure SegCalc.Between (c : SegCalc) (solver : SegSolver) (i : Nat) (s : SegState) : Prop where
  trace : c.Trace solver i s.subs
  last : ∀ a, s.subs.getLast? = some a → a.flows = s.flows ∧ a.stores = s.stores ∧ a.res = s.model
  fin : ∀ a, s.subs.getLast? = some a → i < s.subs.length → (solver (s.subs.length - 1 - i) a.idx a.flows a.stores).1 = none

theorem SegCalc.enter_ok {c : SegCalc} {i : Nat} {s s' : SegState} (h : c.enter i s = (s', none)) :
    s'.subs = s.subs ∧ s'.origF = s.origF ∧ s'.origS = s.origS ∧ s'.model = s.model ∧ s'.flows.length = s.flows.length ∧
      s'.stores.length = s.stores.length ∧
      ((s.subs = [] ∧ s' = s) ∨ ∃ r, s.model = some r ∧ transferList (-(1 + c.o)) r.flowRates s.flows = (s'.flows, none) ∧
        transferList (-(1 + c.o)) r.charges s.stores = (s'.stores, none)) := by
  unfold SegCalc.enter at h
  split at h
  · rename_i he
    simp only [Prod.mk.injEq, and_true] at h
    subst h
    exact ⟨rfl, rfl, rfl, rfl, rfl, rfl, .inl ⟨he, rfl⟩⟩
  · unfold SegCalc.transfer SegCalc.transferValues at h
    cases hm : s.model with
    | none => simp [hm] at h
    | some r =>
      simp only [hm] at h
      rcases ht : transferList (-(1 + c.o)) r.flowRates s.flows with ⟨fs, e⟩
      have hl := transferList_length (pos := -(1 + c.o)) r.flowRates s.flows
      have hl2 := transferList_length (pos := -(1 + c.o)) r.charges s.stores
      cases e with
      | some e => simp only [ht, Prod.mk.injEq, reduceCtorEq, and_false] at h
      | none =>
        rw [ht] at hl
        rcases ht2 : transferList (-(1 + c.o)) r.charges s.stores with ⟨ss, e⟩
        rw [ht2] at hl2
        cases e with
        | some e => simp only [ht, ht2, Prod.mk.injEq, reduceCtorEq, and_false] at h
        | none =>
        simp only [ht, ht2, Prod.mk.injEq, and_true] at h
        subst h
        exact ⟨rfl, rfl, rfl, hm.symm ▸ rfl, hl, hl2, .inr ⟨r, rfl, ht, ht2⟩⟩

theorem SegCalc.enter_frame {c : SegCalc} (i : Nat) (s : SegState) :
    (c.enter i s).1.subs = s.subs ∧ (c.enter i s).1.origF = s.origF ∧ (c.enter i s).1.origS = s.origS ∧
      (c.enter i s).1.flows.length = s.flows.length ∧ (c.enter i s).1.stores.length = s.stores.length := by
  unfold SegCalc.enter
  split
  · exact ⟨rfl, rfl, rfl, rfl, rfl⟩
  · unfold SegCalc.transfer SegCalc.transferValues
    cases hm : s.model with
    | none => exact ⟨rfl, rfl, rfl, rfl, rfl⟩
    | some r =>
      have hl := transferList_length (pos := -(1 + c.o)) r.flowRates s.flows
      have hl2 := transferList_length (pos := -(1 + c.o)) r.charges s.stores
      simp only
      rcases ht : transferList (-(1 + c.o)) r.flowRates s.flows with ⟨fs, e⟩
      rw [ht] at hl
      cases e with
      | some e => exact ⟨rfl, rfl, rfl, hl, rfl⟩
      | none =>
        rcases ht2 : transferList (-(1 + c.o)) r.charges s.stores with ⟨ss, e⟩
        rw [ht2] at hl2
        cases e with
        | some e => exact ⟨rfl, rfl, rfl, hl, hl2⟩
        | none => exact ⟨rfl, rfl, rfl, hl, hl2⟩

theorem getLast?_eq_get {α} (xs : List α) : xs.getLast? = xs[xs.length - 1]? := List.getLast?_eq_getElem?

theorem getElem?_concat_cases {α} {xs : List α} {x y : α} {k : Nat} (h : (xs ++ [x])[k]? = some y) :
    (k < xs.length ∧ xs[k]? = some y) ∨ (k = xs.length ∧ y = x) := by
  by_cases hk : k < xs.length
  · rw [List.getElem?_append_left hk] at h
    exact .inl ⟨hk, h⟩
  · rw [List.getElem?_append_right (by omega)] at h
    cases hj : k - xs.length with
    | zero =>
      simp only [hj, List.getElem?_cons_zero, Option.some.injEq] at h
      exact .inr ⟨by omega, h.symm⟩
    | succ j => simp [hj] at h

/-- Solving the next segment keeps the trace, and the state between two segments if it does not raise. -/
theorem SegCalc.solveSeg_spec {c : SegCalc} {solver : SegSolver} {i j : Nat} {s s1 : SegState} (hb : c.Between solver i s)
    (hi : i ≤ s.subs.length) (he : c.enter j s = (s1, none)) :
    c.Trace solver i (c.solveSeg solver (s.subs.length - i) s1).1.subs ∧
      ((c.solveSeg solver (s.subs.length - i) s1).2 = none → c.Between solver i (c.solveSeg solver (s.subs.length - i) s1).1) := by
  obtain ⟨e1, e2, e3, e4, -, -, e5⟩ := SegCalc.enter_ok he
  have htr : c.Trace solver i (c.solveSeg solver (s.subs.length - i) s1).1.subs := by
    simp only [SegCalc.solveSeg, e1]
    refine ⟨?_, ?_, ?_⟩
    · intro k a ha hik
      rcases getElem?_concat_cases ha with ⟨-, ha⟩ | ⟨rfl, rfl⟩
      · exact hb.trace.sub k a ha hik
      · exact ⟨rfl, rfl⟩
    · intro k a ha hik hlt
      rcases getElem?_concat_cases ha with ⟨hk, ha⟩ | ⟨rfl, rfl⟩
      · by_cases hlast : k + 1 < s.subs.length
        · exact hb.trace.done k a ha hik hlast
        · have hk' : k = s.subs.length - 1 := by omega
          have := hb.fin a (by rw [getLast?_eq_get, ← hk']; exact ha) (by omega)
          rw [← hk'] at this
          exact this
      · simp at hlt
    · intro k a b ha hb' hik
      rcases getElem?_concat_cases hb' with ⟨hk, hb'⟩ | ⟨hk, rfl⟩
      · rw [List.getElem?_append_left (by omega)] at ha
        exact hb.trace.link k a b ha hb' hik
      · rw [List.getElem?_append_left (by omega)] at ha
        obtain ⟨l1, l2, l3⟩ := hb.last a (by rw [getLast?_eq_get, ← hk, Nat.add_sub_cancel]; exact ha)
        rcases e5 with ⟨hnil, -⟩ | ⟨r, hr, t1, t2⟩
        · rw [hnil] at hk; simp at hk
        · exact ⟨r, l3.trans hr, by rw [l1]; exact t1, by rw [l2]; exact t2⟩
  refine ⟨htr, fun hnone => ⟨htr, ?_, ?_⟩⟩
  · intro a ha
    simp only [SegCalc.solveSeg, List.getLast?_concat, Option.some.injEq] at ha
    subst ha
    exact ⟨rfl, rfl, rfl⟩
  · intro a ha _
    simp only [SegCalc.solveSeg] at hnone
    simp only [SegCalc.solveSeg, List.getLast?_concat, Option.some.injEq] at ha
    subst ha
    simp only [SegCalc.solveSeg, e1, List.length_append, List.length_cons, List.length_nil, Nat.add_sub_cancel]
    exact hnone

theorem SegCalc.loop_spec {c : SegCalc} {solver : SegSolver} {i : Nat} (m : Nat) : ∀ {s : SegState}, c.Between solver i s →
    i ≤ s.subs.length → c.Trace solver i (c.loop solver m (s.subs.length - i) s).1.subs ∧
      ((c.loop solver m (s.subs.length - i) s).2 = none →
        c.Between solver i (c.loop solver m (s.subs.length - i) s).1 ∧
        (c.loop solver m (s.subs.length - i) s).1.subs.length = s.subs.length + m) := by
  induction m with
  | zero => intro s hb _; exact ⟨hb.trace, fun _ => ⟨hb, rfl⟩⟩
  | succ m ih =>
    intro s hb hi
    unfold SegCalc.loop
    rcases he : c.enter (s.subs.length - i) s with ⟨s1, e⟩
    cases e with
    | some e =>
      refine ⟨?_, by simp⟩
      have := (c.enter_frame (s.subs.length - i) s).1
      rw [he] at this
      simp only at this ⊢
      rw [this]
      exact hb.trace
    | none =>
      obtain ⟨h1, h2⟩ := SegCalc.solveSeg_spec hb hi he
      simp only
      have hlen : (c.solveSeg solver (s.subs.length - i) s1).1.subs.length = s.subs.length + 1 := by
        have := (SegCalc.enter_ok he).1
        simp [SegCalc.solveSeg, this]
      rcases hs : c.solveSeg solver (s.subs.length - i) s1 with ⟨s2, e⟩
      rw [hs] at h1 h2 hlen
      cases e with
      | some e => exact ⟨h1, by simp⟩
      | none =>
        simp only at h1 h2 hlen ⊢
        have := ih (h2 trivial) (by omega)
        rw [hlen, show s.subs.length + 1 - i = s.subs.length - i + 1 by omega] at this
        refine ⟨this.1, fun hn => ⟨(this.2 hn).1, ?_⟩⟩
        rw [(this.2 hn).2]
        omega

theorem SegCalc.loop_frame {c : SegCalc} {solver : SegSolver} (m : Nat) : ∀ (i : Nat) (s : SegState),
    (c.loop solver m i s).1.origF = s.origF ∧ (c.loop solver m i s).1.origS = s.origS ∧
      (c.loop solver m i s).1.flows.length = s.flows.length ∧ (c.loop solver m i s).1.stores.length = s.stores.length := by
  induction m with
  | zero => intro i s; exact ⟨rfl, rfl, rfl, rfl⟩
  | succ m ih =>
    intro i s
    unfold SegCalc.loop
    obtain ⟨-, f1, f2, f3, f4⟩ := c.enter_frame i s
    rcases he : c.enter i s with ⟨s1, e⟩
    rw [he] at f1 f2 f3 f4
    cases e with
    | some e => exact ⟨f1, f2, f3, f4⟩
    | none =>
      simp only at f1 f2 f3 f4 ⊢
      have g : (c.solveSeg solver i s1).1.origF = s.origF ∧ (c.solveSeg solver i s1).1.origS = s.origS ∧
          (c.solveSeg solver i s1).1.flows.length = s.flows.length ∧ (c.solveSeg solver i s1).1.stores.length = s.stores.length :=
        ⟨f1, f2, f3, f4⟩
      rcases hs : c.solveSeg solver i s1 with ⟨s2, e⟩
      rw [hs] at g
      cases e with
      | some e => exact g
      | none =>
        simp only at g ⊢
        obtain ⟨h1, h2, h3, h4⟩ := ih (i + 1) s2
        exact ⟨h1.trans g.1, h2.trans g.2.1, h3.trans g.2.2.1, h4.trans g.2.2.2⟩

theorem resetList_ok : ∀ {os vs ws : List StartVal}, resetList os vs = (ws, none) → os.length = vs.length → ws = os := by
  intro os
  induction os with
  | nil =>
    intro vs ws h hl
    cases vs with
    | nil => simp only [resetList, Prod.mk.injEq] at h; exact h.1.symm
    | cons v vs => simp at hl
  | cons o os ih =>
    intro vs ws h hl
    cases vs with
    | nil => simp at hl
    | cons v vs =>
      simp only [resetList, Prod.mk.injEq] at h
      rw [← h.1, ih (ws := (resetList os vs).1) (by rw [← h.2]) (by simpa using hl)]

theorem resetList_same : ∀ {os vs : List StartVal}, os.length = vs.length → resetList os vs = (os, none) := by
  intro os
  induction os with
  | nil => intro vs hl; cases vs with
    | nil => rfl
    | cons v vs => simp at hl
  | cons o os ih => intro vs hl; cases vs with
    | nil => simp at hl
    | cons v vs => simp [resetList, ih (vs := vs) (by simpa using hl)]

theorem SegState.reset_subs (s : SegState) : s.reset.1.subs = s.subs := by
  unfold SegState.reset
  rcases resetList s.origF s.flows with ⟨fs, e⟩
  cases e <;> rfl

theorem SegCalc.between_start (c : SegCalc) (solver : SegSolver) (fs ss : List StartVal) :
    c.Between solver 0 (SegState.start fs ss) :=
  ⟨⟨by intro k a h; simp [SegState.start] at h, by intro k a h; simp [SegState.start] at h,
    by intro k a b h; simp [SegState.start] at h⟩, by intro a h; simp [SegState.start] at h, by intro a h; simp [SegState.start] at h⟩

/-- The trace of a whole run. -/
theorem SegCalc.solveAll_trace {c : SegCalc} {solver : SegSolver} {fs ss : List StartVal} :
    c.Trace solver 0 (c.solveAll solver (SegState.start fs ss)).1.subs ∧
      ((c.solveAll solver (SegState.start fs ss)).2 = none → (c.solveAll solver (SegState.start fs ss)).1.subs.length = c.nSeg) := by
  have h := c.loop_spec c.nSeg (c.between_start solver fs ss) (Nat.zero_le _)
  simp only [SegState.start, List.length_nil, Nat.sub_zero, Nat.zero_add] at h
  unfold SegCalc.solveAll
  simp only [SegState.start]
  rcases hl : c.loop solver c.nSeg 0 { flows := fs, stores := ss, origF := fs, origS := ss } with ⟨s1, e⟩
  rw [hl] at h
  cases e with
  | some e => exact ⟨h.1, by simp⟩
  | none =>
    simp only at h ⊢
    rw [s1.reset_subs]
    exact ⟨h.1, fun _ => (h.2 trivial).2⟩

end Flix
