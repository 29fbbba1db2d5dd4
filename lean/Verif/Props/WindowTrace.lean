import Verif.Lemmas.Readable
import Verif.Props.Window
import Verif.Props.Segmented

/-! # C87: from the run of a segmented calculation to a solution of the whole horizon -/

namespace Flix

variable {sys : Sys} {s : System} {o : SysOut} {L m : Nat} {len : Nat → Nat}

/-! ## What the combined results cost -/

theorem penaltyCost_congr {b : BusData} {σ τ : Assignment} (h : b.excessPenalty ≠ none → ∀ t < sys.n,
    σ (b.label ++ "_" ++ "excess_input") t = τ (b.label ++ "_" ++ "excess_input") t ∧
      σ (b.label ++ "_" ++ "excess_output") t = τ (b.label ++ "_" ++ "excess_output") t) : b.penaltyCost sys σ = b.penaltyCost sys τ := by
  unfold BusData.penaltyCost
  cases hb : b.excessPenalty with
  | none => rfl
  | some pen =>
    refine Finset.sum_congr rfl fun t ht => ?_
    obtain ⟨h1, h2⟩ := h (by simp [hb]) t (Finset.mem_range.1 ht)
    rw [h1, h2]

/-- **C87, costs.**  The combined results are part of a solution of the whole horizon, and the objective of that solution is the sum of the costs of
the steps that were kept, so the optimum of the whole horizon is not worse.  Where starts cost something, the states have to be readable. -/
theorem C87_cost_starts_partial (hv : sys.Valid) (hpd : sys.prevDt.Nonneg) (hn : sys.n ≠ 0) (hf : s.Fits sys.n) (hp : ∀ c ∈ s.comps, c.Proper sys) (hl : s.Uncoupled)
    (h : systemModel sys s = .ok o) (hc : Cover sys.n L m len) {σ : Nat → Assignment} {st : Nat → SegStart} (hh : ∀ c ∈ s.comps, c.Handed L m σ st)
    (hcl : ∀ c ∈ s.comps, c.Clear sys.cfg.eps L m σ)
    (hs : ∀ k < m, ∃ ok, systemModel (sys.window (k * L) (len k)) (s.window (k * L) (len k) (st k)) = .ok ok ∧ ok.solver.Solves (σ k)) :
    ∃ terms e τ, objectiveTerms o.solver.objective = .ok terms ∧ s.effects.find? (·.isObjective) = some e ∧ o.solver.Solves τ ∧
      (∀ c ∈ s.comps, c.Takes sys.n L m σ τ) ∧
      termsVal τ terms = ∑ t ∈ Finset.range sys.n, σ (t / L) (opTSL e.label) (t % L) + σ 0 (invSumL e.label) 0 +
        (s.buses.map fun b => b.penaltyCost sys fun l t => σ (t / L) l (t % L)).sum ∧
      ∀ τ', (o.solver.Solves τ' ∧ ∀ τ'', o.solver.Solves τ'' → termsVal τ' terms ≤ termsVal τ'' terms) →
        termsVal τ' terms ≤ ∑ t ∈ Finset.range sys.n, σ (t / L) (opTSL e.label) (t % L) + σ 0 (invSumL e.label) 0 +
          (s.buses.map fun b => b.penaltyCost sys fun l t => σ (t / L) l (t % L)).sum := by
  obtain ⟨τ, t1, t2, t3, t4⟩ := C87_starts_partial hv hpd hn hf hp hl h hc hh hcl hs
  obtain ⟨terms, e, h1, h2, h3⟩ := solution_cost hv hn hf h
  have hem : e ∈ s.effects := List.mem_of_find?_eq_some h2
  have key : termsVal τ terms = ∑ t ∈ Finset.range sys.n, σ (t / L) (opTSL e.label) (t % L) + σ 0 (invSumL e.label) 0 +
        (s.buses.map fun b => b.penaltyCost sys fun l t => σ (t / L) l (t % L)).sum := by
    rw [h3 τ t1]
    unfold System.cost
    congr 1
    · congr 1
      · exact Finset.sum_congr rfl fun t ht => (t4 e hem).1 t (Finset.mem_range.1 ht)
      · exact (t4 e hem).2
    · exact congrArg List.sum (List.map_congr_left fun b hb => penaltyCost_congr (t3 b hb))
  exact ⟨terms, e, τ, h1, h2, t1, fun c hc => (t2 c hc).1, key, fun τ' h' => key ▸ h'.2 τ t1⟩

/-- **C87, costs, without costs of starts.**  The combined results are part of a solution of the whole horizon, and the objective of that solution is the sum of the costs of
the steps that were kept, so the optimum of the whole horizon is not worse. -/
theorem C87_cost_partial (hv : sys.Valid) (hpd : sys.prevDt.Nonneg) (hn : sys.n ≠ 0) (hf : s.Fits sys.n) (hp : ∀ c ∈ s.comps, c.Proper sys) (hl : s.Local)
    (h : systemModel sys s = .ok o) (hc : Cover sys.n L m len) {σ : Nat → Assignment} {st : Nat → SegStart} (hh : ∀ c ∈ s.comps, c.Handed L m σ st)
    (hs : ∀ k < m, ∃ ok, systemModel (sys.window (k * L) (len k)) (s.window (k * L) (len k) (st k)) = .ok ok ∧ ok.solver.Solves (σ k)) :
    ∃ terms e τ, objectiveTerms o.solver.objective = .ok terms ∧ s.effects.find? (·.isObjective) = some e ∧ o.solver.Solves τ ∧
      (∀ c ∈ s.comps, c.Takes sys.n L m σ τ) ∧
      termsVal τ terms = ∑ t ∈ Finset.range sys.n, σ (t / L) (opTSL e.label) (t % L) + σ 0 (invSumL e.label) 0 +
        (s.buses.map fun b => b.penaltyCost sys fun l t => σ (t / L) l (t % L)).sum ∧
      ∀ τ', (o.solver.Solves τ' ∧ ∀ τ'', o.solver.Solves τ'' → termsVal τ' terms ≤ termsVal τ'' terms) →
        termsVal τ' terms ≤ ∑ t ∈ Finset.range sys.n, σ (t / L) (opTSL e.label) (t % L) + σ 0 (invSumL e.label) 0 +
          (s.buses.map fun b => b.penaltyCost sys fun l t => σ (t / L) l (t % L)).sum :=
  C87_cost_starts_partial hv hpd hn hf hp hl.uncoupled h hc hh (hl.starts.clear _ σ) hs

/-! ## The segments of a calculation cover the horizon -/

theorem cover_segments {N : Nat} {Li oi : Int} {c : SegCalc} (hi : SegCalc.init N none Li oi = .ok c) (ho : 0 ≤ oi) :
    Cover N Li.toNat c.nSeg (fun k => (c.indices k).length) ∧ ∀ k < c.nSeg, c.indices k = pyRange ((k * Li.toNat : Nat) : Int) ((k * Li.toNat + (c.indices k).length : Nat) : Int) := by
  obtain ⟨hL, hfit, rfl⟩ := SegCalc.init_ok.1 hi
  have e3 : totalLength N none = N := rfl
  rw [e3] at hfit ⊢
  generalize hc : ({ L := Li, o := oi, total := N } : SegCalc) = c
  have e1 : c.L = Li := by rw [← hc]
  have e2 : c.o = oi := by rw [← hc]
  have e4 : c.total = N := by rw [← hc]
  have hL0 : 0 < c.L := by omega
  obtain ⟨n1, n2⟩ := c.nSeg_spec hL0
  have hLn : ((Li.toNat : Nat) : Int) = Li := by omega
  have hlen : ∀ k, ((c.indices k).length : Int) = max 0 (min (k * Li + Li + oi) N - k * Li) := by
    intro k
    unfold SegCalc.indices
    rw [pyRange_length, e1, e2, e4]
    omega
  have cast : ∀ k : Nat, ((k * Li.toNat : Nat) : Int) = k * Li := fun k => by push_cast; rw [hLn]
  have inside : ∀ k < c.nSeg, (k : Int) * Li < N := fun k hk => by
    have := c.starts_inside hL0 hk
    rwa [e1, e4] at this
  rw [e1, e4] at n1 n2
  have hm : 0 < c.nSeg := by
    by_contra h0
    have : c.nSeg = 0 := by omega
    rw [this] at n1
    simp at n1
    omega
  refine ⟨⟨by omega, ?_, hm, ?_, ?_, ?_, ?_⟩, ?_⟩
  · have := cast c.nSeg; omega
  · intro k hk; have := cast k; have := hlen k; have := inside k hk; omega
  · intro k hk
    have := hlen k
    have h1 := inside (k + 1) hk
    have h2 : ((k + 1 : Nat) : Int) * Li = k * Li + Li := by push_cast; ring
    omega
  · intro k hk
    have := cast k; have := hlen k; have := inside k (by omega)
    have h2 : (c.nSeg : Int) * Li = k * Li + Li := by rw [← hk]; push_cast; ring
    omega
  · intro k hk; have := hlen k; have := inside k hk; omega
  · intro k hk
    have h1 := cast k; have h2 := hlen k; have h3 := inside k hk
    unfold SegCalc.indices at h2 ⊢
    rw [e1, e2, e4] at h2 ⊢
    push_cast at h1 h2 ⊢
    congr 1
    · omega
    · omega

/-- The arrays put together (calculation.py:584-593) have the value of step `t` from the segment that owns it. -/
theorem Cover.concat {N : Nat} (hc : Cover N L m len) (g : Nat → Nat → ℚ) (ext : Nat) :
    concatLimited L ((List.range m).map fun k => (List.range (len k + ext)).map (g k)) =
      (List.range (N + ext)).map fun t => g (contentOwner L m t) (t - contentOwner L m t * L) := by
  have hlen : ((List.range m).map fun k => (List.range (len k + ext)).map (g k)).length = m := by simp
  have hget : ∀ k < m, ((List.range m).map fun k => (List.range (len k + ext)).map (g k)).getD k [] = (List.range (len k + ext)).map (g k) := by
    intro k hk
    simp [List.getD_eq_getElem?_getD, hk]
  have hbig : ∀ i, i + 1 < ((List.range m).map fun k => (List.range (len k + ext)).map (g k)).length →
      L ≤ (((List.range m).map fun k => (List.range (len k + ext)).map (g k)).getD i []).length := by
    intro i hi
    rw [hlen] at hi
    rw [hget i (by omega)]
    have := hc.whole i hi
    simp
    omega
  have hm := hc.some
  have hlast := hc.last (m - 1) (by omega)
  apply List.ext_getElem?
  intro t
  by_cases ht : t < N + ext
  · have hle : contentOwner L m t * L ≤ t := by
      have h1 : contentOwner L m t ≤ t / L := Nat.min_le_left _ _
      calc contentOwner L m t * L ≤ t / L * L := Nat.mul_le_mul_right _ h1
        _ ≤ t := Nat.div_mul_le_self _ _
    have hk : contentOwner L m t < m := by unfold contentOwner; omega
    have hj : contentOwner L m t + 1 < m → t - contentOwner L m t * L < L := by
      intro h1
      have : contentOwner L m t = t / L := by unfold contentOwner at h1 ⊢; omega
      rw [this]
      have := Nat.div_add_mod' t L
      have := Nat.mod_lt t hc.pos
      omega
    have hin : t - contentOwner L m t * L < len (contentOwner L m t) + ext := by
      by_cases h1 : contentOwner L m t + 1 < m
      · have := hj h1; have := hc.whole _ h1; omega
      · have : contentOwner L m t = m - 1 := by omega
        rw [this] at hle ⊢
        omega
    have := concatLimited_get hc.pos _ (contentOwner L m t) (t - contentOwner L m t * L) (by rw [hlen]; exact hk) hbig (by rw [hlen]; exact hj)
    rw [show contentOwner L m t * L + (t - contentOwner L m t * L) = t by omega, hget _ hk] at this
    rw [this]
    simp [ht, hin]
  · rw [List.getElem?_eq_none, List.getElem?_eq_none]
    · simp; omega
    · rw [concatLimited_length _ (by intro h0; rw [h0] at hlen; simp at hlen; omega) hbig, hlen, hget _ (by omega)]
      simp
      omega

/-! ## A successful run -/

/-- All segments of a successful run are solved, and the first one starts with the user's values. -/
theorem solveAll_done {c : SegCalc} {solver : SegSolver} {fs ss : List StartVal} (h : (c.solveAll solver (SegState.start fs ss)).2 = none) :
    (∀ k a, (c.solveAll solver (SegState.start fs ss)).1.subs[k]? = some a → (solver k a.idx a.flows a.stores).1 = none) ∧
    ∀ a, (c.solveAll solver (SegState.start fs ss)).1.subs[0]? = some a → a.flows = fs ∧ a.stores = ss := by
  have h2 := c.loop_spec c.nSeg (c.between_start solver fs ss) (Nat.zero_le _)
  have first : ∀ (m i : Nat) (st : SegState) (a : SegSub), st.subs[0]? = some a → (c.loop solver m i st).1.subs[0]? = some a := by
    intro m
    induction m with
    | zero => intro i st a ha; exact ha
    | succ m ih =>
      intro i st a ha
      unfold SegCalc.loop
      have hf := (c.enter_frame i st).1
      rcases he : c.enter i st with ⟨s1, e⟩
      rw [he] at hf
      simp only at hf
      cases e with
      | some e => simp only; rw [hf]; exact ha
      | none =>
        simp only
        have h3 : (c.solveSeg solver i s1).1.subs[0]? = some a := by
          simp only [SegCalc.solveSeg]
          rw [hf, List.getElem?_append_left (List.getElem?_eq_some_iff.1 ha).1]
          exact ha
        rcases hq : c.solveSeg solver i s1 with ⟨s2, e2⟩
        rw [hq] at h3
        cases e2 with
        | some e2 => exact h3
        | none => exact ih _ _ _ h3
  have first' : ∀ m (a : SegSub), (c.loop solver m 0 (SegState.start fs ss)).1.subs[0]? = some a → a.flows = fs ∧ a.stores = ss := by
    intro m
    cases m with
    | zero => intro a ha; simp [SegCalc.loop, SegState.start] at ha
    | succ m =>
      intro a ha
      unfold SegCalc.loop at ha
      have he : c.enter 0 (SegState.start fs ss) = (SegState.start fs ss, none) := by simp [SegCalc.enter, SegState.start]
      rw [he] at ha
      simp only at ha
      have h3 : (c.solveSeg solver 0 (SegState.start fs ss)).1.subs[0]? = some { idx := c.indices 0, flows := fs, stores := ss, res := (solver 0 (c.indices 0) fs ss).2 } := by
        simp [SegCalc.solveSeg, SegState.start]
      rcases hq : c.solveSeg solver 0 (SegState.start fs ss) with ⟨s2, e2⟩
      rw [hq] at h3 ha
      cases e2 with
      | some e2 =>
        simp only at h3 ha
        rw [h3] at ha
        cases ha
        exact ⟨rfl, rfl⟩
      | none =>
        simp only at h3 ha
        rw [first _ _ _ _ h3] at ha
        cases ha
        exact ⟨rfl, rfl⟩
  have e0 : (SegState.start fs ss).subs.length - 0 = 0 := rfl
  rw [e0] at h2
  unfold SegCalc.solveAll at h ⊢
  rcases hl : c.loop solver c.nSeg 0 (SegState.start fs ss) with ⟨s1, e⟩
  rw [hl] at h2 h
  have hf := first' c.nSeg
  rw [hl] at hf
  cases e with
  | some e => simp at h
  | none =>
    simp only at h h2 hf ⊢
    rw [s1.reset_subs]
    obtain ⟨hb, _⟩ := h2.2 trivial
    refine ⟨fun k a ha => ?_, hf⟩
    have hk := (List.getElem?_eq_some_iff.1 ha).1
    by_cases h4 : k + 1 < s1.subs.length
    · exact hb.trace.done k a ha (Nat.zero_le _) h4
    · have : k = s1.subs.length - 1 := by omega
      have hlast : s1.subs.getLast? = some a := by rw [List.getLast?_eq_getElem?, ← this, ha]
      have := hb.fin a hlast (by omega)
      rw [show s1.subs.length - 1 - 0 = k by omega] at this
      exact this

/-! ## Start values of flows and storages -/

/-- The flows with their components, in the order of the flow system (flow_system.py:277-280). -/
def System.flowItems (s : System) : List (Comp × FlowData) := s.comps.flatMap fun c => c.flows.map fun f => (c, f)

/-- A component that is a storage. -/
def Comp.storage? : Comp → Option StorageData
  | .storage s => some s
  | _ => none

/-- The storages (calculation.py:359-362). -/
def System.storeItems (s : System) : List StorageData := s.comps.filterMap Comp.storage?

/-- The labels of flow and component. -/
def flowKey (q : Comp × FlowData) : String × String := (q.1.label, q.2.label)

/-- `previous_flow_rate` as a start value and back. -/
def StartVal.ofRate : Option Num → StartVal
  | Option.none => .none
  | some a => .num a

def StartVal.rate : StartVal → Option Num
  | .num a => some a
  | _ => Option.none

/-- `initial_charge_state` as a start value and back. -/
def StartVal.ofCharge : InitCharge → StartVal
  | .none => .none
  | .num x => .num (.s x)
  | .lastValueOfSim => .text "lastValueOfSim"
  | .other => .text ""

def StartVal.charge : StartVal → InitCharge
  | .none => .none
  | .num (.s x) => .num x
  | .num (.v _) => .other
  | .text t => if t = "lastValueOfSim" then .lastValueOfSim else .other

/-- The start values of the elements when a segment is modelled, found by label. -/
def System.segStart (s : System) (fs ss : List StartVal) : SegStart where
  rate c f := (((s.flowItems.map flowKey).zip fs).lookup (c, f)).elim none StartVal.rate
  charge l := (((s.storeItems.map fun q => q.label).zip ss).lookup l).elim .none StartVal.charge

/-- The start values given by the user (calculation.py:355-363). -/
def System.userRates (s : System) : List StartVal := s.flowItems.map fun q => .ofRate q.2.previousFlowRate

def System.userCharges (s : System) : List StartVal := s.storeItems.map fun q => .ofCharge q.initial

theorem charge_ofCharge (x : InitCharge) : (StartVal.ofCharge x).charge = x := by
  cases x <;> simp [StartVal.ofCharge, StartVal.charge]

theorem rate_ofRate (x : Option Num) : (StartVal.ofRate x).rate = x := by cases x <;> rfl

/-- A successful segment is a solution of the model of its steps with the start values it got, and its results are the values of that
solution.  (The solver is not asked for an optimum here.) -/
def System.SolvedBy (sys : Sys) (s : System) (solver : SegSolver) : Prop :=
  ∀ i idx fs ss, (solver i idx fs ss).1 = none → fs.length = s.flowItems.length ∧ ss.length = s.storeItems.length ∧
    ∃ (a k : Nat) (ok : SysOut) (σ : Assignment) (r : SegRes), idx = pyRange (a : Int) ((a + k : Nat) : Int) ∧
      systemModel (sys.window a k) (s.window a k (s.segStart fs ss)) = .ok ok ∧ ok.solver.Solves σ ∧ (solver i idx fs ss).2 = some r ∧
      r.flowRates = (s.flowItems.map fun q => (List.range k).map (σ (rateL q.1.label q.2.label))) ∧
      r.charges = (s.storeItems.map fun q => (List.range (k + 1)).map (σ (chargeStateL q.label)))

theorem solvedBy_good {solver : SegSolver} (h : s.SolvedBy sys solver) : solver.Good := by
  intro i idx fs ss hr
  obtain ⟨h1, h2, a, k, ok, σ, r, rfl, -, -, h4, h5, h6⟩ := h i idx fs ss hr
  have e : ((a + k : Nat) : Int) - a = k := by push_cast; ring
  refine ⟨r, h4, by rw [h5, h1]; simp, by rw [h6, h2]; simp, fun xs hx => ?_, fun xs hx => ?_⟩
  · rw [h5] at hx
    obtain ⟨q, -, rfl⟩ := List.mem_map.1 hx
    rw [pyRange_length, e]
    simp
  · rw [h6] at hx
    obtain ⟨q, -, rfl⟩ := List.mem_map.1 hx
    rw [pyRange_length, e]
    simp

theorem lookup_items {α β κ : Type} [BEq κ] [LawfulBEq κ] {kf : α → κ} {R : α → β → Prop} {q : α} : ∀ {items : List α} {vs : List β},
    (items.map kf).Nodup → List.Forall₂ R items vs → q ∈ items → ∃ v, ((items.map kf).zip vs).lookup (kf q) = some v ∧ R q v := by
  intro items
  induction items with
  | nil => intro vs _ _ hq; cases hq
  | cons x items ih =>
    intro vs hnd hR hq
    cases hR with
    | cons h1 h2 =>
      rename_i v vs
      rw [List.map_cons, List.nodup_cons] at hnd
      simp only [List.map_cons, List.zip_cons_cons, List.lookup_cons]
      rcases List.mem_cons.1 hq with rfl | hq
      · exact ⟨v, by simp, h1⟩
      · have hne : kf q ≠ kf x := fun e => hnd.1 (e ▸ List.mem_map_of_mem hq)
        rw [show (kf q == kf x) = false by simpa using hne]
        exact ih hnd.2 h2 hq

theorem forall₂_map_same {α β : Type} (f : α → β) : ∀ l : List α, List.Forall₂ (fun q v => v = f q) l (l.map f)
  | [] => .nil
  | _ :: l => .cons rfl (forall₂_map_same f l)

/-- **C87 for a run.**  A segmented calculation of a system in which nothing couples distant steps runs to its end, and the overlap is not longer than
the last segment.  Costs of starts belong to flows with a lower limit (`Readable`).  Then the arrays in the combined results are the values of one solution of the model of the whole horizon. -/
theorem C87_run_starts_partial (hv : sys.Valid) (hpd : sys.prevDt.Nonneg) (hn : sys.n ≠ 0) (hf : s.Fits sys.n) (hp : ∀ c ∈ s.comps, c.Proper sys) (hl : s.Uncoupled)
    (hr : ∀ c ∈ s.comps, c.Readable sys)
    (h : systemModel sys s = .ok o) (hkf : (s.flowItems.map flowKey).Nodup) (hks : (s.storeItems.map fun q => q.label).Nodup)
    {Li oi : Int} {c : SegCalc} (hi : SegCalc.init sys.n none Li oi = .ok c) (ho : 0 ≤ oi) (hlast : ((c.nSeg : Int) - 1) * Li + oi ≤ sys.n)
    {solver : SegSolver} (hsv : s.SolvedBy sys solver) (hrun : (c.solveAll solver (SegState.start s.userRates s.userCharges)).2 = none) :
    ∃ τ, o.solver.Solves τ ∧
      (∀ q (i : Nat), s.flowItems[i]? = some q → ∃ xss,
        List.Forall₂ (fun a xs => ∃ r, a.res = some r ∧ r.flowRates[i]? = some xs) (c.solveAll solver (SegState.start s.userRates s.userCharges)).1.subs xss ∧
        concatLimited Li.toNat xss = (List.range sys.n).map (τ (rateL q.1.label q.2.label))) ∧
      ∀ q (i : Nat), s.storeItems[i]? = some q → ∃ xss,
        List.Forall₂ (fun a xs => ∃ r, a.res = some r ∧ r.charges[i]? = some xs) (c.solveAll solver (SegState.start s.userRates s.userCharges)).1.subs xss ∧
        concatLimited Li.toNat xss = (List.range (sys.n + 1)).map (τ (chargeStateL q.label)) := by
  obtain ⟨hc, hidx⟩ := cover_segments hi ho
  obtain ⟨htr, hlen⟩ := SegCalc.solveAll_trace (c := c) (solver := solver) (fs := s.userRates) (ss := s.userCharges)
  obtain ⟨hdone, hfirst⟩ := solveAll_done hrun
  have hL := (SegCalc.init_ok.1 hi).1
  have hpart := fun k a b => C46_partial hi ho (solvedBy_good hsv) (fs := s.userRates) (ss := s.userCharges) (k := k) (a := a) (b := b)
  generalize (c.solveAll solver (SegState.start s.userRates s.userCharges)).1.subs = subs at *
  replace hlen := hlen hrun
  -- what is known of each segment
  have each : ∀ k : Nat, ∃ (a : SegSub) (σ : Assignment), k < c.nSeg → subs[k]? = some a ∧ ∃ ok r,
      systemModel (sys.window (k * Li.toNat) (c.indices k).length) (s.window (k * Li.toNat) (c.indices k).length (s.segStart a.flows a.stores)) = .ok ok ∧
      ok.solver.Solves σ ∧ a.res = some r ∧ r.flowRates = (s.flowItems.map fun q => (List.range (c.indices k).length).map (σ (rateL q.1.label q.2.label))) ∧
      r.charges = (s.storeItems.map fun q => (List.range ((c.indices k).length + 1)).map (σ (chargeStateL q.label))) := by
    intro k
    by_cases hk : k < c.nSeg
    · have hk' : k < subs.length := by omega
      have ha : subs[k]? = some subs[k] := List.getElem?_eq_getElem hk'
      obtain ⟨s1, s2⟩ := htr.sub k _ ha (Nat.zero_le _)
      rw [Nat.sub_zero] at s1 s2
      obtain ⟨-, -, a, n, ok, σ, r, i1, i2, i3, i4, i5, i6⟩ := hsv _ _ _ _ (hdone k _ ha)
      have hpos := hc.nonempty k hk
      have hi2 := hidx k hk
      rw [s1] at i1
      have hlenn : (c.indices k).length = n := by
        rw [i1, pyRange_length]
        push_cast
        omega
      have h0 : (c.indices k)[0]? = some ((k * Li.toNat : Nat) : Int) := by
        rw [hi2, pyRange_get (by push_cast; omega)]
        simp
      rw [i1, pyRange_get (by push_cast; omega)] at h0
      have haa : a = k * Li.toNat := by
        simp only [Option.some.injEq] at h0
        push_cast at h0 ⊢
        omega
      subst haa
      subst hlenn
      exact ⟨_, σ, fun _ => ⟨ha, ok, r, i2, i3, by rw [s2]; exact i4, i5, i6⟩⟩
    · exact ⟨⟨[], [], [], none⟩, fun _ _ => 0, fun h => absurd h hk⟩
  choose a σ ha using each
  -- start values
  have hh : ∀ q ∈ s.comps, q.Handed Li.toNat c.nSeg σ fun k => s.segStart (a k).flows (a k).stores := by
    intro q hq
    have memf : ∀ f ∈ q.flows, (q, f) ∈ s.flowItems := fun f hf => List.mem_flatMap.2 ⟨q, hq, List.mem_map.2 ⟨f, hf, rfl⟩⟩
    have mems : ∀ z, q = .storage z → z ∈ s.storeItems := fun z hz => List.mem_filterMap.2 ⟨q, hq, by rw [hz]; rfl⟩
    obtain ⟨f1, f2⟩ := hfirst _ (ha 0 hc.some).1
    have hand : ∀ k, k + 1 < c.nSeg → ∃ r, (a k).res = some r ∧ ValuesAt (Li.toNat - 1) r.flowRates (a (k + 1)).flows ∧ ValuesAt Li.toNat r.charges (a (k + 1)).stores := by
      intro k hk
      obtain ⟨r, j, j', r1, r2, -, r4, r5, r6⟩ := hpart k _ _ (ha k (by omega)).1 (ha (k + 1) hk).1 (C46_fits hi ho hlast hk)
      have e : ((k : Int) + 1) * Li = k * Li + Li := by ring
      have hj' : j' = Li.toNat := by omega
      have hj : j = Li.toNat - 1 := by
        rw [(htr.sub k _ (ha k (by omega)).1 (Nat.zero_le _)).1, Nat.sub_zero] at r2
        have hb : j < (c.indices k).length := (List.getElem?_eq_some_iff.1 r2).1
        rw [hidx k (by omega), pyRange_get (by push_cast; omega)] at r2
        simp only [Option.some.injEq] at r2
        have hLn : ((Li.toNat : Nat) : Int) = Li := by omega
        push_cast at r2
        rw [hLn] at r2
        omega
      exact ⟨r, r1, hj ▸ r5, hj' ▸ r6⟩
    refine ⟨fun f hf => ?_, fun z hz => ?_, fun k hk f hf => ?_, fun z hz k hk => ?_⟩
    · obtain ⟨v, l1, l2⟩ := lookup_items hkf (forall₂_map_same (fun q : Comp × FlowData => StartVal.ofRate q.2.previousFlowRate) s.flowItems) (memf f hf)
      show ((((s.flowItems.map flowKey).zip (a 0).flows).lookup (flowKey (q, f))).elim none StartVal.rate) = _
      rw [f1]
      unfold System.userRates
      rw [l1, l2]
      exact rate_ofRate _
    · obtain ⟨v, l1, l2⟩ := lookup_items hks (forall₂_map_same (fun q : StorageData => StartVal.ofCharge q.initial) s.storeItems) (mems z hz)
      show ((((s.storeItems.map fun q => q.label).zip (a 0).stores).lookup z.label).elim .none StartVal.charge) = _
      rw [f2]
      unfold System.userCharges
      rw [l1, l2]
      exact charge_ofCharge _
    · obtain ⟨r, r1, r2, -⟩ := hand k hk
      obtain ⟨-, ok, r', -, -, q1, q2, -⟩ := ha k (by omega)
      rw [r1] at q1
      cases q1
      unfold ValuesAt at r2
      rw [q2, List.forall₂_map_left_iff] at r2
      obtain ⟨v, l1, x, l2, l3⟩ := lookup_items hkf r2 (memf f hf)
      show ((((s.flowItems.map flowKey).zip (a (k + 1)).flows).lookup (flowKey (q, f))).elim none StartVal.rate) = _
      rw [l1, l3]
      have := hc.whole k hk
      rw [List.getElem?_map, List.getElem?_range (by omega)] at l2
      simp only [Option.map_some, Option.some.injEq] at l2
      subst l2
      rfl
    · obtain ⟨r, r1, -, r2⟩ := hand k hk
      obtain ⟨-, ok, r', -, -, q1, -, q2⟩ := ha k (by omega)
      rw [r1] at q1
      cases q1
      unfold ValuesAt at r2
      rw [q2, List.forall₂_map_left_iff] at r2
      obtain ⟨v, l1, x, l2, l3⟩ := lookup_items hks r2 (mems z hz)
      show ((((s.storeItems.map fun q => q.label).zip (a (k + 1)).stores).lookup z.label).elim .none StartVal.charge) = _
      rw [l1, l3]
      have := hc.whole k hk
      rw [List.getElem?_map, List.getElem?_range (by omega)] at l2
      simp only [Option.map_some, Option.some.injEq] at l2
      subst l2
      rfl
  have hseg : ∀ k < c.nSeg, ∃ ok, systemModel (sys.window (k * Li.toNat) (c.indices k).length)
      (s.window (k * Li.toNat) (c.indices k).length (s.segStart (a k).flows (a k).stores)) = .ok ok ∧ ok.solver.Solves (σ k) := by
    intro k hk
    obtain ⟨-, ok, r, q1, q2, -⟩ := ha k hk
    exact ⟨ok, q1, q2⟩
  have hcl : ∀ q ∈ s.comps, q.Clear sys.cfg.eps Li.toNat c.nSeg σ := fun q hq =>
    (hr q hq).clear (st := fun k => s.segStart (a k).flows (a k).stores) hv hc (hp q hq) (hl.comps q hq) fun k hk => by
      obtain ⟨ok, h1, h2⟩ := hseg k hk
      obtain ⟨ock, hock, hmk⟩ := forall₂_mem_left (system_inv h1).1 (List.mem_map.2 ⟨q, hq, rfl⟩)
      exact ⟨ock, hmk, ((system_solves h1 _).1 h2).2.1 ock hock⟩
  obtain ⟨τ, t1, t2', -, -⟩ := C87_starts_partial hv hpd hn hf hp hl h hc hh hcl hseg
  have t2 := fun q hq => (t2' q hq).1
  have hsubs : subs = (List.range c.nSeg).map a := by
    apply List.ext_getElem?
    intro k
    by_cases hk : k < c.nSeg
    · rw [(ha k hk).1]
      simp [hk]
    · rw [List.getElem?_eq_none (by omega), List.getElem?_eq_none (by simp; omega)]
  refine ⟨τ, t1, fun q i hq => ⟨(List.range c.nSeg).map fun k => (List.range ((c.indices k).length + 0)).map (σ k (rateL q.1.label q.2.label)), ?_, ?_⟩,
    fun q i hq => ⟨(List.range c.nSeg).map fun k => (List.range ((c.indices k).length + 1)).map (σ k (chargeStateL q.label)), ?_, ?_⟩⟩
  · rw [hsubs, List.forall₂_map_left_iff, List.forall₂_map_right_iff, List.forall₂_same]
    intro k hk
    obtain ⟨-, ok, r, -, -, q1, q2, -⟩ := ha k (List.mem_range.1 hk)
    exact ⟨r, q1, by rw [q2, List.getElem?_map, hq]; rfl⟩
  · rw [hc.concat (fun k => σ k (rateL q.1.label q.2.label)) 0]
    obtain ⟨cc, hcc, hq2⟩ := List.mem_flatMap.1 (List.mem_of_getElem? hq)
    obtain ⟨f, hff, rfl⟩ := List.mem_map.1 hq2
    refine List.map_congr_left fun t ht => ?_
    have ht : t < sys.n := by simpa using ht
    rw [(t2 cc hcc).rate f hff t ht]
    have e : contentOwner Li.toNat c.nSeg t = t / Li.toNat := by
      have := (hc.owner ht).1
      unfold contentOwner
      omega
    rw [e]
    have := Nat.div_add_mod' t Li.toNat
    congr 1
    omega
  · rw [hsubs, List.forall₂_map_left_iff, List.forall₂_map_right_iff, List.forall₂_same]
    intro k hk
    obtain ⟨-, ok, r, -, -, q1, -, q2⟩ := ha k (List.mem_range.1 hk)
    exact ⟨r, q1, by rw [q2, List.getElem?_map, hq]; rfl⟩
  · rw [hc.concat (fun k => σ k (chargeStateL q.label)) 1]
    obtain ⟨cc, hcc, hq2⟩ := List.mem_filterMap.1 (List.mem_of_getElem? hq)
    have hst : cc = .storage q := by
      cases cc <;> simp [Comp.storage?] at hq2
      rw [hq2]
    refine List.map_congr_left fun t ht => ?_
    have ht : t ≤ sys.n := by have := List.mem_range.1 ht; omega
    rw [(t2 cc hcc).charge q hst t ht]

/-- **C87 for a run without costs of starts.**  A segmented calculation of a system in which nothing couples distant steps runs to its end, and the overlap is not longer than
the last segment.  Then the arrays in the combined results are the values of one solution of the model of the whole horizon. -/
theorem C87_run_partial (hv : sys.Valid) (hpd : sys.prevDt.Nonneg) (hn : sys.n ≠ 0) (hf : s.Fits sys.n) (hp : ∀ c ∈ s.comps, c.Proper sys) (hl : s.Local)
    (h : systemModel sys s = .ok o) (hkf : (s.flowItems.map flowKey).Nodup) (hks : (s.storeItems.map fun q => q.label).Nodup)
    {Li oi : Int} {c : SegCalc} (hi : SegCalc.init sys.n none Li oi = .ok c) (ho : 0 ≤ oi) (hlast : ((c.nSeg : Int) - 1) * Li + oi ≤ sys.n)
    {solver : SegSolver} (hsv : s.SolvedBy sys solver) (hrun : (c.solveAll solver (SegState.start s.userRates s.userCharges)).2 = none) :
    ∃ τ, o.solver.Solves τ ∧
      (∀ q (i : Nat), s.flowItems[i]? = some q → ∃ xss,
        List.Forall₂ (fun a xs => ∃ r, a.res = some r ∧ r.flowRates[i]? = some xs) (c.solveAll solver (SegState.start s.userRates s.userCharges)).1.subs xss ∧
        concatLimited Li.toNat xss = (List.range sys.n).map (τ (rateL q.1.label q.2.label))) ∧
      ∀ q (i : Nat), s.storeItems[i]? = some q → ∃ xss,
        List.Forall₂ (fun a xs => ∃ r, a.res = some r ∧ r.charges[i]? = some xs) (c.solveAll solver (SegState.start s.userRates s.userCharges)).1.subs xss ∧
        concatLimited Li.toNat xss = (List.range (sys.n + 1)).map (τ (chargeStateL q.label)) :=
  C87_run_starts_partial hv hpd hn hf hp hl.uncoupled hl.starts.readable h hkf hks hi ho hlast hsv hrun

end Flix
