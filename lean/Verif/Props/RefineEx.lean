import Verif.Props.RefineBack
import Verif.Props.WindowEx

/-! # C110: an example, and where the time grid matters -/

namespace Flix

/-- Two steps of two hours and one hour. -/
def exUneven : Sys := { n := 2, dt := [2, 1], total := 3, prevDt := .s 1, cfg := exCfg }

/-- The first step is divided into two parts. -/
def exThree : Sys := { n := 3, dt := [1 / 2, 3 / 2, 1], total := 3, prevDt := .s 1, cfg := exCfg }

def exOwner (j : Nat) : Nat := if j < 2 then 0 else 1
def exPartOf (t : Nat) : Nat := if t = 0 then 0 else t + 1

theorem exGrid : Finer exOwner exPartOf exUneven exThree where
  zero := rfl
  last := rfl
  more := by decide
  part := by
    intro t ht j h1 h2
    have ht : t < 2 := ht
    unfold exOwner
    unfold exPartOf at h1 h2
    interval_cases t
    · simp at h2
      rw [if_pos (by omega)]
    · simp at h1
      rw [if_neg (by omega)]
  width := by decide +kernel
  cfg := rfl
  before := rfl

def exBuilt : FlowData :=
  { label := "Q", bus := "heat"
    size := .invest { maximumSize := some 10, optional := true, fixEffects := [("costs", .s 3)], specificEffects := [("costs", .s 1)],
                      effectsInSegments := some ([(1, 2), (2, 10)], [("costs", [(1, 4), (4, 9)])]) }
    effectsPerFlowHour := [("costs", .v [2, 5])] }
def exWanted : FlowData := { label := "Q", bus := "heat", size := .num 1, fixedProfile := some (.v [1, 4]) }
def exPlainTank : StorageData :=
  { label := "Tank", charging := { label := "in", bus := "heat", size := .num 5 }, discharging := { label := "out", bus := "heat", size := .num 5 }, capacity := .num 10, initial := .num 0,
    preventSimultaneous := false }

/-- A generator that may be built at prices per unit and in segments, a load and a store. -/
def exShift : System :=
  { effects := [{ label := "costs", isStandard := true, isObjective := true }]
    comps := [.plain { label := "Gen", inputs := [], outputs := [exBuilt] }, .storage exPlainTank, .plain { label := "Load", inputs := [exWanted], outputs := [] }]
    buses := [{ label := "heat", excessPenalty := some (.s 100) }] }

theorem exUneven_valid : exUneven.Valid := by
  refine ⟨rfl, ?_, ?_, ?_⟩
  · intro d hd; simp [exUneven] at hd; rcases hd with rfl | rfl <;> norm_num
  · simp [exUneven]; norm_num
  · simp [exUneven, exCfg]

theorem exUneven_before : exUneven.prevDt.Nonneg := by
  simp [exUneven, Num.Nonneg]

theorem exThree_valid : exThree.Valid := by
  refine ⟨rfl, ?_, ?_, ?_⟩
  · intro d hd; simp [exThree] at hd; rcases hd with rfl | rfl | rfl <;> norm_num
  · simp [exThree]; norm_num
  · simp [exThree, exCfg]

/-- It generates for two hours 2 and stores half of it. -/
def exShiftSol : Assignment := tableSol
  [("Gen__Q_flow_rate", [2, 2]), ("Gen__Q_sumFlowHours", [6]), ("Gen__Q__Investment_size", [2]), ("Load__Q_flow_rate", [1, 4]), ("Load__Q_sumFlowHours", [6]),
   ("Tank__in_flow_rate", [1, 0]), ("Tank__in_sumFlowHours", [2]), ("Tank__out_flow_rate", [0, 2]), ("Tank__out_sumFlowHours", [2]),
   ("Tank_charge_state", [0, 2, 0]), ("Tank_netto_discharge", [-1, 2]),
   ("costs__operation_operation_sum", [18]), ("costs__operation_operation_sum_TS", [8, 10]), ("costs__invest_invest_sum", [9]), ("costs__all_all_sum", [27]),
   ("costs__Gen__Q__effects_per_flow_hour", [8, 10]), ("costs__Gen__Q__fix_effects", [3]), ("costs__Gen__Q__specific_effects", [2]), ("costs__Gen__Q__segmented_effects", [4]),
   ("costs__operation", [18]), ("costs__invest", [9]), ("Gen__Q__Investment_isInvested", [1]), ("Gen__Q__SegmentedShares_costs_segmented", [4]),
   ("Gen__Q__Segment_0_inSegment", [1]), ("Gen__Q__Segment_0_lambda1", [1])]

theorem exShift_flows : (∀ f ∈ [exBuilt, exWanted, exPlainTank.charging, exPlainTank.discharging], f.Fits exUneven.n ∧ f.Sensible exUneven.cfg exUneven.n ∧ f.Proper exUneven.n) := by
  simp only [List.forall_mem_cons, List.not_mem_nil, false_imp_iff, implies_true, and_true]
  refine ⟨⟨?_, ⟨?_, ?_, ?_⟩, ?_, ?_⟩, ⟨?_, ⟨?_, ?_, ?_⟩, ?_, ?_⟩, ⟨?_, ⟨?_, ?_, ?_⟩, ?_, ?_⟩, ⟨?_, ⟨?_, ?_, ?_⟩, ?_, ?_⟩⟩
  all_goals first
    | (constructor <;> simp [exBuilt, exWanted, exPlainTank, Num.Fits, Num.len, Num.isScalar, exUneven, exCfg, InvestParams.segEffects, FlowData.lowRel, FlowData.highRel]; done)
    | decide +kernel
    | (intro q hq; cases hq; done)
    | (intro q hq; cases hq; refine ⟨⟨?_, ?_⟩, ⟨?_, ?_, ?_⟩, ?_⟩ <;> simp [exUneven, exCfg]; done)
    | (intro q hq; cases hq; simp [InvestParams.segEffects])

theorem exShift_proper : ∀ c ∈ exShift.comps, c.Proper exUneven := by
  have h := exShift_flows
  simp only [List.forall_mem_cons, List.not_mem_nil, false_imp_iff, implies_true, and_true] at h
  obtain ⟨g, d, i, u⟩ := h
  intro c hc
  simp only [exShift, List.mem_cons, List.not_mem_nil, or_false] at hc
  rcases hc with rfl | rfl | rfl
  · exact ⟨by decide, by simpa using g.1, by simpa using g.2.1, by simpa using g.2.2, by simp⟩
  · refine ⟨⟨by decide +kernel, ?_, ?_, ?_, by simp [StorageData.comp]⟩, ?_, ?_, ?_⟩
    · intro f hf; simp [StorageData.comp] at hf; rcases hf with rfl | rfl; exacts [i.1, u.1]
    · intro f hf; simp [StorageData.comp] at hf; rcases hf with rfl | rfl; exacts [i.2.1, u.2.1]
    · intro f hf; simp [StorageData.comp] at hf; rcases hf with rfl | rfl; exacts [i.2.2, u.2.2]
    · constructor <;> simp [exPlainTank, Num.Fits, Num.isScalar]
    · intro t _; simp [exPlainTank, Num.at]
    · intro q hq; cases hq
  · exact ⟨by decide, by simpa using d.1, by simpa using d.2.1, by simpa using d.2.2, by simp⟩

theorem exShift_gridless : ∀ c ∈ exShift.comps, c.Gridless exUneven.n ∧ c.Convex := by
  intro c hc
  simp only [exShift, List.mem_cons, List.not_mem_nil, or_false] at hc
  rcases hc with rfl | rfl | rfl
  · refine ⟨trivial, ?_, rfl, rfl⟩
    intro f hf
    simp only [List.nil_append, List.mem_cons, List.not_mem_nil, or_false] at hf
    subst hf
    rfl
  · exact ⟨⟨rfl, rfl, by decide, fun t _ => rfl⟩, rfl, rfl, rfl⟩
  · refine ⟨trivial, ?_, rfl, rfl⟩
    intro f hf
    simp only [List.append_nil, List.mem_cons, List.not_mem_nil, or_false] at hf
    subst hf
    rfl

theorem exShift_fits : exShift.Fits exUneven.n := by
  refine ⟨?_, ?_, ?_⟩
  · intro e he
    simp only [exShift, List.mem_cons, List.not_mem_nil, or_false] at he
    subst he
    refine ⟨?_, ?_, ?_, ?_⟩ <;> simp
  · intro c hc
    simp only [exShift, List.mem_cons, List.not_mem_nil, or_false] at hc
    rcases hc with rfl | rfl | rfl <;> refine ⟨?_, ?_, ?_⟩ <;> simp [Comp.flows, Comp.inputs, Comp.outputs, Comp.onOff, exBuilt, exPlainTank, exWanted]
    · refine ⟨?_, by simp, ?_⟩
      · simp [EffDict.Series, Num.Fits, Num.len, exUneven]
      · intro q hq
        cases hq
        refine ⟨?_, ?_, ?_⟩ <;> simp [EffDict.Scalars, Num.isScalar]
    · refine ⟨⟨?_, ?_, ?_⟩, ⟨?_, ?_, ?_⟩⟩ <;> simp [EffDict.Series]
    · rintro s q rfl hq
      cases hq
    · refine ⟨?_, ?_, ?_⟩ <;> simp [EffDict.Series]
  · intro b hb pen hp
    simp only [exShift, List.mem_cons, List.not_mem_nil, or_false] at hb
    subst hb
    cases hp
    exact .inl rfl

/-- Both grids can be modelled, and the given one has a solution. -/
theorem exShift_ok : (∃ o, systemModel exUneven exShift = .ok o ∧ o.solver.Solves exShiftSol) ∧ ∃ of, systemModel exThree (exShift.spread exThree.n exOwner) = .ok of := by
  refine ⟨?_, builds (r := systemModel exThree (exShift.spread exThree.n exOwner)) (by decide +kernel)⟩
  obtain ⟨o, h1, h2⟩ := builds_and_solves (σ := exShiftSol) (r := systemModel exUneven exShift) (f := fun o : SysOut => MTree.node o.solver.vars o.solver.cons []) (by decide +kernel)
  exact ⟨o, h1, h2.1, h2.2.1⟩

/-- The hypotheses of C110 hold in the example: there are solutions on both grids, and the smallest objectives are the same. -/
example : ∃ o of, systemModel exUneven exShift = .ok o ∧ systemModel exThree (exShift.spread exThree.n exOwner) = .ok of ∧ (∃ τ, of.solver.Solves τ) ∧
    ∃ terms terms', objectiveTerms o.solver.objective = .ok terms ∧ objectiveTerms of.solver.objective = .ok terms' ∧
      ∀ σ τ, o.Optimal σ → of.Optimal τ → termsVal σ terms = termsVal τ terms' := by
  obtain ⟨⟨o, h1, h2⟩, of, h3⟩ := exShift_ok
  have := C110_optimum_partial exGrid exUneven_valid exThree_valid (by decide) exUneven_before exShift_fits exShift_proper (fun c hc => (exShift_gridless c hc).1)
    (fun c hc => (exShift_gridless c hc).2) h1 h3
  exact ⟨o, of, h1, h3, this.1.1 ⟨_, h2⟩, this.2⟩

/-- In the example the part of half an hour causes a quarter of the costs of its step. -/
example : ∃ of τ, systemModel exThree (exShift.spread exThree.n exOwner) = .ok of ∧ of.solver.Solves τ ∧ τ "Gen__Q_flow_rate" 1 = 2 ∧ τ "Tank_charge_state" 2 = 2 ∧
    τ "costs__operation_operation_sum_TS" 0 = 2 ∧ τ "Gen__Q__Investment_isInvested" 0 = 1 ∧ τ "Gen__Q__SegmentedShares_costs_segmented" 0 = 4 := by
  obtain ⟨⟨o, h1, h2⟩, of, h3⟩ := exShift_ok
  obtain ⟨τ, t1, t2, _, t4, _⟩ := C110_finer_partial exGrid exUneven_valid exThree_valid (by decide) exUneven_before exShift_fits exShift_proper (fun c hc => (exShift_gridless c hc).1)
    (by unfold System.FreeStarts; simp [exShift, Comp.flows, Comp.inputs, Comp.outputs, Comp.onOff, exBuilt, exPlainTank, exWanted]) h1 h3 h2
  have inv := (t2 _ (by simp [exShift])).size exBuilt (c := .plain { label := "Gen", inputs := [], outputs := [exBuilt] }) (by simp [Comp.flows, Comp.inputs, Comp.outputs]) _ rfl
  refine ⟨of, τ, h3, t1, ?_, ?_, ?_, (inv.built rfl).trans (show exShiftSol "Gen__Q__Investment_isInvested" 0 = 1 by decide +kernel),
    (inv.shares "costs" (by simp [InvestParams.segEffects])).trans (show exShiftSol "Gen__Q__SegmentedShares_costs_segmented" 0 = 4 by decide +kernel)⟩
  · have := (t2 _ (by simp [exShift])).rate exBuilt (c := .plain { label := "Gen", inputs := [], outputs := [exBuilt] }) (by simp [Comp.flows, Comp.inputs, Comp.outputs]) 1 (by decide)
    exact this.trans (show exShiftSol "Gen__Q_flow_rate" 0 = 2 by decide +kernel)
  · have := (t2 (.storage exPlainTank) (by simp [exShift])).charge exPlainTank rfl 1 (by decide)
    exact this.trans (show exShiftSol "Tank_charge_state" 1 = 2 by decide +kernel)
  · have := (t4 _ (List.mem_cons_self ..)).1 0
    exact this.trans (show exShiftSol "costs__operation_operation_sum_TS" 0 * (exThree.width 0 / exUneven.width 0) = 2 by decide +kernel)

/-! ## Where the grid matters -/

/-- Three hours. -/
def exHourly : Sys := { n := 3, dt := [1, 1, 1], total := 3, prevDt := .s 1, cfg := exCfg }

/-- A store that loses a quarter of its content per hour and cannot be charged or discharged. -/
def exLeakyTank : StorageData :=
  { label := "Tank", charging := { label := "in", bus := "heat", size := .num 5, relMax := .s 0 }, discharging := { label := "out", bus := "heat", size := .num 5, relMax := .s 0 },
    capacity := .num 10, initial := .num 8, minFinal := some (16 / 5), relLoss := .s (1 / 4), preventSimultaneous := false }

def exLeaky : System :=
  { effects := [{ label := "costs", isStandard := true, isObjective := true }]
    comps := [.storage exLeakyTank]
    buses := [{ label := "heat", excessPenalty := none }] }

def exLeakySol : Assignment := tableSol [("Tank_charge_state", [8, 6, 9 / 2, 27 / 8])]

theorem exHourGrid : Finer exOwner exPartOf exUneven exHourly := { exGrid with width := by decide +kernel }

theorem exLeaky_proper : exLeakyTank.Proper exUneven := by
  refine ⟨⟨by decide +kernel, ?_, ?_, ?_, by simp [StorageData.comp]⟩, ?_, ?_, ?_⟩
  · intro f hf
    simp [StorageData.comp] at hf
    rcases hf with rfl | rfl <;> constructor <;> simp [exLeakyTank, Num.Fits, Num.isScalar]
  · intro f hf
    simp [StorageData.comp] at hf
    rcases hf with rfl | rfl <;> refine ⟨?_, ?_, ?_⟩ <;> simp [exLeakyTank, exUneven, exCfg, FlowData.lowRel, FlowData.highRel, Num.at]
  · intro f hf
    simp [StorageData.comp] at hf
    rcases hf with rfl | rfl <;> refine ⟨?_, ?_⟩ <;> intro q hq <;> cases hq
  · constructor <;> simp [exLeakyTank, Num.Fits, Num.isScalar]
  · intro t _; simp [exLeakyTank, Num.at]
  · intro q hq; cases hq

/-- **C110 fails for storages with losses.**  The content falls by a fixed share of what was there at the beginning of a step, so the shorter the steps, the less
is lost: with hourly steps the demanded final content is reached, with a first step of two hours the model has no solution. -/
theorem C110_losses_wrong : ∃ (φ s : Nat → Nat) (sys fine : Sys) (y : System) (o of : SysOut), Finer φ s sys fine ∧ sys.Valid ∧ fine.Valid ∧ (∀ c ∈ y.comps, c.Proper sys) ∧
    (∀ c ∈ y.comps, c.Convex) ∧ systemModel sys y = .ok o ∧ systemModel fine (y.spread fine.n φ) = .ok of ∧ (∃ τ, of.solver.Solves τ) ∧ ¬ ∃ σ, o.solver.Solves σ := by
  obtain ⟨o, ho⟩ := builds (r := systemModel exUneven exLeaky) (by decide +kernel)
  obtain ⟨of, h1, h2⟩ := builds_and_solves (σ := exLeakySol) (r := systemModel exHourly (exLeaky.spread exHourly.n exOwner)) (f := fun o : SysOut => MTree.node o.solver.vars o.solver.cons [])
    (by decide +kernel)
  have hp : ∀ c ∈ exLeaky.comps, c.Proper exUneven := by
    intro c hc
    simp only [exLeaky, List.mem_cons, List.not_mem_nil, or_false] at hc
    subst hc
    exact exLeaky_proper
  refine ⟨exOwner, exPartOf, exUneven, exHourly, exLeaky, o, of, exHourGrid, exUneven_valid, ?_, hp, ?_, ho, h1, ⟨_, h2.1, h2.2.1⟩, ?_⟩
  · refine ⟨rfl, ?_, ?_, ?_⟩
    · intro d hd; simp [exHourly] at hd; subst hd; norm_num
    · simp [exHourly]; norm_num
    · simp [exHourly, exCfg]
  · intro c hc
    simp only [exLeaky, List.mem_cons, List.not_mem_nil, or_false] at hc
    subst hc
    exact ⟨rfl, rfl, rfl⟩
  · rintro ⟨σ, hs⟩
    obtain ⟨oc, hoc, hmc⟩ := forall₂_mem_left (system_inv ho).1 (a := .storage exLeakyTank) (by simp [exLeaky])
    obtain ⟨o', h', rfl⟩ := map_ok.1 hmc
    obtain ⟨p, p1, -, -, -⟩ := C82_storage_sound exUneven_valid exLeaky_proper h' (((system_solves ho σ).1 hs).2.1 _ hoc)
    have none : ∀ l, l = "in" ∨ l = "out" → ∀ t < 2, (p.flows.flow l).r t = 0 := by
      intro l hl t ht
      have key : ∀ f ∈ exLeakyTank.comp.inputs ++ exLeakyTank.comp.outputs, (p.flows.flow f.label).r t = 0 := by
        intro f hf
        have a := (p1.flows.flows f hf).follows.always (by
          simp [StorageData.comp] at hf
          rcases hf with rfl | rfl <;> rfl) t ht
        simp [StorageData.comp] at hf
        rcases hf with rfl | rfl
        · have e1 : (exLeakyTank.comp.declared exLeakyTank.charging).lowRel t = 0 := rfl
          have e2 : (exLeakyTank.comp.declared exLeakyTank.charging).highRel t = 0 := rfl
          rw [e1, e2, zero_mul] at a
          exact le_antisymm a.2 a.1
        · have e1 : (exLeakyTank.comp.declared exLeakyTank.discharging).lowRel t = 0 := rfl
          have e2 : (exLeakyTank.comp.declared exLeakyTank.discharging).highRel t = 0 := rfl
          rw [e1, e2, zero_mul] at a
          exact le_antisymm a.2 a.1
      rcases hl with rfl | rfl
      · exact key exLeakyTank.charging (by simp [StorageData.comp])
      · exact key exLeakyTank.discharging (by simp [StorageData.comp])
    have b0 := p1.balance 0 (by decide)
    have b1 := p1.balance 1 (by decide)
    have st := p1.ends.start 8 rfl
    have fin := p1.ends.minF (by decide) (16 / 5) rfl
    rw [show exLeakyTank.charging.label = "in" from rfl, show exLeakyTank.discharging.label = "out" from rfl, none "in" (.inl rfl) 0 (by decide), none "out" (.inr rfl) 0 (by decide),
      show exLeakyTank.relLoss.at 0 = 1 / 4 from rfl, show exUneven.width 0 = 2 from rfl, st] at b0
    rw [show exLeakyTank.charging.label = "in" from rfl, show exLeakyTank.discharging.label = "out" from rfl, none "in" (.inl rfl) 1 (by decide), none "out" (.inr rfl) 1 (by decide),
      show exLeakyTank.relLoss.at 1 = 1 / 4 from rfl, show exUneven.width 1 = 1 from rfl, b0] at b1
    rw [show exUneven.n = 1 + 1 from rfl, b1] at fin
    norm_num at fin

/-- The last step is divided into two parts. -/
def exLateSteps : Sys := { n := 3, dt := [2, 1 / 2, 1 / 2], total := 3, prevDt := .s 1, cfg := exCfg }

def exLateOwner (j : Nat) : Nat := if j < 1 then 0 else 1
def exLatePart (t : Nat) : Nat := if t < 2 then t else t + 1

theorem exLateGrid : Finer exLateOwner exLatePart exUneven exLateSteps where
  zero := rfl
  last := rfl
  more := by decide
  part := by
    intro t ht j h1 h2
    have ht : t < 2 := ht
    unfold exLateOwner
    unfold exLatePart at h1 h2
    interval_cases t
    · simp at h2
      rw [if_pos (by omega)]
    · simp at h1
      rw [if_neg (by omega)]
  width := by decide +kernel
  cfg := rfl
  before := rfl

/-- A store that is to be as full at the end as at the beginning and is charged in the last step. -/
def exCyclicTank : StorageData :=
  { label := "Tank", charging := { label := "in", bus := "heat", size := .num 1, fixedProfile := some (.v [0, 1]) },
    discharging := { label := "out", bus := "heat", size := .num 5, relMax := .s 0 }, capacity := .num 10, initial := .lastValueOfSim, preventSimultaneous := false }

def exCyclic : System :=
  { effects := [{ label := "costs", isStandard := true, isObjective := true }]
    comps := [.storage exCyclicTank]
    buses := [{ label := "heat", excessPenalty := some (.s 1) }] }

def exCyclicSol : Assignment := tableSol
  [("Tank__in_flow_rate", [0, 1]), ("Tank__in_sumFlowHours", [1]), ("Tank_charge_state", [0, 0, 1]), ("Tank_netto_discharge", [0, -1]), ("heat_excess_input", [0, 1]),
   ("Effects__heat__excess_input", [1]), ("Effects__penalty_penalty_sum", [1])]

theorem exCyclic_proper : exCyclicTank.Proper exUneven := by
  refine ⟨⟨by decide +kernel, ?_, ?_, ?_, by simp [StorageData.comp]⟩, ?_, ?_, ?_⟩
  · intro f hf
    simp [StorageData.comp] at hf
    rcases hf with rfl | rfl <;> constructor <;> simp [exCyclicTank, Num.Fits, Num.isScalar, Num.len, exUneven]
  · intro f hf
    simp [StorageData.comp] at hf
    rcases hf with rfl | rfl
    · refine ⟨?_, ?_, ?_⟩
      · simp [exCyclicTank, exUneven, exCfg]
      · decide +kernel
      · intro q hq; cases hq
    · refine ⟨?_, ?_, ?_⟩ <;> simp [exCyclicTank, exUneven, exCfg, FlowData.lowRel, FlowData.highRel, Num.at]
  · intro f hf
    simp [StorageData.comp] at hf
    rcases hf with rfl | rfl <;> refine ⟨?_, ?_⟩ <;> intro q hq <;> cases hq
  · constructor <;> simp [exCyclicTank, Num.Fits, Num.isScalar]
  · intro t _; simp [exCyclicTank, Num.at]
  · intro q hq; cases hq

/-- **C110 fails for storages that start with the last content.**  The condition compares the first content with the one before the last step (C33), so which content is meant
depends on the grid: the model has a solution, but none after the last step is divided. -/
theorem C110_cyclic_wrong : ∃ (φ s : Nat → Nat) (sys fine : Sys) (y : System) (o of : SysOut), Finer φ s sys fine ∧ sys.Valid ∧ fine.Valid ∧ (∀ c ∈ y.comps, c.Proper sys) ∧
    (∀ c ∈ y.comps, c.Convex) ∧ (∀ x, Comp.storage x ∈ y.comps → ∀ t, x.relLoss.at t = 0) ∧ systemModel sys y = .ok o ∧ systemModel fine (y.spread fine.n φ) = .ok of ∧
    (∃ σ, o.solver.Solves σ) ∧ ¬ ∃ τ, of.solver.Solves τ := by
  obtain ⟨of, ho⟩ := builds (r := systemModel exLateSteps (exCyclic.spread exLateSteps.n exLateOwner)) (by decide +kernel)
  obtain ⟨o, h1, h2⟩ := builds_and_solves (σ := exCyclicSol) (r := systemModel exUneven exCyclic) (f := fun o : SysOut => MTree.node o.solver.vars o.solver.cons []) (by decide +kernel)
  have hv : exLateSteps.Valid := by
    refine ⟨rfl, ?_, ?_, ?_⟩
    · intro d hd; simp [exLateSteps] at hd; rcases hd with rfl | rfl <;> norm_num
    · simp [exLateSteps]; norm_num
    · simp [exLateSteps, exCfg]
  refine ⟨exLateOwner, exLatePart, exUneven, exLateSteps, exCyclic, o, of, exLateGrid, exUneven_valid, hv, ?_, ?_, ?_, h1, ho, ⟨_, h2.1, h2.2.1⟩, ?_⟩
  · intro c hc
    simp only [exCyclic, List.mem_cons, List.not_mem_nil, or_false] at hc
    subst hc
    exact exCyclic_proper
  · intro c hc
    simp only [exCyclic, List.mem_cons, List.not_mem_nil, or_false] at hc
    subst hc
    exact ⟨rfl, rfl, rfl⟩
  · intro x hx t
    simp only [exCyclic, List.mem_cons, List.not_mem_nil, or_false, Comp.storage.injEq] at hx
    subst hx
    rfl
  · rintro ⟨τ, hs⟩
    obtain ⟨oc, hoc, hmc⟩ := forall₂_mem_left (system_inv ho).1 (a := .storage (exCyclicTank.spread exLateSteps.n exLateOwner)) (by simp [exCyclic, System.spread, Comp.spread])
    obtain ⟨o', h', rfl⟩ := map_ok.1 hmc
    have hp := storage_spread_proper exLateGrid exCyclic_proper ⟨rfl, rfl⟩
    obtain ⟨p, p1, -, -, -⟩ := C82_storage_sound hv hp h' (((system_solves ho τ).1 hs).2.1 _ hoc)
    have a1 := fun t ht => (p1.flows.flows (exCyclicTank.spread exLateSteps.n exLateOwner).charging (by simp [StorageData.comp])).follows.always rfl t ht
    have a2 := fun t ht => (p1.flows.flows (exCyclicTank.spread exLateSteps.n exLateOwner).discharging (by simp [StorageData.comp])).follows.always rfl t ht
    have i0 : (p.flows.flow "in").r 0 = 0 := by
      have := a1 0 (by decide)
      rw [show ((exCyclicTank.spread exLateSteps.n exLateOwner).comp.declared (exCyclicTank.spread exLateSteps.n exLateOwner).charging).lowRel 0 = 0 by decide +kernel,
        show ((exCyclicTank.spread exLateSteps.n exLateOwner).comp.declared (exCyclicTank.spread exLateSteps.n exLateOwner).charging).highRel 0 = 0 by decide +kernel, zero_mul] at this
      exact le_antisymm this.2 this.1
    have i1 : (p.flows.flow "in").r 1 = 1 := by
      have := a1 1 (by decide)
      rw [show ((exCyclicTank.spread exLateSteps.n exLateOwner).comp.declared (exCyclicTank.spread exLateSteps.n exLateOwner).charging).lowRel 1 = 1 by decide +kernel,
        show ((exCyclicTank.spread exLateSteps.n exLateOwner).comp.declared (exCyclicTank.spread exLateSteps.n exLateOwner).charging).highRel 1 = 1 by decide +kernel, one_mul] at this
      exact le_antisymm this.2 this.1
    have o01 : ∀ t < 3, (p.flows.flow "out").r t = 0 := by
      intro t ht
      have := a2 t ht
      rw [show ((exCyclicTank.spread exLateSteps.n exLateOwner).comp.declared (exCyclicTank.spread exLateSteps.n exLateOwner).discharging).lowRel t = 0 from rfl,
        show ((exCyclicTank.spread exLateSteps.n exLateOwner).comp.declared (exCyclicTank.spread exLateSteps.n exLateOwner).discharging).highRel t = 0 from rfl, zero_mul] at this
      exact le_antisymm this.2 this.1
    have b0 := p1.balance 0 (by decide)
    have b1 := p1.balance 1 (by decide)
    have fin : p.content 0 = p.content 2 := p1.ends.last rfl
    rw [show (exCyclicTank.spread exLateSteps.n exLateOwner).charging.label = "in" from rfl, show (exCyclicTank.spread exLateSteps.n exLateOwner).discharging.label = "out" from rfl] at b0 b1
    rw [i0, o01 0 (by decide), show (exCyclicTank.spread exLateSteps.n exLateOwner).relLoss.at 0 = 0 from rfl] at b0
    rw [i1, o01 1 (by decide), show (exCyclicTank.spread exLateSteps.n exLateOwner).relLoss.at 1 = 0 from rfl, show (exCyclicTank.spread exLateSteps.n exLateOwner).etaCharge.at 1 = 1 from rfl,
      show exLateSteps.width 1 = 1 / 2 from rfl, b0, ← fin] at b1
    norm_num at b1

end Flix
