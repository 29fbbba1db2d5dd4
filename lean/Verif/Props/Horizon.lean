import Verif.Props.System
import Verif.Lemmas.Flow

/-!
# C63: horizons of a single time step
-/

namespace Flix

/-- **C63 is violated (on/off).**  On a single step no on/off model can be built, whatever its parameters are: the variable `on`
(and the flow rate) is no time series and has no previous values. -/
theorem C63_onOff_wrong {sys : Sys} (h1 : sys.n ≤ 1) (el : String) (q : OnOffParams) (d : List (Var × Num × Num)) :
    ¬ ∃ o, onOffModel sys el q d = .ok o := by
  rintro ⟨o, h⟩
  obtain ⟨_, _, _, _, _, _, _, _, _, _, hon, _, _, _, _, _, _, _, _, hsw, _⟩ := onOff_inv h
  unfold switchConstraints at hsw
  simp only at hsw
  peel hsw with last, hl
  unfold lastPrevious at hl
  peel hl with p, hp
  unfold Var.previousValues at hp
  rw [hon] at hp
  simp only at hp
  rw [if_neg (by omega)] at hp
  cases hp

/-- **C63 is violated (flows with on/off).** -/
theorem C63_flow_wrong {sys : Sys} (h1 : sys.n ≤ 1) (el : String) (f : FlowData) (hq : f.onOff ≠ none) :
    ¬ ∃ o, flowModel sys el f = .ok o := by
  rintro ⟨o, h⟩
  obtain ⟨_, h2, _⟩ := flow_inv h
  unfold flowOnOff at h2
  cases ho : f.onOff with
  | none => exact hq ho
  | some q =>
    rw [ho] at h2
    obtain ⟨oo, hoo, _⟩ := map_ok.1 h2
    exact C63_onOff_wrong h1 _ _ _ ⟨oo, hoo⟩

/-- **C63 is violated (excess).**  A system with a bus that allows excess cannot be modelled on a single step: the penalty is
summed up, but sums of a variable that is no time series are refused by an assertion. -/
theorem C63_excess_wrong {sys : Sys} (hv : sys.Valid) (h1 : sys.n = 1) {s : System} {b : BusData} (hb : b ∈ s.buses) {pen : Num}
    (hp : b.excessPenalty = some pen) (hpf : pen.Fits 1) : ¬ ∃ o, systemModel sys s = .ok o := by
  rintro ⟨o, h⟩
  obtain ⟨hc, hbs, hcoll, _⟩ := system_inv h
  obtain ⟨ob, hob, hm⟩ := forall₂_mem_left hbs hb
  have f1 := busFlows_all (σ := fun _ _ => 0) (n := sys.n) (bus := b.label) (t := 0) Comp.outputs (·.outputs) (forall₂_imp' hc fun c _ oc h => (model_flowOf h).2)
  have f2 := busFlows_all (σ := fun _ _ => 0) (n := sys.n) (bus := b.label) (t := 0) Comp.inputs (·.inputs) (forall₂_imp' hc fun c _ oc h => (model_flowOf h).1)
  obtain ⟨ein, eout, f, _, _, _, _, n1, _, _, _, hsh, _⟩ := bus_some hv hm hp (by rw [h1]; exact hpf) f1.2 f2.2
  obtain ⟨between, addressed, trees, pt, _, _, h3, _, h5, _, h7, _⟩ := collection_inv hcoll
  have hcall : (⟨.penalty, none, b.label ++ "__excess_input", some ein, f, true⟩ : ShareCall) ∈ o.calls := by
    unfold SysOut.calls
    refine List.mem_append_right _ (List.mem_flatten.2 ⟨ob.shares, List.mem_map.2 ⟨ob, hob, rfl⟩, ?_⟩)
    rw [hsh]; simp
  unfold samTree at h7
  peel h7 with shares, h8
  rw [mapM_ok] at h8
  have hmem : (⟨b.label ++ "__excess_input", some ein, f, true⟩ : Share) ∈ sharesFor .penalty "" (between.flatten ++ addressed) := by
    rw [sharesFor_append, (sharesFor_between h3 "").2.2, List.nil_append, sharesFor_penalty h5]
    refine List.mem_map.2 ⟨_, List.mem_filter.2 ⟨hcall, ?_⟩, rfl⟩
    simp
  obtain ⟨r, _, hr⟩ := forall₂_mem_left h8 hmem
  peel hr with r', hr'
  unfold singleShare at hr'
  peel hr' with sv, hsv
  unfold shareVar at hsv
  simp only [n1, h1] at hsv
  simp at hsv

/-- **C63 (what holds).**  A flow without on/off and investment can be modelled on every horizon, also on a single step; its
meaning is that of C18, C37 and C38, which are stated for every horizon.  Missing: on/off, excess (both wrong, see above). -/
theorem C63_flow_partial {sys : Sys} (el : String) (f : FlowData) (h1 : f.onOff = none) (h2 : ∀ q, f.size ≠ .invest q)
    (h3 : f.effectsPerFlowHour = []) : ∃ o, flowModel sys el f = .ok o := by
  have hr : ∃ x, flowRateVar sys el f = .ok x := by
    unfold flowRateVar
    rw [h1]
    simp only [mkVar_free]
    exact ⟨_, rfl⟩
  obtain ⟨x, hx⟩ := hr
  have hi : ∀ on, flowInvest sys el f x on = .ok none := by
    intro on
    unfold flowInvest FlowData.effSize
    cases hs : f.size with
    | unset => rfl
    | num x => rfl
    | invest q => exact absurd hs (h2 q)
  unfold flowModel flowOnOff
  rw [hx, h1]
  simp only [ok_bind, Option.map_none, hi, mkVar_free, h3]
  exact ⟨_, rfl⟩

/-! A single step: gas for a load, an investment, costs, no excess. -/

def exOne : Sys := { cfg := exCfg, n := 1, dt := [2], prevDt := .s 1, total := 2 }

def exOneSystem : System :=
  { effects := [{ label := "costs", isStandard := true, isObjective := true }]
    comps := [.plain { label := "Gas", inputs := [], outputs := [{ exGasOut with effectsPerFlowHour := [(none, .s 3)] }] },
      .plain { label := "Load", inputs := [{ label := "Q", bus := "gas", size := .num 4 }], outputs := [] }]
    buses := [{ label := "gas", excessPenalty := none }] }

example : ∃ o, systemModel exOne exOneSystem = .ok o ∧ o.solver.Solves (tableSol
    [("Gas__Q_flow_rate", [4]), ("Gas__Q_sumFlowHours", [8]), ("Load__Q_flow_rate", [4]), ("Load__Q_sumFlowHours", [8]),
     ("costs__Gas__Q__effects_per_flow_hour", [24]), ("costs__operation_operation_sum_TS", [24]), ("costs__operation_operation_sum", [24]),
     ("costs__operation", [24]), ("costs__all_all_sum", [24])]) := by
  obtain ⟨o, h, hs⟩ := builds_and_solves (σ := tableSol
    [("Gas__Q_flow_rate", [4]), ("Gas__Q_sumFlowHours", [8]), ("Load__Q_flow_rate", [4]), ("Load__Q_sumFlowHours", [8]),
     ("costs__Gas__Q__effects_per_flow_hour", [24]), ("costs__operation_operation_sum_TS", [24]), ("costs__operation_operation_sum", [24]),
     ("costs__operation", [24]), ("costs__all_all_sum", [24])]) (r := systemModel exOne exOneSystem)
    (f := fun o : SysOut => MTree.node o.solver.vars o.solver.cons []) (by decide +kernel)
  exact ⟨o, h, hs.1, hs.2.1⟩

/-- The same with a price for excess at the bus meets the hypotheses of `C63_excess_wrong`. -/
example : exOne.Valid ∧ (⟨"gas", some (.s 5)⟩ : BusData) ∈ [(⟨"gas", some (.s 5)⟩ : BusData)] := by
  refine ⟨⟨rfl, by simp [exOne], by norm_num [exOne], by norm_num [exOne, exCfg]⟩, by simp⟩

end Flix
