import Verif.Lemmas.SystemSem
import Verif.Props.Effects
import Verif.Props.Bus

/-!
# C21, C22, C23, C27, C52, C53 for the whole system
-/

namespace Flix

variable {sys : Sys} {s : System} {o : SysOut} {σ : Assignment}

/-- The direct models of the system: the effects, the components, the buses. -/
def SysOut.models (o : SysOut) : List MTree := o.coll.tree :: o.comps.map CompOut.tree ++ o.buses.map (·.tree)

/-! ## C52, C53 -/

/-- **C52.**  The variables (constraints) handed to the solver are, each exactly once, those of the direct models and of all their
sub models; none is lost, none is added. -/
theorem C52 (h : systemModel sys s = .ok o) :
    o.solver.vars.Perm ((MTree.nodesAll o.models).flatMap MTree.vars) ∧ o.solver.cons.Perm ((MTree.nodesAll o.models).flatMap MTree.cons) ∧
    o.solver.vars.Nodup ∧ o.solver.cons.Nodup := by
  obtain ⟨p1, p2, n1, n2, _⟩ := collectModel_perm (system_inv h).2.2.2
  exact ⟨p1, p2, List.Nodup.of_map _ n1, List.Nodup.of_map _ n2⟩

/-- **C52 (membership).**  Whatever any model at any depth created is part of the solver model, and nothing else is. -/
theorem C52_mem (h : systemModel sys s = .ok o) :
    (∀ x, x ∈ o.solver.vars ↔ ∃ d ∈ o.models, ∃ m, MTree.Within m d ∧ x ∈ m.vars) ∧
    (∀ r, r ∈ o.solver.cons ↔ ∃ d ∈ o.models, ∃ m, MTree.Within m d ∧ r ∈ m.cons) := by
  obtain ⟨p1, p2, _⟩ := C52 h
  refine ⟨fun x => ?_, fun r => ?_⟩
  · rw [p1.mem_iff, List.mem_flatMap]
    constructor
    · rintro ⟨m, hm, hx⟩
      obtain ⟨d, hd, hw⟩ := (within_nodesAll m o.models).1 hm
      exact ⟨d, hd, m, hw, hx⟩
    · rintro ⟨d, hd, m, hw, hx⟩
      exact ⟨m, (within_nodesAll m o.models).2 ⟨d, hd, hw⟩, hx⟩
  · rw [p2.mem_iff, List.mem_flatMap]
    constructor
    · rintro ⟨m, hm, hx⟩
      obtain ⟨d, hd, hw⟩ := (within_nodesAll m o.models).1 hm
      exact ⟨d, hd, m, hw, hx⟩
    · rintro ⟨d, hd, m, hw, hx⟩
      exact ⟨m, (within_nodesAll m o.models).2 ⟨d, hd, hw⟩, hx⟩

/-- **C52 (meaning).**  The solver model is solved exactly if every element is. -/
theorem C52_solves (h : systemModel sys s = .ok o) :
    o.solver.Solves σ ↔ o.coll.tree.Solves σ ∧ (∀ c ∈ o.comps, c.tree.Solves σ) ∧ ∀ b ∈ o.buses, b.tree.Solves σ :=
  system_solves h σ

/-- **C53.**  The collection of a model succeeds exactly if no two entries have the same label; otherwise it is refused.  Two
places of the tree of models with the same label (even for equal content) count. -/
theorem C53 (direct : List MTree) (obj : List Op) :
    (∃ m, collectModel direct obj = .ok m) ↔
      (((MTree.nodesAll direct).flatMap MTree.vars).map Var.label).Nodup ∧ (((MTree.nodesAll direct).flatMap MTree.cons).map ConReq.label).Nodup := by
  constructor
  · rintro ⟨m, h⟩
    obtain ⟨p1, p2, n1, n2, _⟩ := collectModel_perm h
    exact ⟨((p1.map _).nodup_iff).1 n1, ((p2.map _).nodup_iff).1 n2⟩
  · rintro ⟨n1, n2⟩
    exact collectModel_of_nodup n1 n2

/-- **C53 (refusal).**  The error is an exception, raised before anything is solved. -/
theorem C53_refused (direct : List MTree) (obj : List Op)
    (h : ¬ ((((MTree.nodesAll direct).flatMap MTree.vars).map Var.label).Nodup ∧ (((MTree.nodesAll direct).flatMap MTree.cons).map ConReq.label).Nodup)) :
    collectModel direct obj = .error .key := by
  rw [← C53 direct obj] at h
  unfold collectModel at h ⊢
  simp only [collect_eq] at h ⊢
  split
  · split
    · exfalso; apply h
      rename_i h1 h2
      simp only [if_pos h1, if_pos h2]
      exact ⟨_, rfl⟩
    · rfl
  · rfl

/-- **C53 (unambiguous).**  In an accepted model a label names one variable and one constraint. -/
theorem C53_unambiguous (h : systemModel sys s = .ok o) :
    (∀ x ∈ o.solver.vars, ∀ y ∈ o.solver.vars, x.label = y.label → x = y) ∧
    (∀ x ∈ o.solver.cons, ∀ y ∈ o.solver.cons, x.label = y.label → x = y) := by
  obtain ⟨_, _, n1, n2, _⟩ := collectModel_perm (system_inv h).2.2.2
  exact ⟨fun x hx y hy e => List.inj_on_of_nodup_map n1 hx hy e, fun x hx y hy e => List.inj_on_of_nodup_map n2 hx hy e⟩

/-! ## C27 -/

/-- What the components feed into the bus `b` in step `t`. -/
def fedInto (σ : Assignment) (s : System) (b : String) (t : Nat) : ℚ :=
  (s.comps.map fun c => ((c.outputs.filter fun f => f.bus = b).map fun f => σ (c.label ++ "__" ++ f.label ++ "_" ++ "flow_rate") t).sum).sum

/-- What the components take from the bus `b` in step `t`. -/
def takenFrom (σ : Assignment) (s : System) (b : String) (t : Nat) : ℚ :=
  (s.comps.map fun c => ((c.inputs.filter fun f => f.bus = b).map fun f => σ (c.label ++ "__" ++ f.label ++ "_" ++ "flow_rate") t).sum).sum

/-- **C27 (whole system).**  At every bus and in every step: what all components feed in equals what all components take, up to
the excess if the bus allows it. -/
theorem C27_system (hv : sys.Valid) (h : systemModel sys s = .ok o) (hs : o.solver.Solves σ) {b : BusData} (hb : b ∈ s.buses) :
    (b.excessPenalty = none → ∀ t < sys.n, fedInto σ s b.label t = takenFrom σ s b.label t) ∧
    (∀ pen, b.excessPenalty = some pen → pen.Fits sys.n → ∀ t < sys.n,
      fedInto σ s b.label t + σ (b.label ++ "_" ++ "excess_input") t = takenFrom σ s b.label t + σ (b.label ++ "_" ++ "excess_output") t ∧
      0 ≤ σ (b.label ++ "_" ++ "excess_input") t ∧ 0 ≤ σ (b.label ++ "_" ++ "excess_output") t) := by
  obtain ⟨hc, hbs, _, _⟩ := system_inv h
  obtain ⟨ob, hob, hm⟩ := forall₂_mem_left hbs hb
  have hsol := ((system_solves h σ).1 hs).2.2 ob hob
  have f1 := fun t => busFlows_all (σ := σ) (n := sys.n) (bus := b.label) (t := t) Comp.outputs (·.outputs) (forall₂_imp' hc fun c _ oc h => (model_flowOf h).2)
  have f2 := fun t => busFlows_all (σ := σ) (n := sys.n) (bus := b.label) (t := t) Comp.inputs (·.inputs) (forall₂_imp' hc fun c _ oc h => (model_flowOf h).1)
  have e1 : ∀ t, fedInto σ s b.label t = flowSum σ (busFlows (o.comps.map (·.outputs)).flatten b.label) t := fun t => ((f1 t).1).symm
  have e2 : ∀ t, takenFrom σ s b.label t = flowSum σ (busFlows (o.comps.map (·.inputs)).flatten b.label) t := fun t => ((f2 t).1).symm
  constructor
  · intro hp t ht
    rw [e1, e2]
    exact C27_strict hm hp (f1 0).2 (f2 0).2 hsol t ht
  · intro pen hp hpf t ht
    rw [e1, e2]
    exact C27_excess hv hm hp hpf (f1 0).2 (f2 0).2 hsol t ht

/-! ## C21–C23 -/

/-- The declared values have the shapes meant: numbers or series over the horizon. -/
structure System.Fits (n : Nat) (s : System) : Prop where
  effects : ∀ e ∈ s.effects, e.Fits n
  comps : ∀ c ∈ s.comps, c.EffFits n
  buses : ∀ b ∈ s.buses, ∀ pen, b.excessPenalty = some pen → pen.Fits n

/-- Calls of a bus. -/
theorem bus_calls (hv : sys.Valid) {b : BusData} {ins outs : List Var} {ob : BusOut} (hbf : ∀ pen, b.excessPenalty = some pen → pen.Fits sys.n)
    (hin : ∀ x ∈ ins, x.length = sys.n) (hout : ∀ x ∈ outs, x.length = sys.n) (h : busModel sys b ins outs = .ok ob) :
    (∀ c ∈ ob.shares, c.WellFormed sys.n ∧ c.target = .penalty) ∧ ∀ σ, busPenalty σ ob = b.penaltyCost sys σ := by
  cases hp : b.excessPenalty with
  | none =>
    obtain ⟨_, _, e, _⟩ := bus_none h hp hin hout
    refine ⟨by rw [e]; simp, fun σ => ?_⟩
    unfold busPenalty BusData.penaltyCost
    rw [e, hp]; rfl
  | some pen =>
    obtain ⟨ein, eout, f, _, _, l1, l2, n1, n2, hff, hf, hsh, _⟩ := bus_some hv h hp (hbf pen hp) hin hout
    refine ⟨?_, fun σ => ?_⟩
    · rw [hsh]
      simp only [List.forall_mem_cons, List.not_mem_nil, false_imp_iff, implies_true, and_true]
      refine ⟨⟨rfl, Or.inl ⟨rfl, ?_⟩⟩, ⟨rfl, Or.inl ⟨rfl, ?_⟩⟩⟩
      · show f.isScalar = true ∨ f.len = ein.length
        rw [n1]; exact hff
      · show f.isScalar = true ∨ f.len = eout.length
        rw [n2]; exact hff
    · rw [(C28_charge hv h hp (hbf pen hp) hin hout σ).2]
      unfold BusData.penaltyCost
      rw [hp]
      rfl

/-- Everything that the modelled components and buses give to the collection of effects. -/
theorem elements_calls (hv : sys.Valid) (hf : s.Fits sys.n) {comps : List CompOut} {buses : List BusOut}
    (hc : List.Forall₂ (fun c oc => Comp.model sys c = .ok oc) s.comps comps)
    (hbs : List.Forall₂ (fun b ob => busModel sys b (busFlows (comps.map (·.outputs)).flatten b.label)
      (busFlows (comps.map (·.inputs)).flatten b.label) = .ok ob) s.buses buses) :
    (∀ c ∈ ((comps.map (·.shares)).flatten ++ (buses.map (·.shares)).flatten), c.WellFormed sys.n) ∧
    (∀ (σ : Assignment) (l : String) (t : Nat), t < sys.n →
      direct σ s.effects ((comps.map (·.shares)).flatten ++ (buses.map (·.shares)).flatten) .operation l t = (s.comps.map fun c => c.operation sys.width σ s.effects l t).sum) ∧
    (∀ (σ : Assignment) (l : String), direct σ s.effects ((comps.map (·.shares)).flatten ++ (buses.map (·.shares)).flatten) .invest l 0 = (s.comps.map fun c => c.investment σ s.effects l).sum) ∧
    ∀ σ : Assignment, ((((comps.map (·.shares)).flatten ++ (buses.map (·.shares)).flatten).filter fun c => decide (c.target = .penalty)).map fun c => c.share.value σ 0).sum =
      (s.buses.map fun b => b.penaltyCost sys σ).sum := by
  have f1 := (busFlows_all (σ := fun _ _ => 0) (n := sys.n) (t := 0) Comp.outputs (·.outputs) (forall₂_imp' hc fun c _ oc h => (model_flowOf h).2) (bus := ·) |>.2)
  have f2 := (busFlows_all (σ := fun _ _ => 0) (n := sys.n) (t := 0) Comp.inputs (·.inputs) (forall₂_imp' hc fun c _ oc h => (model_flowOf h).1) (bus := ·) |>.2)
  have kc := forall₂_imp' hc fun c hcm oc hh => model_calls hv (hf.comps c hcm) hh
  have kb := forall₂_imp' hbs fun b hbm ob hh => bus_calls hv (hf.buses b hbm) (f1 b.label) (f2 b.label) hh
  have wc : ∀ c ∈ (comps.map (·.shares)).flatten, c.WellFormed sys.n ∧ c.target ≠ .penalty := by
    intro c hcm
    obtain ⟨l, hl, hcl⟩ := List.mem_flatten.1 hcm
    obtain ⟨oc, hoc, rfl⟩ := List.mem_map.1 hl
    obtain ⟨_, _, hk⟩ := forall₂_mem_right kc hoc
    exact hk.1 c hcl
  have wb : ∀ c ∈ (buses.map (·.shares)).flatten, c.WellFormed sys.n ∧ c.target = .penalty := by
    intro c hcm
    obtain ⟨l, hl, hcl⟩ := List.mem_flatten.1 hcm
    obtain ⟨oc, hoc, rfl⟩ := List.mem_map.1 hl
    obtain ⟨_, _, hk⟩ := forall₂_mem_right kb hoc
    exact hk.1 c hcl
  have sumc : ∀ (g : List ShareCall → ℚ) (k : Comp → ℚ), (∀ (c : Comp) (oc : CompOut), (∀ s ∈ oc.shares, s.WellFormed sys.n ∧ s.target ≠ .penalty) ∧
    (∀ (σ : Assignment) (es : List EffectData) (l : String) (t : Nat), t < sys.n →
      direct σ es oc.shares .operation l t = c.operation sys.width σ es l t) ∧
    (∀ (σ : Assignment) (es : List EffectData) (l : String), direct σ es oc.shares .invest l 0 = c.investment σ es l) →
      g oc.shares = k c) → ((comps.map (·.shares)).map g).sum = (s.comps.map k).sum := by
    intro g k hgk
    rw [List.map_map]
    clear hbs kb wc wb f1 f2 hc
    revert kc
    generalize s.comps = cs
    generalize comps = os
    intro kc
    induction kc with
    | nil => rfl
    | cons hd _ ih =>
      simp only [List.map_cons, List.sum_cons, Function.comp]
      rw [hgk _ _ hd]
      congr 1
  refine ⟨fun c hcm => ?_, fun σ l t ht => ?_, fun σ l => ?_, fun σ => ?_⟩
  · rcases List.mem_append.1 hcm with hcm | hcm
    · exact (wc c hcm).1
    · exact (wb c hcm).1
  · rw [direct_append, direct_other _ _ _ .operation .penalty l t (fun c hcm => (wb c hcm).2) (by decide), add_zero, direct_flatten]
    exact sumc _ _ fun c oc hk => hk.2.1 σ s.effects l t ht
  · rw [direct_append, direct_other _ _ _ .invest .penalty l 0 (fun c hcm => (wb c hcm).2) (by decide), add_zero, direct_flatten]
    exact sumc _ _ fun c oc hk => hk.2.2 σ s.effects l
  · rw [List.filter_append, List.filter_eq_nil_iff.2 (fun c hcm => by simpa using (wc c hcm).2), List.nil_append,
      List.filter_eq_self.2 (fun c hcm => by simpa using (wb c hcm).2)]
    clear hc wc wb f1 f2 kc hbs
    revert kb
    generalize s.buses = bs
    generalize buses = os
    intro kb
    induction kb with
    | nil => rfl
    | cons hd _ ih =>
      simp only [List.map_cons, List.sum_cons, List.flatten_cons, List.map_append, List.sum_append]
      rw [← hd.2 σ, ih]
      rfl

/-- Everything that the collection of effects is given. -/
theorem system_calls (hv : sys.Valid) (hf : s.Fits sys.n) (h : systemModel sys s = .ok o) :
    (∀ c ∈ o.calls, c.WellFormed sys.n) ∧
    (∀ (σ : Assignment) (l : String) (t : Nat), t < sys.n →
      direct σ s.effects o.calls .operation l t = (s.comps.map fun c => c.operation sys.width σ s.effects l t).sum) ∧
    (∀ (σ : Assignment) (l : String), direct σ s.effects o.calls .invest l 0 = (s.comps.map fun c => c.investment σ s.effects l).sum) ∧
    ∀ σ : Assignment, ((o.calls.filter fun c => decide (c.target = .penalty)).map fun c => c.share.value σ 0).sum =
      (s.buses.map fun b => b.penaltyCost sys σ).sum :=
  elements_calls hv hf (system_inv h).1 (system_inv h).2.1

/-- **C21 (whole system, operation).**  In every solution the operation of an effect in a step is the sum over all components of
what was declared to cost something — flow hours, running hours, starts — plus the shares of the other effects; the operation total
is the sum over the steps. -/
theorem C21_system_operation (hv : sys.Valid) (hn : sys.n ≠ 0) (hf : s.Fits sys.n) (h : systemModel sys s = .ok o) (hs : o.solver.Solves σ)
    {e : EffectData} (he : e ∈ s.effects) :
    (∀ t < sys.n, σ (e.label ++ "__operation_operation_sum_TS") t =
      (s.comps.map fun c => c.operation sys.width σ s.effects e.label t).sum + fromOthersOp σ s.effects e.label t) ∧
    σ (e.label ++ "__operation_operation_sum") 0 = ∑ t ∈ Finset.range sys.n, σ (e.label ++ "__operation_operation_sum_TS") t := by
  obtain ⟨_, _, h3, _⟩ := system_inv h
  obtain ⟨w, d, _, _⟩ := system_calls hv hf h
  obtain ⟨a, b⟩ := C21_operation hv hn h3 hf.effects w ((system_solves h σ).1 hs).1 he
  refine ⟨fun t ht => ?_, b⟩
  rw [a t ht, ← d σ e.label t ht]
  rfl

/-- **C21 (whole system, investment and total).** -/
theorem C21_system_invest (hv : sys.Valid) (hn : sys.n ≠ 0) (hf : s.Fits sys.n) (h : systemModel sys s = .ok o) (hs : o.solver.Solves σ)
    {e : EffectData} (he : e ∈ s.effects) :
    σ (e.label ++ "__invest_invest_sum") 0 = (s.comps.map fun c => c.investment σ s.effects e.label).sum + fromOthersInv σ s.effects e.label ∧
    σ (e.label ++ "__all_all_sum") 0 = σ (e.label ++ "__operation_operation_sum") 0 + σ (e.label ++ "__invest_invest_sum") 0 := by
  obtain ⟨_, _, h3, _⟩ := system_inv h
  obtain ⟨w, _, d, _⟩ := system_calls hv hf h
  have hsc := ((system_solves h σ).1 hs).1
  refine ⟨?_, C21_total hv hn h3 hf.effects w hsc he⟩
  rw [C21_invest hv hn h3 hf.effects w hsc he, ← d σ e.label]
  rfl

/-- **C21 (whole system, penalty).** -/
theorem C21_system_penalty (hv : sys.Valid) (hn : sys.n ≠ 0) (hf : s.Fits sys.n) (h : systemModel sys s = .ok o) (hs : o.solver.Solves σ) :
    σ "Effects__penalty_penalty_sum" 0 = (s.buses.map fun b => b.penaltyCost sys σ).sum := by
  obtain ⟨_, _, h3, _⟩ := system_inv h
  obtain ⟨w, _, _, d⟩ := system_calls hv hf h
  rw [C21_penalty hv hn h3 hf.effects w ((system_solves h σ).1 hs).1, d σ]

/-- **C22 (whole system).**  The minimised value is the total of the objective effect plus the penalties of all buses. -/
theorem C22_system (hv : sys.Valid) (hn : sys.n ≠ 0) (hf : s.Fits sys.n) (h : systemModel sys s = .ok o) :
    ∃ terms e, objectiveTerms o.solver.objective = .ok terms ∧ s.effects.find? (·.isObjective) = some e ∧ ∀ σ : Assignment, o.solver.Solves σ →
      termsVal σ terms = σ (e.label ++ "__all_all_sum") 0 + (s.buses.map fun b => b.penaltyCost sys σ).sum := by
  obtain ⟨_, _, h3, h4⟩ := system_inv h
  obtain ⟨w, _, _, d⟩ := system_calls hv hf h
  obtain ⟨terms, ht⟩ := C22_translatable hv hn h3 hf.effects w
  obtain ⟨e, he, hval⟩ := C22 hv hn h3 hf.effects w ht
  refine ⟨terms, e, by rw [(collectModel_perm h4).2.2.2.2]; exact ht, he, fun σ hs => ?_⟩
  rw [hval σ ((system_solves h σ).1 hs).1, d σ]

/-! ## An example

Gas (costs, CO₂) → boiler → heat bus with excess → load with a profile. -/

def exGasOut : FlowData := { label := "Q", bus := "gas", size := .num 100, effectsPerFlowHour := [(none, .s 2), (some "co2", .s 1)] }

def exBoilerIn : FlowData := { label := "fu", bus := "gas", size := .num 50 }

def exBoilerInvest : InvestParams :=
  { fixedSize := some 10, optional := false, fixEffects := [(none, .s 7)], specificEffects := [(some "costs", .s (1 / 2)), (some "co2", .s 3)] }

def exBoilerOut : FlowData := { label := "th", bus := "heat", size := .invest exBoilerInvest }

def exLoadIn : FlowData := { label := "Q", bus := "heat", size := .num 4, fixedProfile := some (.v [1 / 2, 1, 0]) }

def exSystem : System :=
  { effects := exEffects
    comps := [.plain { label := "Gas", inputs := [], outputs := [exGasOut] },
      .converter { comp := { label := "Boiler", inputs := [exBoilerIn], outputs := [exBoilerOut] }, factors := [[("fu", .s (1 / 2)), ("th", .s 1)]] },
      .plain { label := "Load", inputs := [exLoadIn], outputs := [] }]
    buses := [{ label := "gas", excessPenalty := none }, { label := "heat", excessPenalty := some (.s 100) }] }

/-- The boiler delivers 2, 4, 1; the last step has an excess of 1. -/
def exSystemSol : Assignment := tableSol
  [("heat_excess_output", [0, 0, 1]), ("Effects__penalty_penalty_sum", [200]), ("Effects__heat__excess_output", [200]),
   ("costs__invest_invest_sum", [12]), ("costs__operation_operation_sum", [176 / 5]), ("costs__operation_operation_sum_TS", [44 / 5, 88 / 5, 44 / 5]),
   ("costs__all_all_sum", [236 / 5]), ("co2__invest_invest_sum", [30]), ("co2__operation_operation_sum", [16]),
   ("co2__operation_operation_sum_TS", [4, 8, 4]), ("co2__all_all_sum", [46]),
   ("costs__Boiler__th__fix_effects", [7]), ("costs__Boiler__th__specific_effects", [5]), ("costs__co2_operation", [4 / 5, 8 / 5, 4 / 5]),
   ("costs__Gas__Q__effects_per_flow_hour", [8, 16, 8]), ("costs__operation", [176 / 5]), ("costs__invest", [12]),
   ("co2__Boiler__th__specific_effects", [30]), ("co2__Gas__Q__effects_per_flow_hour", [4, 8, 4]), ("co2__operation", [16]), ("co2__invest", [30]),
   ("Gas__Q_flow_rate", [4, 8, 2]), ("Gas__Q_sumFlowHours", [16]), ("Boiler__fu_flow_rate", [4, 8, 2]), ("Boiler__fu_sumFlowHours", [16]),
   ("Boiler__th_flow_rate", [2, 4, 1]), ("Boiler__th_sumFlowHours", [8]), ("Boiler__th__Investment_size", [10]),
   ("Load__Q_flow_rate", [2, 4, 0]), ("Load__Q_sumFlowHours", [6])]

/-- The hypotheses of the theorems above are met. -/
theorem exSystem_ok : ∃ o, systemModel exSys exSystem = .ok o ∧ o.solver.Solves exSystemSol := by
  obtain ⟨o, h, hs⟩ := builds_and_solves (σ := exSystemSol) (r := systemModel exSys exSystem)
    (f := fun o : SysOut => MTree.node o.solver.vars o.solver.cons []) (by decide +kernel)
  exact ⟨o, h, hs.1, hs.2.1⟩

theorem exSystem_fits : exSystem.Fits exSys.n := by
  refine ⟨exEffects_fit, ?_, ?_⟩
  · simp only [exSystem, List.forall_mem_cons, List.not_mem_nil, false_imp_iff, implies_true, and_true]
    refine ⟨⟨?_, by simp [Comp.onOff], by simp⟩, ⟨?_, by simp [Comp.onOff], by simp⟩, ⟨?_, by simp [Comp.onOff], by simp⟩⟩ <;>
    simp only [Comp.flows, Comp.inputs, Comp.outputs, List.nil_append, List.append_nil, List.cons_append, List.forall_mem_cons, List.not_mem_nil,
      false_imp_iff, implies_true, and_true]
    · exact ⟨by simp [exGasOut, EffDict.Series, Num.isScalar], by simp [exGasOut], by simp [exGasOut]⟩
    · refine ⟨⟨by simp [exBoilerIn, EffDict.Series], by simp [exBoilerIn], by simp [exBoilerIn]⟩,
        ⟨by simp [exBoilerOut, EffDict.Series], by simp [exBoilerOut], ?_⟩⟩
      intro q hq
      simp only [exBoilerOut, SizeArg.invest.injEq] at hq
      subst hq
      simp [InvestParams.EffFits, exBoilerInvest, EffDict.Scalars, Num.isScalar]
    · exact ⟨by simp [exLoadIn, EffDict.Series], by simp [exLoadIn], by simp [exLoadIn]⟩
  · simp only [exSystem, List.forall_mem_cons, List.not_mem_nil, false_imp_iff, implies_true, and_true]
    refine ⟨by simp, ?_⟩
    intro pen hp
    simp only [Option.some.injEq] at hp
    subst hp
    exact Or.inl rfl

/-- A system with two flows of the same label at one component is refused. -/
example : collectModel [.node [exV "a", exV "a"] [] []] [] = .error .key := C53_refused _ _ (by decide +kernel)

end Flix
