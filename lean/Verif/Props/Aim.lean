import Verif.Spec.Aim
import Verif.Props.EffLimits

/-!
# C128: the choice of the objective changes the objective only
-/

namespace Flix

variable {sys : Sys} {s : System} {o o' : SysOut} {x y : String}

theorem names_aim (es : List EffectData) (x : String) : names (es.map (EffectData.aim x)) = names es := by
  funext l k
  cases k with
  | some e => rfl
  | none =>
    unfold names
    rw [List.find?_map]
    have hc : ((fun x : EffectData => x.isStandard) ∘ EffectData.aim x) = (fun x => x.isStandard) := rfl
    rw [hc]
    cases es.find? (·.isStandard) <;> rfl

theorem aim_contrib (x : String) (s : System) : (s.aim x).opOf sys = s.opOf sys ∧ (s.aim x).invOf = s.invOf := same_contrib s (names_aim s.effects x)

theorem aim_fits (hf : s.Fits sys.n) : (s.aim x).Fits sys.n := by
  refine ⟨fun e he => ?_, hf.comps, hf.buses⟩
  obtain ⟨q, hq, rfl⟩ := List.mem_map.1 he
  have := hf.effects q hq
  exact ⟨this.op, this.inv, this.minH, this.maxH⟩

/-- **C128, the objective.**  It is the amount of the effect chosen, with the penalties. -/
theorem C128_objective (r : Aims sys s x y o o') {σ : Assignment} (hs : o.solver.Solves σ) {a : ℚ} : o.Costs σ a ↔ a = s.amount sys x σ := by
  obtain ⟨terms, e, ht, he, hc⟩ := solution_cost r.valid r.steps (aim_fits r.fits) r.model
  have el : e.label = x := by
    obtain ⟨q, _, rfl⟩ := List.mem_map.1 (List.mem_of_find?_eq_some he)
    have := List.find?_some he
    exact of_decide_eq_true this
  subst el
  have v : termsVal σ terms = s.amount sys e.label σ := hc σ hs
  constructor
  · rintro ⟨t, h1, rfl⟩
    rw [ht] at h1
    cases h1
    exact v
  · rintro rfl
    exact ⟨terms, ht, v⟩

/-- **C128.**  Every solution with one effect as the objective is, with the same operation, sizes and effects, a solution with any other. -/
theorem C128 (r : Aims sys s x y o o') {σ : Assignment} (hs : o.solver.Solves σ) :
    ∃ σ', o'.solver.Solves σ' ∧ (∀ l, l ∉ o'.coll.tree.labels → σ' l = σ l) ∧
      (∀ e ∈ s.effects, σ' (e.label ++ "__operation_operation_sum_TS") = σ (e.label ++ "__operation_operation_sum_TS") ∧ investmentOf e.label σ' = investmentOf e.label σ) ∧
      ∀ e ∈ s.effects, s.amount sys e.label σ' = s.amount sys e.label σ := by
  obtain ⟨hv, hn, hf, h, h'⟩ := r
  obtain ⟨tb, ta⟩ := solution_totals hv hn (aim_fits hf) h hs
  obtain ⟨_, s2, s3⟩ := (system_solves h σ).1 hs
  have hbus := (buses_iff hv (aim_fits hf) h σ).1 s3
  obtain ⟨σ', g1, g2, g3⟩ := solution_complete hv hn (aim_fits hf) h' (σ := σ) (by rw [same_comps (s := s.aim x) (s' := s.aim y) rfl h h']; exact s2) hbus (T := ⟨fun l t => σ (opTSL l) t, fun l => σ (invSumL l) 0⟩) (by
      rw [(aim_contrib (sys := sys) y s).1, (aim_contrib (sys := sys) y s).2]
      rw [(aim_contrib (sys := sys) x s).1, (aim_contrib (sys := sys) x s).2] at tb
      intro e he
      obtain ⟨q, hq, rfl⟩ := List.mem_map.1 he
      have := tb _ (List.mem_map_of_mem hq)
      simp only [System.aim, List.map_map] at this ⊢
      exact this) (by
      intro e he
      obtain ⟨q, hq, rfl⟩ := List.mem_map.1 he
      have := ta _ (List.mem_map_of_mem hq)
      exact ⟨this.minOperation, this.maxOperation, this.minInvest, this.maxInvest, this.minTotal, this.maxTotal, this.minPerHour, this.maxPerHour⟩)
  have tot : ∀ e ∈ s.effects, σ' (e.label ++ "__operation_operation_sum_TS") = σ (e.label ++ "__operation_operation_sum_TS") ∧ investmentOf e.label σ' = investmentOf e.label σ :=
    fun e he => by
      have := g3 (e.aim y) (List.mem_map_of_mem (f := EffectData.aim y) he)
      exact this
  refine ⟨σ', g1, g2, tot, fun e he => ?_⟩
  have pen : (s.buses.map fun b => b.penaltyCost sys σ').sum = (s.buses.map fun b => b.penaltyCost sys σ).sum := penalty_same hv (aim_fits hf) h' g2
  obtain ⟨u1, u2⟩ := tot e he
  unfold System.amount operationOf
  rw [pen, u1, u2]

theorem Aims.symm (r : Aims sys s x y o o') : Aims sys s y x o' o := ⟨r.valid, r.steps, r.fits, r.model', r.model⟩

/-- **C128, what an optimum is.**  It has the least amount of the chosen effect among all solutions, whatever the objective of these is. -/
theorem C128_least (r : Aims sys s x y o o') (hx : ∃ e ∈ s.effects, e.label = x) {σ τ : Assignment} (ho : o.Optimal σ) (hτ : o'.solver.Solves τ) : s.amount sys x σ ≤ s.amount sys x τ := by
  obtain ⟨e, he, rfl⟩ := hx
  obtain ⟨τ', t1, -, -, t4⟩ := C128 r.symm hτ
  obtain ⟨hs, terms, q1, q2⟩ := ho
  rw [← t4 e he, ← (C128_objective r hs).1 ⟨terms, q1, rfl⟩, ← (C128_objective r t1).1 ⟨terms, q1, rfl⟩]
  exact q2 τ' t1

/-- **C128, the price of the other objective.**  The optimum for one effect has no more of it than the optimum for the other, and no less of the other. -/
theorem C128_tradeoff (r : Aims sys s x y o o') (hx : ∃ e ∈ s.effects, e.label = x) (hy : ∃ e ∈ s.effects, e.label = y) {σ τ : Assignment} (ho : o.Optimal σ) (ho' : o'.Optimal τ) :
    s.amount sys x σ ≤ s.amount sys x τ ∧ s.amount sys y τ ≤ s.amount sys y σ :=
  ⟨C128_least r hx ho ho'.1, C128_least r.symm hy ho' ho.1⟩

/-! ## A cheap generator with emissions and a dear one without -/

def exDirtyGen : FlowData := { label := "Q", bus := "heat", size := .num 5, effectsPerFlowHour := [(some "costs", .s 1), (some "CO2", .s 5)] }

def exAim : System :=
  { effects := [{ label := "costs", isStandard := true, isObjective := true }, { label := "CO2" }]
    comps := [.plain { label := "Gen", inputs := [], outputs := [exDirtyGen] }, .plain { label := "Reserve", inputs := [], outputs := [exBillGen 9] },
      .plain { label := "Load", inputs := [exBillLoad 1], outputs := [] }]
    buses := [{ label := "heat", excessPenalty := none }] }

/-- The cheap generator alone. -/
def exAimCheap : Assignment := tableSol
  [("Gen__Q_flow_rate", [2, 2, 2]), ("Gen__Q_sumFlowHours", [8]), ("Load__Q_flow_rate", [2, 2, 2]), ("Load__Q_sumFlowHours", [8]),
   ("costs__Gen__Q__effects_per_flow_hour", [2, 2, 4]), ("CO2__Gen__Q__effects_per_flow_hour", [10, 10, 20]), ("costs__Load__Q__effects_per_flow_hour", [2, 2, 4]),
   ("costs__operation_operation_sum_TS", [4, 4, 8]), ("costs__operation_operation_sum", [16]), ("costs__all_all_sum", [16]), ("costs__operation", [16]),
   ("CO2__operation_operation_sum_TS", [10, 10, 20]), ("CO2__operation_operation_sum", [40]), ("CO2__all_all_sum", [40]), ("CO2__operation", [40])]

/-- The clean generator alone. -/
def exAimClean : Assignment := tableSol
  [("Reserve__Q_flow_rate", [2, 2, 2]), ("Reserve__Q_sumFlowHours", [8]), ("Load__Q_flow_rate", [2, 2, 2]), ("Load__Q_sumFlowHours", [8]),
   ("costs__Reserve__Q__effects_per_flow_hour", [18, 18, 36]), ("costs__Load__Q__effects_per_flow_hour", [2, 2, 4]),
   ("costs__operation_operation_sum_TS", [20, 20, 40]), ("costs__operation_operation_sum", [80]), ("costs__all_all_sum", [80]), ("costs__operation", [80])]

theorem exDirtyGen_ok : exDirtyGen.Fits exSys.n := by
  refine ⟨Or.inl rfl, Or.inl rfl, ?_, ?_⟩ <;> simp [exDirtyGen]

theorem exDirtyGen_forward : exDirtyGen.Forward exSys := by
  refine ⟨fun t ht => ?_, fun x hx => ?_, fun q hq => ?_⟩
  · norm_num [exDirtyGen, FlowData.relBounds, Num.at]
  · simp [exDirtyGen] at hx
    rw [← hx]
    norm_num
  · simp [exDirtyGen] at hq

theorem exAim_fits : exAim.Fits exSys.n := by
  refine ⟨?_, ?_, ?_⟩
  · simp only [exAim, List.forall_mem_cons, List.not_mem_nil, false_imp_iff, implies_true, and_true]
    constructor <;> constructor <;> simp
  · simp only [exAim, List.forall_mem_cons, List.not_mem_nil, false_imp_iff, implies_true, and_true]
    refine ⟨⟨?_, by simp [Comp.onOff], by simp⟩, ⟨?_, by simp [Comp.onOff], by simp⟩, ⟨?_, by simp [Comp.onOff], by simp⟩⟩
    all_goals
      simp only [Comp.flows, Comp.inputs, Comp.outputs, List.nil_append, List.append_nil, List.forall_mem_cons, List.not_mem_nil, false_imp_iff, implies_true, and_true]
    · exact ⟨by simp [exDirtyGen, EffDict.Series, Num.isScalar], by simp [exDirtyGen], by simp [exDirtyGen]⟩
    · exact ⟨by simp [exBillGen, EffDict.Series, Num.isScalar], by simp [exBillGen], by simp [exBillGen]⟩
    · exact ⟨by simp [exBillLoad, EffDict.Series, Num.isScalar], by simp [exBillLoad], by simp [exBillLoad]⟩
  · simp [exAim]

/-- What a solution costs and emits. -/
theorem exAim_amounts (h : systemModel exSys (exAim.aim x) = .ok o) {σ : Assignment} (hs : o.solver.Solves σ) :
    exAim.amount exSys "costs" σ = ∑ t ∈ Finset.range 3, exSys.width t * (σ "Gen__Q_flow_rate" t + 9 * σ "Reserve__Q_flow_rate" t + σ "Load__Q_flow_rate" t) ∧
    exAim.amount exSys "CO2" σ = ∑ t ∈ Finset.range 3, exSys.width t * (5 * σ "Gen__Q_flow_rate" t) := by
  obtain ⟨tb, -⟩ := solution_totals exSys_valid (by decide) (aim_fits exAim_fits) h hs
  rw [(aim_contrib (sys := exSys) x exAim).1, (aim_contrib (sys := exSys) x exAim).2] at tb
  obtain ⟨u1, u2⟩ := tb (EffectData.aim x { label := "costs", isStandard := true, isObjective := true }) (by simp [exAim, System.aim])
  obtain ⟨v1, v2⟩ := tb (EffectData.aim x { label := "CO2" }) (by simp [exAim, System.aim])
  have op : ∀ t < 3, σ ("costs" ++ "__operation_operation_sum_TS") t = exSys.width t * (σ "Gen__Q_flow_rate" t + 9 * σ "Reserve__Q_flow_rate" t + σ "Load__Q_flow_rate" t) := by
    intro t ht
    rw [show σ ("costs" ++ "__operation_operation_sum_TS") t = _ from u1 t ht]
    simp [exAim, System.aim, EffectData.aim, System.opOf, Comp.operation, Comp.flows, Comp.inputs, Comp.outputs, Comp.onOff, Comp.label, flowOperation, onOffOperation, effVal, names, exBillGen, exBillLoad, exDirtyGen,
      Num.at, rateL]
    ring
  have op' : ∀ t < 3, σ ("CO2" ++ "__operation_operation_sum_TS") t = exSys.width t * (5 * σ "Gen__Q_flow_rate" t) := by
    intro t ht
    rw [show σ ("CO2" ++ "__operation_operation_sum_TS") t = _ from v1 t ht]
    simp [exAim, System.aim, EffectData.aim, System.opOf, Comp.operation, Comp.flows, Comp.inputs, Comp.outputs, Comp.onOff, Comp.label, flowOperation, onOffOperation, effVal, names, exBillGen, exBillLoad, exDirtyGen,
      Num.at, rateL]
    ring
  have inv : investmentOf "costs" σ = 0 := by
    rw [show investmentOf "costs" σ = _ from u2]
    simp [exAim, System.aim, EffectData.aim, System.invOf, Comp.investment, Comp.flows, Comp.inputs, Comp.outputs, flowInvestment, exBillGen, exBillLoad, exDirtyGen]
  have inv' : investmentOf "CO2" σ = 0 := by
    rw [show investmentOf "CO2" σ = _ from v2]
    simp [exAim, System.aim, EffectData.aim, System.invOf, Comp.investment, Comp.flows, Comp.inputs, Comp.outputs, flowInvestment, exBillGen, exBillLoad, exDirtyGen]
  have pen : (exAim.buses.map fun b => b.penaltyCost exSys σ).sum = 0 := by simp [exAim, BusData.penaltyCost]
  constructor
  · unfold System.amount operationOf
    rw [pen, inv, show exSys.n = 3 from rfl, Finset.sum_congr rfl fun t ht => op t (Finset.mem_range.1 ht), add_zero, add_zero]
  · unfold System.amount operationOf
    rw [pen, inv', show exSys.n = 3 from rfl, Finset.sum_congr rfl fun t ht => op' t (Finset.mem_range.1 ht), add_zero, add_zero]

/-- Generator and reserve cover the load. -/
theorem exAim_balance (h : systemModel exSys (exAim.aim x) = .ok o) {σ : Assignment} (hs : o.solver.Solves σ) :
    ∀ t < exSys.n, σ "Gen__Q_flow_rate" t + σ "Reserve__Q_flow_rate" t = σ "Load__Q_flow_rate" t ∧ 0 ≤ σ "Gen__Q_flow_rate" t ∧ 0 ≤ σ "Reserve__Q_flow_rate" t ∧ σ "Load__Q_flow_rate" t = 2 := by
  intro t ht
  have bal := (C27_system exSys_valid h hs (b := { label := "heat", excessPenalty := none }) (by simp [exAim, System.aim])).1 rfl t ht
  have big : 0 ≤ exSys.cfg.big := by norm_num [exSys, exCfg]
  obtain ⟨oc, hoc, hm⟩ := forall₂_mem_left (system_inv h).1 (show Comp.plain { label := "Reserve", inputs := [], outputs := [exBillGen 9] } ∈ _ by simp [exAim, System.aim])
  have pos := rate_nonneg exSys_valid big hm (((system_solves h σ).1 hs).2.1 oc hoc) (x := exBillGen 9) (by simp [Comp.flows, Comp.inputs, Comp.outputs]) (exBillGen_ok 9).1 (exBill_forward 9) t ht
  obtain ⟨od, hod, hn⟩ := forall₂_mem_left (system_inv h).1 (show Comp.plain { label := "Gen", inputs := [], outputs := [exDirtyGen] } ∈ _ by simp [exAim, System.aim])
  have pos' := rate_nonneg exSys_valid big hn (((system_solves h σ).1 hs).2.1 od hod) (x := exDirtyGen) (by simp [Comp.flows, Comp.inputs, Comp.outputs]) exDirtyGen_ok exDirtyGen_forward t ht
  obtain ⟨ol, hol, hl⟩ := forall₂_mem_left (system_inv h).1 (show Comp.plain { label := "Load", inputs := [exBillLoad 1], outputs := [] } ∈ _ by simp [exAim, System.aim])
  have sol := ((comp_solves hl σ).2 (((system_solves h σ).1 hs).2.1 ol hol)).1
  obtain ⟨p, hp, _, hfm⟩ := forall₂_mem_left (comp_inv hl).1 (List.mem_singleton.2 rfl)
  have e : fillOnOff { label := "Load", inputs := [exBillLoad 1], outputs := [] } (exBillLoad 1) = exBillLoad 1 := rfl
  rw [e] at hfm
  have rows := (flow_iff exSys_valid (exBillLoad_ok 1).1 hfm σ).1 (sol p (List.mem_append_left _ hp))
  have lo := rows.lower rfl t ht
  have hi := rows.upper rfl t ht
  rw [(flowRate_ok (flow_inv hfm).1).1] at lo hi
  have v : ((exBillLoad 1).absBounds exSys.cfg).1.at t = 2 ∧ ((exBillLoad 1).absBounds exSys.cfg).2.at t = 2 := by
    constructor <;> norm_num [exBillLoad, FlowData.absBounds, FlowData.relBounds, FlowData.effSize, pyOr, Num.at, Num.map]
  rw [v.1] at lo
  rw [v.2] at hi
  have load : σ "Load__Q_flow_rate" t = 2 := le_antisymm hi lo
  simp [fedInto, takenFrom, exAim, System.aim, Comp.inputs, Comp.outputs, Comp.label, exBillGen, exBillLoad, exDirtyGen, rateL] at bal pos pos'
  exact ⟨by linarith, pos', pos, load⟩

/-- The cheapest solution costs 16 and emits 40, the cleanest costs 80 and emits nothing. -/
theorem exAim_optima : ∃ o o', Aims exSys exAim "costs" "CO2" o o' ∧ o.Optimal exAimCheap ∧ o'.Optimal exAimClean ∧ exAim.amount exSys "costs" exAimCheap = 16 ∧
    exAim.amount exSys "costs" exAimClean = 80 ∧ exAim.amount exSys "CO2" exAimCheap = 40 ∧ exAim.amount exSys "CO2" exAimClean = 0 := by
  obtain ⟨o, h, hs⟩ := builds_and_solves (σ := exAimCheap) (r := systemModel exSys (exAim.aim "costs")) (f := fun o : SysOut => MTree.node o.solver.vars o.solver.cons []) (by decide +kernel)
  obtain ⟨o', h', hs'⟩ := builds_and_solves (σ := exAimClean) (r := systemModel exSys (exAim.aim "CO2")) (f := fun o : SysOut => MTree.node o.solver.vars o.solver.cons []) (by decide +kernel)
  have r : Aims exSys exAim "costs" "CO2" o o' := ⟨exSys_valid, by decide, exAim_fits, h, h'⟩
  have s1 : o.solver.Solves exAimCheap := ⟨hs.1, hs.2.1⟩
  have s2 : o'.solver.Solves exAimClean := ⟨hs'.1, hs'.2.1⟩
  have a1 : exAim.amount exSys "costs" exAimCheap = 16 := by rw [(exAim_amounts h s1).1]; decide +kernel
  have a2 : exAim.amount exSys "costs" exAimClean = 80 := by rw [(exAim_amounts h' s2).1]; decide +kernel
  have a3 : exAim.amount exSys "CO2" exAimCheap = 40 := by rw [(exAim_amounts h s1).2]; decide +kernel
  have a4 : exAim.amount exSys "CO2" exAimClean = 0 := by rw [(exAim_amounts h' s2).2]; decide +kernel
  have p : o.Optimal exAimCheap := by
    obtain ⟨terms, ht, v⟩ := (C128_objective r s1).2 a1.symm
    refine ⟨s1, terms, ht, fun τ hτ => ?_⟩
    rw [v, (C128_objective r hτ).1 ⟨terms, ht, rfl⟩, (exAim_amounts h hτ).1, ← a1, (exAim_amounts h s1).1]
    refine Finset.sum_le_sum fun t ht => mul_le_mul_of_nonneg_left ?_ (exSys_valid.width_pos (Finset.mem_range.1 ht)).le
    have ht : t < exSys.n := Finset.mem_range.1 ht
    have q := exAim_balance h s1 t ht
    have q' := exAim_balance h hτ t ht
    have z : exAimCheap "Reserve__Q_flow_rate" t = 0 := by simp [exAimCheap, tableSol, List.lookup]
    linarith [q.1, q.2.2.2, q'.1, q'.2.2.1, q'.2.2.2]
  have p' : o'.Optimal exAimClean := by
    obtain ⟨terms, ht, v⟩ := (C128_objective r.symm s2).2 a4.symm
    refine ⟨s2, terms, ht, fun τ hτ => ?_⟩
    rw [v, (C128_objective r.symm hτ).1 ⟨terms, ht, rfl⟩, (exAim_amounts h' hτ).2]
    refine Finset.sum_nonneg fun t ht => mul_nonneg (exSys_valid.width_pos (Finset.mem_range.1 ht)).le ?_
    linarith [(exAim_balance h' hτ t (Finset.mem_range.1 ht)).2.1]
  exact ⟨o, o', r, p, p', a1, a2, a3, a4⟩

/-- The hypotheses of `C128`, `C128_objective`, `C128_least` and `C128_tradeoff` are met. -/
example : ∃ o o' σ τ, Aims exSys exAim "costs" "CO2" o o' ∧ o.Optimal σ ∧ o'.Optimal τ ∧ exAim.amount exSys "costs" σ = 16 ∧ exAim.amount exSys "costs" τ = 80 ∧
    exAim.amount exSys "CO2" σ = 40 ∧ exAim.amount exSys "CO2" τ = 0 ∧ exAim.amount exSys "costs" σ ≤ exAim.amount exSys "costs" τ ∧ exAim.amount exSys "CO2" τ ≤ exAim.amount exSys "CO2" σ := by
  obtain ⟨o, o', r, p, p', a1, a2, a3, a4⟩ := exAim_optima
  obtain ⟨c1, c2⟩ := C128_tradeoff r ⟨{ label := "costs", isStandard := true, isObjective := true }, by simp [exAim], rfl⟩ ⟨{ label := "CO2" }, by simp [exAim], rfl⟩ p p'
  exact ⟨o, o', _, _, r, p, p', a1, a2, a3, a4, c1, c2⟩

end Flix
