import Verif.Spec.EffCap
import Verif.Props.Aim

/-!
# C129: a cap on an effect can be kept exactly if it is not below the least amount of it
-/

namespace Flix

variable {sys : Sys} {s : System} {o o' oc : SysOut} {x y : String} {m : ℚ} {L : String → EffLimits}

theorem limit_aim (s : System) (L : String → EffLimits) (x : String) : (s.limit L).aim x = (s.aim x).limit L := by
  unfold System.limit System.aim
  simp only [List.map_map]
  rfl

theorem capped_fits (hf : (s.limit L).Fits sys.n) : (s.limit (cappedAt y m L)).Fits sys.n := by
  refine ⟨fun e he => ?_, hf.comps, hf.buses⟩
  obtain ⟨q, hq, rfl⟩ := List.mem_map.1 he
  have := hf.effects _ (List.mem_map_of_mem hq)
  by_cases h : q.label = y
  · subst h
    have e : cappedAt q.label m L q.label = { L q.label with maxTotal := some m } := if_pos rfl
    rw [e]
    exact ⟨this.op, this.inv, this.minH, this.maxH⟩
  · have e : cappedAt y m L q.label = L q.label := if_neg h
    rw [e]
    exact this

theorem Capped.aims (r : Capped sys s L x y m o o' oc) : Aims sys (s.limit L) x y o o' := ⟨r.valid, r.steps, r.fits, r.model, r.model'⟩

theorem Capped.relimited (r : Capped sys s L x y m o o' oc) : Relimited sys (s.aim x) L (cappedAt y m L) o oc := by
  refine ⟨r.valid, r.steps, ?_, ?_, ?_, ?_⟩
  · rw [← limit_aim]; exact aim_fits r.fits
  · rw [← limit_aim]; exact aim_fits (capped_fits r.fits)
  · rw [← limit_aim]; exact r.model
  · rw [← limit_aim]; exact r.capped

theorem Capped.amount (r : Capped sys s L x y m o o' oc) (l : String) (σ : Assignment) : s.amount sys l σ = operationOf sys l σ + investmentOf l σ := by
  have : (s.buses.map fun b => b.penaltyCost sys σ).sum = 0 := by
    refine List.sum_eq_zero fun v hv => ?_
    obtain ⟨b, hb, rfl⟩ := List.mem_map.1 hv
    unfold BusData.penaltyCost
    rw [r.exact b hb]
  unfold System.amount
  rw [this, add_zero]

/-- With the cap all other limits remain. -/
theorem Capped.tighter (r : Capped sys s L x y m o o' oc) (l : String) : (cappedAt y m L l).Tighter sys.n (L l) := by
  by_cases h : l = y
  · subst h
    have e : cappedAt l m L l = { L l with maxTotal := some m } := if_pos rfl
    rw [e]
    refine ⟨fun a h => ⟨a, h, le_rfl⟩, fun a h => ⟨a, h, le_rfl⟩, fun a h => ⟨a, h, le_rfl⟩, fun a h => ⟨a, h, le_rfl⟩, fun a h => ⟨a, h, fun _ _ => le_rfl⟩, fun a h => ⟨a, h, fun _ _ => le_rfl⟩,
      fun a h => ⟨a, h, le_rfl⟩, fun a h => ?_⟩
    rw [r.uncapped] at h
    cases h
  · have e : cappedAt y m L l = L l := if_neg h
    rw [e]
    exact ⟨fun a h => ⟨a, h, le_rfl⟩, fun a h => ⟨a, h, le_rfl⟩, fun a h => ⟨a, h, le_rfl⟩, fun a h => ⟨a, h, le_rfl⟩, fun a h => ⟨a, h, fun _ _ => le_rfl⟩, fun a h => ⟨a, h, fun _ _ => le_rfl⟩,
      fun a h => ⟨a, h, le_rfl⟩, fun a h => ⟨a, h, le_rfl⟩⟩

/-- A solution without the cap keeps it if it has no more than `m` of the effect. -/
theorem Capped.keeps (r : Capped sys s L x y m o o' oc) {σ : Assignment} (hs : o.solver.Solves σ) (hm : s.amount sys y σ ≤ m) : (s.aim x).Keeps sys (cappedAt y m L) σ := by
  intro e he
  have k := (C127 r.relimited hs).1 e he
  by_cases h : e.label = y
  · rw [h] at k ⊢
    have q : cappedAt y m L y = { L y with maxTotal := some m } := if_pos rfl
    rw [q]
    refine ⟨k.minOperation, k.maxOperation, k.minInvest, k.maxInvest, k.minPerHour, k.maxPerHour, k.minTotal, fun a ha => ?_⟩
    cases ha
    rw [← r.amount]
    exact hm
  · have q : cappedAt y m L e.label = L e.label := if_neg h
    rw [q]
    exact k

/-- **C129.**  There is a solution with at most `m` of an effect exactly if `m` is not below the least amount of it. -/
theorem C129 (r : Capped sys s L x y m o o' oc) {τ : Assignment} (ho : o'.Optimal τ) : (∃ σ, oc.solver.Solves σ) ↔ s.amount sys y τ ≤ m := by
  have there : ∃ e ∈ (s.limit L).effects, e.label = y := by
    obtain ⟨e, he, rfl⟩ := r.there
    exact ⟨e.limit (L e.label), List.mem_map_of_mem (f := fun e : EffectData => e.limit (L e.label)) he, rfl⟩
  constructor
  · rintro ⟨σ, hs⟩
    obtain ⟨k, back⟩ := C127 r.relimited.symm hs
    obtain ⟨σ₁, s1, -, s3, -⟩ := back fun e he => (k e he).mono r.valid (r.tighter e.label)
    have le : s.amount sys y τ ≤ s.amount sys y σ₁ := C128_least r.aims.symm there ho s1
    obtain ⟨e, he, hl⟩ := r.there
    have h := k (e.aim x) (List.mem_map_of_mem (f := EffectData.aim x) he)
    have h3 := s3 (e.aim x) (List.mem_map_of_mem (f := EffectData.aim x) he)
    rw [show (e.aim x).label = y from hl] at h h3
    have cap := h.maxTotal m (by rw [show cappedAt y m L y = { L y with maxTotal := some m } from if_pos rfl])
    refine le.trans ?_
    rw [r.amount]
    unfold operationOf at cap ⊢
    rw [h3.1, h3.2]
    exact cap
  · intro hm
    obtain ⟨σ, s1, -, -, s4⟩ := C128 r.aims.symm ho.1
    obtain ⟨e, he, hl⟩ := there
    have a : s.amount sys y σ = s.amount sys y τ := by
      have := s4 e he
      rw [hl] at this
      exact this
    obtain ⟨σ', t1, -⟩ := (C127 r.relimited s1).2 (r.keeps s1 (by rw [a]; exact hm))
    exact ⟨σ', t1⟩

/-- **C129, a loose cap.**  An optimum for `x` that has no more than `m` of `y` anyway remains one under the cap, at the same cost. -/
theorem C129_loose (r : Capped sys s L x y m o o' oc) {σ : Assignment} {a : ℚ} (ho : o.Optimal σ) (ha : o.Costs σ a) (hm : s.amount sys y σ ≤ m) :
    ∃ σ', oc.Optimal σ' ∧ (∀ l, l ∉ oc.coll.tree.labels → σ' l = σ l) ∧ oc.Costs σ' a :=
  C127_slack r.relimited (fun e _ => r.tighter e.label) ho ha (r.keeps ho.1 hm)

/-- **C129, the curve of least costs.**  A higher cap never makes the cheapest solution dearer. -/
theorem C129_falling {m' : ℚ} {oc' : SysOut} (r : Capped sys s L x y m o o' oc) (r' : Capped sys s L x y m' o o' oc') (hm : m ≤ m') {σ σ' : Assignment} {a a' : ℚ} (ho : oc.Optimal σ)
    (ho' : oc'.Optimal σ') (ha : oc.Costs σ a) (ha' : oc'.Costs σ' a') : a' ≤ a := by
  have q : Relimited sys (s.aim x) (cappedAt y m' L) (cappedAt y m L) oc' oc := ⟨r.valid, r.steps, r'.relimited.fits', r.relimited.fits', r'.relimited.model', r.relimited.model'⟩
  refine C127_tighter q (fun e _ => ?_) ho' ho.1 ha' ha
  generalize e.label = l
  by_cases h : l = y
  · subst h
    rw [show cappedAt l m L l = { L l with maxTotal := some m } from if_pos rfl, show cappedAt l m' L l = { L l with maxTotal := some m' } from if_pos rfl]
    refine ⟨fun a h => ⟨a, h, le_rfl⟩, fun a h => ⟨a, h, le_rfl⟩, fun a h => ⟨a, h, le_rfl⟩, fun a h => ⟨a, h, le_rfl⟩, fun a h => ⟨a, h, fun _ _ => le_rfl⟩, fun a h => ⟨a, h, fun _ _ => le_rfl⟩,
      fun a h => ⟨a, h, le_rfl⟩, fun a h => ?_⟩
    cases h
    exact ⟨m, rfl, hm⟩
  · rw [show cappedAt y m L l = L l from if_neg h, show cappedAt y m' L l = L l from if_neg h]
    exact ⟨fun a h => ⟨a, h, le_rfl⟩, fun a h => ⟨a, h, le_rfl⟩, fun a h => ⟨a, h, le_rfl⟩, fun a h => ⟨a, h, le_rfl⟩, fun a h => ⟨a, h, fun _ _ => le_rfl⟩, fun a h => ⟨a, h, fun _ _ => le_rfl⟩,
      fun a h => ⟨a, h, le_rfl⟩, fun a h => ⟨a, h, le_rfl⟩⟩

/-- The example with a cap on the emissions. -/
theorem exAim_capped {m : ℚ} (r : Aims exSys exAim "costs" "CO2" o o') (h : systemModel exSys ((exAim.limit (cappedAt "CO2" m fun _ => {})).aim "costs") = .ok oc) :
    Capped exSys exAim (fun _ => {}) "costs" "CO2" m o o' oc :=
  ⟨r.valid, r.steps, r.fits, by simp [exAim], ⟨{ label := "CO2" }, by simp [exAim], rfl⟩, rfl, r.model, r.model', h⟩

/-- The hypotheses of `C129` are met: the least emissions are 0, so a cap of 10 can be kept and a cap of -1 cannot. -/
example : ∃ o o' oc oc' τ, Capped exSys exAim (fun _ => {}) "costs" "CO2" 10 o o' oc ∧ Capped exSys exAim (fun _ => {}) "costs" "CO2" (-1) o o' oc' ∧ o'.Optimal τ ∧
    (∃ σ, oc.solver.Solves σ) ∧ ¬ ∃ σ, oc'.solver.Solves σ := by
  obtain ⟨o, o', r, _, p', _, _, _, a4⟩ := exAim_optima
  obtain ⟨oc, h⟩ := builds (r := systemModel exSys ((exAim.limit (cappedAt "CO2" 10 fun _ => {})).aim "costs")) (by decide +kernel)
  obtain ⟨oc', h'⟩ := builds (r := systemModel exSys ((exAim.limit (cappedAt "CO2" (-1) fun _ => {})).aim "costs")) (by decide +kernel)
  have c := exAim_capped r h
  have c' := exAim_capped r h'
  refine ⟨o, o', oc, oc', _, c, c', p', (C129 c p').2 ?_, fun hs => ?_⟩
  · rw [a4]; norm_num
  · have := (C129 c' p').1 hs
    rw [a4] at this
    norm_num at this

/-- The hypotheses of `C129_loose` and `C129_falling` are met: the cheapest solution emits 40, so caps of 50 and 60 leave it as it is. -/
example : ∃ o o' oc oc' σ σ₁ σ₂, Capped exSys exAim (fun _ => {}) "costs" "CO2" 50 o o' oc ∧ Capped exSys exAim (fun _ => {}) "costs" "CO2" 60 o o' oc' ∧ o.Optimal σ ∧ oc.Optimal σ₁ ∧ oc'.Optimal σ₂ ∧
    oc.Costs σ₁ 16 ∧ oc'.Costs σ₂ 16 ∧ (16 : ℚ) ≤ 16 := by
  obtain ⟨o, o', r, p, _, a1, _, a3, _⟩ := exAim_optima
  obtain ⟨oc, h⟩ := builds (r := systemModel exSys ((exAim.limit (cappedAt "CO2" 50 fun _ => {})).aim "costs")) (by decide +kernel)
  obtain ⟨oc', h'⟩ := builds (r := systemModel exSys ((exAim.limit (cappedAt "CO2" 60 fun _ => {})).aim "costs")) (by decide +kernel)
  have c := exAim_capped r h
  have c' := exAim_capped r h'
  have cost := (C128_objective r p.1).2 a1.symm
  obtain ⟨σ₁, p1, -, q1⟩ := C129_loose c p cost (by rw [a3]; norm_num)
  obtain ⟨σ₂, p2, -, q2⟩ := C129_loose c' p cost (by rw [a3]; norm_num)
  exact ⟨o, o', oc, oc', _, σ₁, σ₂, c, c', p, p1, p2, q1, q2, C129_falling c c' (by norm_num) p1 p2 q1 q2⟩

/-! ## With penalties the claim fails -/

/-- A generator with emissions, a fixed load, and a penalty of 100 for missing energy. -/
def exUnserved : System :=
  { effects := [{ label := "costs", isStandard := true, isObjective := true }, { label := "CO2" }]
    comps := [.plain { label := "Gen", inputs := [], outputs := [exDirtyGen] }, .plain { label := "Load", inputs := [exBillLoad 1], outputs := [] }]
    buses := [{ label := "heat", excessPenalty := some (.s 100) }] }

/-- The generator covers the load. -/
def exUnservedFull : Assignment := exAimCheap

/-- Nothing is generated. -/
def exUnservedNone : Assignment := tableSol
  [("heat_excess_input", [2, 2, 2]), ("Effects__penalty_penalty_sum", [800]), ("Effects__heat__excess_input", [800]), ("Load__Q_flow_rate", [2, 2, 2]), ("Load__Q_sumFlowHours", [8]),
   ("costs__Load__Q__effects_per_flow_hour", [2, 2, 4]), ("costs__operation_operation_sum_TS", [2, 2, 4]), ("costs__operation_operation_sum", [8]), ("costs__all_all_sum", [8]), ("costs__operation", [8])]

theorem exUnserved_fits : exUnserved.Fits exSys.n := by
  refine ⟨?_, ?_, ?_⟩
  · simp only [exUnserved, List.forall_mem_cons, List.not_mem_nil, false_imp_iff, implies_true, and_true]
    constructor <;> constructor <;> simp
  · simp only [exUnserved, List.forall_mem_cons, List.not_mem_nil, false_imp_iff, implies_true, and_true]
    refine ⟨⟨?_, by simp [Comp.onOff], by simp⟩, ⟨?_, by simp [Comp.onOff], by simp⟩⟩
    all_goals
      simp only [Comp.flows, Comp.inputs, Comp.outputs, List.nil_append, List.append_nil, List.forall_mem_cons, List.not_mem_nil, false_imp_iff, implies_true, and_true]
    · exact ⟨by simp [exDirtyGen, EffDict.Series, Num.isScalar], by simp [exDirtyGen], by simp [exDirtyGen]⟩
    · exact ⟨by simp [exBillLoad, EffDict.Series, Num.isScalar], by simp [exBillLoad], by simp [exBillLoad]⟩
  · simp [exUnserved, Num.Fits, Num.isScalar]

/-- The emissions and penalties of a solution. -/
theorem exUnserved_amount (h : systemModel exSys (exUnserved.aim x) = .ok o) {σ : Assignment} (hs : o.solver.Solves σ) :
    exUnserved.amount exSys "CO2" σ = ∑ t ∈ Finset.range 3, exSys.width t * (5 * σ "Gen__Q_flow_rate" t + 100 * (σ "heat_excess_input" t + σ "heat_excess_output" t)) := by
  obtain ⟨tb, -⟩ := solution_totals exSys_valid (by decide) (aim_fits exUnserved_fits) h hs
  rw [(aim_contrib (sys := exSys) x exUnserved).1, (aim_contrib (sys := exSys) x exUnserved).2] at tb
  obtain ⟨v1, v2⟩ := tb (EffectData.aim x { label := "CO2" }) (by simp [exUnserved, System.aim])
  have op : ∀ t < 3, σ ("CO2" ++ "__operation_operation_sum_TS") t = exSys.width t * (5 * σ "Gen__Q_flow_rate" t) := by
    intro t ht
    rw [show σ ("CO2" ++ "__operation_operation_sum_TS") t = _ from v1 t ht]
    simp [exUnserved, System.aim, EffectData.aim, System.opOf, Comp.operation, Comp.flows, Comp.inputs, Comp.outputs, Comp.onOff, Comp.label, flowOperation, onOffOperation, effVal, names, exBillLoad, exDirtyGen,
      Num.at, rateL]
    ring
  have inv : investmentOf "CO2" σ = 0 := by
    rw [show investmentOf "CO2" σ = _ from v2]
    simp [exUnserved, System.aim, EffectData.aim, System.invOf, Comp.investment, Comp.flows, Comp.inputs, Comp.outputs, flowInvestment, exBillLoad, exDirtyGen]
  have pen : (exUnserved.buses.map fun b => b.penaltyCost exSys σ).sum = ∑ t ∈ Finset.range 3, exSys.width t * (100 * (σ "heat_excess_input" t + σ "heat_excess_output" t)) := by
    simp only [exUnserved, List.map_cons, List.map_nil, List.sum_cons, List.sum_nil, add_zero, BusData.penaltyCost]
    refine Finset.sum_congr rfl fun t _ => ?_
    simp only [Num.at, Sys.width]
    change (100 : ℚ) * exSys.dt.getD t 0 * (σ "heat_excess_input" t + σ "heat_excess_output" t) = _
    ring
  unfold System.amount operationOf
  rw [pen, inv, show exSys.n = 3 from rfl, Finset.sum_congr rfl fun t ht => op t (Finset.mem_range.1 ht), add_zero, ← Finset.sum_add_distrib]
  exact Finset.sum_congr rfl fun t _ => by ring

/-- Generator and missing energy cover the load. -/
theorem exUnserved_balance (h : systemModel exSys (exUnserved.aim x) = .ok o) {σ : Assignment} (hs : o.solver.Solves σ) :
    ∀ t < exSys.n, σ "Gen__Q_flow_rate" t + σ "heat_excess_input" t = 2 + σ "heat_excess_output" t ∧ 0 ≤ σ "heat_excess_input" t ∧ 0 ≤ σ "heat_excess_output" t := by
  intro t ht
  have bal := (C27_system exSys_valid h hs (b := { label := "heat", excessPenalty := some (.s 100) }) (by simp [exUnserved, System.aim])).2 _ rfl (Or.inl rfl) t ht
  obtain ⟨ol, hol, hl⟩ := forall₂_mem_left (system_inv h).1 (show Comp.plain { label := "Load", inputs := [exBillLoad 1], outputs := [] } ∈ _ by simp [exUnserved, System.aim])
  have sol := ((comp_solves hl σ).2 (((system_solves h σ).1 hs).2.1 ol hol)).1
  obtain ⟨p, hp, _, hfm⟩ := forall₂_mem_left (comp_inv hl).1 (List.mem_singleton.2 rfl)
  have e : fillOnOff { label := "Load", inputs := [exBillLoad 1], outputs := [] } (exBillLoad 1) = exBillLoad 1 := rfl
  rw [e] at hfm
  have rows := (flow_iff exSys_valid (exBillLoad_ok 1).1 hfm σ).1 (sol p (List.mem_append_left _ hp))
  have lo := rows.lower rfl t ht
  have hi := rows.upper rfl t ht
  rw [(flowRate_ok (flow_inv hfm).1).1] at lo hi
  have v : ((exBillLoad 1).absBounds exSys.cfg).1.at t = 2 ∧ ((exBillLoad 1).absBounds exSys.cfg).2.at t = 2 := by
    constructor <;> norm_num [exBillLoad, FlowData.absBounds, FlowData.relBounds, FlowData.effSize, pyOr, Num.at, Num.map]
  rw [v.1] at lo
  rw [v.2] at hi
  have load : σ "Load__Q_flow_rate" t = 2 := le_antisymm hi lo
  simp [fedInto, takenFrom, exUnserved, System.aim, Comp.inputs, Comp.outputs, Comp.label, exBillLoad, exDirtyGen, rateL] at bal
  rw [load] at bal
  exact bal

/-- **C129 fails with penalties.**  The optimum for the emissions emits 40, as the penalties count too; but a cap of 10 can be kept. -/
theorem C129_penalty_wrong : ∃ o' oc τ, systemModel exSys (exUnserved.aim "CO2") = .ok o' ∧ systemModel exSys ((exUnserved.limit (cappedAt "CO2" 10 fun _ => {})).aim "costs") = .ok oc ∧ o'.Optimal τ ∧
    operationOf exSys "CO2" τ + investmentOf "CO2" τ = 40 ∧ ∃ σ, oc.solver.Solves σ := by
  obtain ⟨o', h', hs'⟩ := builds_and_solves (σ := exUnservedFull) (r := systemModel exSys (exUnserved.aim "CO2")) (f := fun o : SysOut => MTree.node o.solver.vars o.solver.cons []) (by decide +kernel)
  obtain ⟨oc, hc, hsc⟩ := builds_and_solves (σ := exUnservedNone) (r := systemModel exSys ((exUnserved.limit (cappedAt "CO2" 10 fun _ => {})).aim "costs"))
    (f := fun o : SysOut => MTree.node o.solver.vars o.solver.cons []) (by decide +kernel)
  have s' : o'.solver.Solves exUnservedFull := ⟨hs'.1, hs'.2.1⟩
  have r : Aims exSys exUnserved "CO2" "CO2" o' o' := ⟨exSys_valid, by decide, exUnserved_fits, h', h'⟩
  obtain ⟨terms, ht, v⟩ := (C128_objective r s').2 rfl
  refine ⟨o', oc, exUnservedFull, h', hc, ⟨s', terms, ht, fun τ hτ => ?_⟩, by decide +kernel, exUnservedNone, hsc.1, hsc.2.1⟩
  rw [v, (C128_objective r hτ).1 ⟨terms, ht, rfl⟩, exUnserved_amount h' hτ, exUnserved_amount h' s']
  refine Finset.sum_le_sum fun t ht => mul_le_mul_of_nonneg_left ?_ (exSys_valid.width_pos (Finset.mem_range.1 ht)).le
  have ht : t < exSys.n := Finset.mem_range.1 ht
  have q := exUnserved_balance h' s' t ht
  have q' := exUnserved_balance h' hτ t ht
  have z : exUnservedFull "heat_excess_input" t = 0 := by simp [exUnservedFull, exAimCheap, tableSol, List.lookup]
  have z' : exUnservedFull "heat_excess_output" t = 0 := by simp [exUnservedFull, exAimCheap, tableSol, List.lookup]
  linarith [q.1, q'.1, q'.2.1, q'.2.2]

end Flix
