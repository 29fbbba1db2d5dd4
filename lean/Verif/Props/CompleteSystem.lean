import Verif.Props.Complete
import Verif.Props.Idle

/-! # C82: solutions of the components that fit together are a solution of the whole model -/

namespace Flix

variable {sys : Sys} {s : System} {o : SysOut}

/-- What the components feed into the bus `b` and take from it, each component with values of its own. -/
def System.sends (s : System) (ρ : Comp → Assignment) (b : String) (t : Nat) : ℚ :=
  (s.comps.map fun c => ((c.outputs.filter fun f => f.bus = b).map fun f => ρ c (rateL c.label f.label) t).sum).sum
def System.receives (s : System) (ρ : Comp → Assignment) (b : String) (t : Nat) : ℚ :=
  (s.comps.map fun c => ((c.inputs.filter fun f => f.bus = b).map fun f => ρ c (rateL c.label f.label) t).sum).sum

/-- The values of the components fit together at the bus `b`, with the excess `ε` if the bus allows it. -/
def System.Meets (sys : Sys) (s : System) (ρ : Comp → Assignment) (ε : Assignment) (b : BusData) : Prop :=
  (b.excessPenalty = none → ∀ t < sys.n, s.sends ρ b.label t = s.receives ρ b.label t) ∧
  (b.excessPenalty ≠ none → ∀ t < sys.n, 0 ≤ ε (b.label ++ "_" ++ "excess_input") t ∧ 0 ≤ ε (b.label ++ "_" ++ "excess_output") t ∧
    s.sends ρ b.label t + ε (b.label ++ "_" ++ "excess_input") t = s.receives ρ b.label t + ε (b.label ++ "_" ++ "excess_output") t)

theorem forall₂_zip {α β : Type} {R : α → β → Prop} {as : List α} {bs : List β} (h : List.Forall₂ R as bs) :
    (∀ q ∈ as.zip bs, R q.1 q.2) ∧ (as.zip bs).map (·.2) = bs ∧ (∀ b ∈ bs, ∃ q ∈ as.zip bs, q.2 = b) ∧ ∀ a ∈ as, ∃ q ∈ as.zip bs, q.1 = a := by
  induction h with
  | nil => simp
  | cons hd htl ih =>
    obtain ⟨i1, i2, i3, i4⟩ := ih
    refine ⟨?_, by simp [i2], ?_, ?_⟩
    · rintro q hq
      simp only [List.zip_cons_cons, List.mem_cons] at hq
      rcases hq with rfl | hq
      · exact hd
      · exact i1 q hq
    · rintro b hb
      simp only [List.zip_cons_cons, List.mem_cons] at hb ⊢
      rcases hb with rfl | hb
      · exact ⟨_, .inl rfl, rfl⟩
      · obtain ⟨q, hq, e⟩ := i3 b hb; exact ⟨q, .inr hq, e⟩
    · rintro a ha
      simp only [List.zip_cons_cons, List.mem_cons] at ha ⊢
      rcases ha with rfl | ha
      · exact ⟨_, .inl rfl, rfl⟩
      · obtain ⟨q, hq, e⟩ := i4 a ha; exact ⟨q, .inr hq, e⟩

/-- **C82 (whole model).**  Take for every component values that solve its model.  If they fit together at every bus, and if effect totals
that consist of what the components cause and of the shares between the effects keep all limits, then the whole model has a solution with
exactly these values. -/
theorem C82_system (hv : sys.Valid) (hn : sys.n ≠ 0) (hf : s.Fits sys.n) (h : systemModel sys s = .ok o) {ρ : Comp → Assignment} {ε : Assignment}
    (hc : ∀ c ∈ s.comps, ∀ oc, c.model sys = .ok oc → oc.tree.Solves (ρ c)) (hb : ∀ b ∈ s.buses, s.Meets sys ρ ε b) {T : Totals}
    (hT : T.Balanced s.effects sys.n (fun l t => (s.comps.map fun c => c.operation sys.width (ρ c) s.effects l t).sum)
      (fun l => (s.comps.map fun c => c.investment (ρ c) s.effects l).sum))
    (ha : ∀ e ∈ s.effects, T.Allowed sys e) :
    ∃ σ, o.solver.Solves σ ∧ (∀ c ∈ s.comps, ∀ oc, c.model sys = .ok oc → ∀ l ∈ oc.tree.labels, σ l = ρ c l) ∧
      (∀ b ∈ s.buses, b.excessPenalty ≠ none → σ (b.label ++ "_" ++ "excess_input") = ε (b.label ++ "_" ++ "excess_input") ∧
        σ (b.label ++ "_" ++ "excess_output") = ε (b.label ++ "_" ++ "excess_output")) ∧
      ∀ e ∈ s.effects, σ (opTSL e.label) = T.op e.label ∧ σ (invSumL e.label) 0 = T.inv e.label := by
  obtain ⟨h1, h2, _, _⟩ := system_inv h
  obtain ⟨z1, z2, z3, z4⟩ := forall₂_zip h1
  have hlab := system_labels h
  rw [List.nodup_append] at hlab
  obtain ⟨_, hphys, hcoll⟩ := hlab
  let L : List (MTree × Assignment) := ((s.comps.zip o.comps).map fun q => (q.2.tree, ρ q.1)) ++ o.buses.map fun b => (b.tree, ε)
  have hL : L.flatMap (fun p => p.1.labels) = (o.comps.map CompOut.tree ++ o.buses.map (·.tree)).flatMap MTree.labels := by
    simp only [L, List.flatMap_append, List.flatMap_map]
    congr 1
    conv_rhs => rw [← z2, List.flatMap_map]
  obtain ⟨σ0, g1, _⟩ := glue_pairs (l := L) (by rw [hL]; exact hphys) ε
  have hown : ∀ q ∈ s.comps.zip o.comps, ∀ l ∈ q.2.tree.labels, σ0 l = ρ q.1 l := fun q hq l hl =>
    g1 (q.2.tree, ρ q.1) (List.mem_append_left _ (List.mem_map.2 ⟨q, hq, rfl⟩)) l hl
  have hbus : ∀ b ∈ o.buses, ∀ l ∈ b.tree.labels, σ0 l = ε l := fun b hb l hl =>
    g1 (b.tree, ε) (List.mem_append_right _ (List.mem_map.2 ⟨b, hb, rfl⟩)) l hl
  have hcs : ∀ oc ∈ o.comps, oc.tree.Solves σ0 := by
    intro oc hoc
    obtain ⟨q, hq, rfl⟩ := z3 oc hoc
    have hm := z1 q hq
    exact solves_congr (vars_hasVar _) (model_refs hm (vars_hasVar _)).1 (fun x hx => (hown q hq _ (hasVar_labels hx)).symm)
      (hc q.1 (List.of_mem_zip hq).1 q.2 hm)
  have hrates : ∀ c ∈ s.comps, ∀ f ∈ c.inputs ++ c.outputs, σ0 (rateL c.label f.label) = ρ c (rateL c.label f.label) := by
    intro c hcm f hfm
    obtain ⟨q, hq, rfl⟩ := z4 c hcm
    obtain ⟨x, hx, hl⟩ := rate_hasVar (z1 q hq) hfm
    rw [show rateL q.1.label f.label = x.label from hl.symm]
    exact hown q hq _ (hasVar_labels hx)
  have hfed : ∀ b t, fedInto σ0 s b t = s.sends ρ b t := by
    intro b t
    unfold fedInto System.sends
    refine congrArg List.sum (List.map_congr_left fun c hcm => congrArg List.sum (List.map_congr_left fun f hfm => ?_))
    exact congrFun (hrates c hcm f (List.mem_append_right _ (List.mem_filter.1 hfm).1)) t
  have htak : ∀ b t, takenFrom σ0 s b t = s.receives ρ b t := by
    intro b t
    unfold takenFrom System.receives
    refine congrArg List.sum (List.map_congr_left fun c hcm => congrArg List.sum (List.map_congr_left fun f hfm => ?_))
    exact congrFun (hrates c hcm f (List.mem_append_left _ (List.mem_filter.1 hfm).1)) t
  have hex : ∀ b ∈ s.buses, b.excessPenalty ≠ none → ∃ ob ∈ o.buses, (b.label ++ "_" ++ "excess_input") ∈ ob.tree.labels ∧
      (b.label ++ "_" ++ "excess_output") ∈ ob.tree.labels := by
    intro b hbm hp
    obtain ⟨ob, hob, hm⟩ := forall₂_mem_left h2 hbm
    refine ⟨ob, hob, ?_⟩
    obtain ⟨pen, hpen⟩ := Option.ne_none_iff_exists'.1 hp
    unfold busModel at hm
    rw [hpen] at hm
    simp only at hm
    peel hm with f, hf
    peel hm with ein, hein
    peel hm with eout, heout
    simp only [except_pure, Except.ok.injEq] at hm
    subst hm
    rw [labels_node]
    simp [(mkVar_ok hein).1, (mkVar_ok heout).1]
  have hbok : ∀ b ∈ s.buses, s.BusOk sys σ0 b := by
    intro b hbm
    obtain ⟨m1, m2⟩ := hb b hbm
    refine ⟨fun hp t ht => ?_, fun hp t ht => ?_⟩
    · rw [hfed, htak]; exact m1 hp t ht
    · obtain ⟨ob, hob, e1, e2⟩ := hex b hbm hp
      rw [hfed, htak, hbus ob hob _ e1, hbus ob hob _ e2]
      exact m2 hp t ht
  have hcon : ∀ c ∈ s.comps, ∀ l, (∀ t < sys.n, c.operation sys.width σ0 s.effects l t = c.operation sys.width (ρ c) s.effects l t) ∧
      c.investment σ0 s.effects l = c.investment (ρ c) s.effects l := by
    intro c hcm l
    obtain ⟨q, hq, rfl⟩ := z4 c hcm
    exact contrib_congr hv (hf.comps q.1 hcm) (z1 q hq) (fun x hx => hown q hq _ (hasVar_labels hx)) s.effects l
  obtain ⟨σ, s1, s2, s3⟩ := solution_complete hv hn hf h hcs hbok (T := T) (by
    intro e he
    obtain ⟨b1, b2⟩ := hT e he
    refine ⟨fun t ht => ?_, ?_⟩
    · rw [b1 t ht]
      unfold System.opOf
      rw [List.map_congr_left fun c hcm => (hcon c hcm e.label).1 t ht]
    · rw [b2]
      unfold System.invOf
      rw [List.map_congr_left fun c hcm => (hcon c hcm e.label).2]) ha
  have hout : ∀ l ∈ (o.comps.map CompOut.tree ++ o.buses.map (·.tree)).flatMap MTree.labels, σ l = σ0 l := fun l hl =>
    s2 l fun hm => hcoll l hm l hl rfl
  refine ⟨σ, s1, ?_, ?_, s3⟩
  · intro c hcm oc hoc l hl
    obtain ⟨q, hq, rfl⟩ := z4 c hcm
    rw [z1 q hq] at hoc
    cases hoc
    rw [hout l (List.mem_flatMap.2 ⟨q.2.tree, List.mem_append_left _ (List.mem_map.2 ⟨q.2, (List.of_mem_zip hq).2, rfl⟩), hl⟩)]
    exact hown q hq l hl
  · intro b hbm hp
    obtain ⟨ob, hob, e1, e2⟩ := hex b hbm hp
    have hin : ∀ l ∈ ob.tree.labels, σ l = ε l := fun l hl => by
      rw [hout l (List.mem_flatMap.2 ⟨ob.tree, List.mem_append_right _ (List.mem_map.2 ⟨ob, hob, rfl⟩), hl⟩)]
      exact hbus ob hob l hl
    exact ⟨hin _ e1, hin _ e2⟩

/-- Each component of the example system on its own. -/
def exOwn (c : Comp) : Assignment :=
  if c.label = "Gas" then tableSol [("Gas__Q_flow_rate", [4, 8, 2]), ("Gas__Q_sumFlowHours", [16])]
  else if c.label = "Boiler" then tableSol [("Boiler__fu_flow_rate", [4, 8, 2]), ("Boiler__fu_sumFlowHours", [16]),
   ("Boiler__th_flow_rate", [2, 4, 1]), ("Boiler__th_sumFlowHours", [8]), ("Boiler__th__Investment_size", [10])]
  else tableSol [("Load__Q_flow_rate", [2, 4, 0]), ("Load__Q_sumFlowHours", [6])]

def exOwnTotals : Totals :=
  { op := fun l t => if l = "costs" then [44 / 5, 88 / 5, 44 / 5].getD t 0 else [4, 8, 4].getD t 0, inv := fun l => if l = "costs" then 12 else 30 }

theorem exOwn_solves : ∀ c ∈ exSystem.comps, ∀ oc, c.model exSys = .ok oc → oc.tree.Solves (exOwn c) := by
  intro c hc oc hoc
  have key : ∀ c : Comp, buildsAndSolvesB (exOwn c) (c.model exSys) CompOut.tree = true → ∀ oc, c.model exSys = .ok oc → oc.tree.Solves (exOwn c) := by
    intro c h oc hoc
    obtain ⟨oc', h1, h2⟩ := builds_and_solves h
    rw [hoc] at h1
    cases h1
    exact h2
  simp only [exSystem, List.mem_cons, List.not_mem_nil, or_false] at hc
  rcases hc with rfl | rfl | rfl <;> exact key _ (by decide +kernel) _ hoc

example : ∃ o, systemModel exSys exSystem = .ok o ∧ ∃ σ, o.solver.Solves σ ∧ σ "Boiler__th_flow_rate" 1 = 4 ∧ σ "heat_excess_output" 2 = 1 := by
  obtain ⟨o, h, _⟩ := exSystem_ok
  refine ⟨o, h, ?_⟩
  obtain ⟨σ, s1, s2, s3, _⟩ := C82_system (ε := tableSol [("heat_excess_output", [0, 0, 1])]) exSys_valid (by decide) exSystem_fits h exOwn_solves (by
    intro b hb
    simp only [exSystem, List.mem_cons, List.not_mem_nil, or_false] at hb
    rcases hb with rfl | rfl
    · exact ⟨fun _ => by decide +kernel, fun h => absurd rfl h⟩
    · exact ⟨fun h => by simp at h, fun _ => by decide +kernel⟩) (T := exOwnTotals) (by unfold Totals.Balanced; decide +kernel) (by
    intro e he
    simp only [exSystem, exEffects, List.mem_cons, List.not_mem_nil, or_false] at he
    rcases he with rfl | rfl <;> constructor <;> simp
    · simp [Totals.opSum, exOwnTotals, exSys, Finset.sum_range_succ]; norm_num
    · simp [exOwnTotals]; norm_num
    · decide +kernel)
  refine ⟨σ, s1, ?_, ?_⟩
  · obtain ⟨oc, hoc, hh⟩ := of_okB (p := fun oc : CompOut => decide ("Boiler__th_flow_rate" ∈ oc.tree.labels)) (r := (exSystem.comps.getD 1 (.plain { label := "", inputs := [], outputs := [] })).model exSys)
      (by decide +kernel)
    rw [s2 _ (by simp [exSystem]) oc hoc _ (of_decide_eq_true hh)]
    decide +kernel
  · have := (s3 { label := "heat", excessPenalty := some (.s 100) } (by simp [exSystem]) (by simp)).2
    rw [show ("heat" : String) ++ "_" ++ "excess_output" = "heat_excess_output" by decide +kernel] at this
    rw [this]
    decide +kernel
/-- The size of a line for both directions is 0 or at least the smallest positive number: the second direction's investment is optional. -/
theorem C82_shared (hv : sys.Valid) {t : TransData} {o : TransOut} (hfit : ∀ f ∈ t.flows, f.Fits sys.n) (ht : t.Fits sys.n)
    (h : transmissionModel sys t = .ok o) {q : InvestParams} (hq : t.in1.size = .invest q) {f : FlowData} (hf : t.in2 = some f) (hni : ∀ r, f.size ≠ .invest r)
    {σ : Assignment} (hs : o.comp.tree.Solves σ) :
    σ (sizeL (flowFull t.label t.in1.label)) 0 = 0 ∨ sys.cfg.eps ≤ σ (sizeL (flowFull t.label t.in1.label)) 0 := by
  have e : σ (sizeL (flowFull t.label t.in1.label)) 0 = σ (sizeL (flowFull t.label f.label)) 0 := C36_one_size ht h hs hq hf
  obtain ⟨o0, h0, _, _, _, _, _, _, k3, _, _, _, _, _, hiff⟩ := trans_iff ht h
  obtain ⟨i2, _, hm, htf⟩ := k3 f hf
  obtain ⟨p, hp, hpe⟩ := List.mem_map.1 hm
  have hsol := ((comp_solves h0 σ).2 ((hiff σ).1 hs).1).1 p hp
  rw [hpe] at hsol
  have hni' : ∀ r, (t.fill f).size ≠ .invest r := by rw [fill_keeps_size]; exact hni
  have hsz : (fillOnOff (t.comp sys.cfg) (t.fillIn2 sys.cfg (t.fill f))).size = .invest { maximumSize := some (q.maxSize sys.cfg) } := by
    rw [declared_eq, fillIn2_new hq hni']
    rfl
  have hff : (fillOnOff (t.comp sys.cfg) (t.fillIn2 sys.cfg (t.fill f))).Fits sys.n :=
    fillOnOff_fits (fillIn2_fits (fill_fits (hfit f (by simp [TransData.flows, hf]))))
  unfold TransFlow at htf
  obtain ⟨i, hi, hinv⟩ := flow_has_invest htf hsz
  obtain ⟨hlen, _⟩ := (flowRate_ok (flow_inv htf).1).2
  obtain ⟨hl, _, hopt, _, hiff⟩ := invest_iff hlen hff.relBounds.1 hff.relBounds.2 hff.prof (flow_on_len htf) hinv
  have rows := ((hiff σ).1 (((flow_iff hv hff htf σ).1 hsol).invest i hi)).1
  obtain ⟨iv, hiv, _, _⟩ := hopt rfl
  rw [hiv] at rows
  have u := rows.optUpper _ rfl rfl
  have l := rows.optLower _ rfl rfl
  rw [show i.size.label = sizeL (flowFull t.label f.label) from by rw [hl, sizeL, fillIn2_label, fill_label]] at u l
  rw [e]
  rcases rows.bin _ rfl with hb | hb
  · left
    rw [hb, mul_zero] at u l
    exact le_antisymm u l
  · right
    rw [hb, mul_one] at l
    exact le_trans (le_max_left _ _) l

/-- A line whose size is given as half of the smallest positive number. -/
def exTinyLine : TransData :=
  { label := "tr", in1 := { label := "i1", bus := "A", size := .invest { fixedSize := some (1 / 200000), optional := false } }, out1 := { label := "o1", bus := "B", size := .num 100 },
    in2 := some { label := "i2", bus := "B" }, out2 := some { label := "o2", bus := "A", size := .num 100 } }

/-- **C82 fails** for the code: a very small line can be used in one direction, but not in both. -/
theorem C82_wrong : ∃ o, transmissionModel exSys exTinyLine = .ok o ∧ ∀ σ : Assignment, ¬ o.comp.tree.Solves σ := by
  obtain ⟨o, h⟩ : ∃ o, transmissionModel exSys exTinyLine = .ok o := builds (by decide +kernel)
  refine ⟨o, h, fun σ hs => ?_⟩
  have hfit : ∀ f ∈ exTinyLine.flows, f.Fits exSys.n := by
    intro f hf
    simp only [TransData.flows, exTinyLine, Option.toList_some, List.mem_cons, List.mem_append, List.not_mem_nil, or_false] at hf
    rcases hf with rfl | rfl | rfl | rfl <;> constructor <;> simp
  have hft : exTinyLine.Fits exSys.n := by constructor <;> simp [exTinyLine]
  have key := C82_shared exSys_valid hfit hft h rfl rfl (fun r hr => by cases hr) hs
  obtain ⟨o0, h0, _, _, _, _, ⟨hm, htf⟩, _, _, _, _, _, _, _, hiff⟩ := trans_iff hft h
  obtain ⟨p, hp, hpe⟩ := List.mem_map.1 hm
  have hsol := ((comp_solves h0 σ).2 ((hiff σ).1 hs).1).1 p hp
  rw [hpe] at hsol
  obtain ⟨i, hi, rows⟩ := flow_invest_rows (q := { fixedSize := some (1 / 200000), optional := false }) exSys_valid
    (fillOnOff_fits (fill_fits (hfit exTinyLine.in1 (by simp [TransData.flows])))) htf (by decide +kernel) hsol
  have hfix := rows.fixed _ rfl (by norm_num) rfl
  have hl : i.size.label = sizeL (flowFull exTinyLine.label exTinyLine.in1.label) := by
    obtain ⟨i', hi', hinv⟩ := flow_has_invest htf (q := { fixedSize := some (1 / 200000), optional := false }) (by decide +kernel)
    rw [hi] at hi'
    cases hi'
    rw [sizeVar_iff (invest_inv hinv).choose_spec.choose_spec.choose_spec.choose_spec.1 |>.1]
    rw [fill_label]; rfl
  rw [hl] at hfix
  rw [hfix] at key
  rcases key with key | key <;> norm_num [exSys, exCfg] at key
end Flix
