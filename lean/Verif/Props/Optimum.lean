import Verif.Lemmas.Whole
import Verif.Props.Order
import Verif.Props.Balance

/-!
# C76: what optimal solutions look like
-/

namespace Flix

variable {sys : Sys} {s : System} {o : SysOut}

/-- Labels with endings of different last characters, or of `input` and `output`, are different. -/
theorem ending_ne {a b x y : String} {k : Nat} (hx : k ≤ x.toList.length) (hy : k ≤ y.toList.length) (h : x.toList.reverse.take k ≠ y.toList.reverse.take k) :
    a ++ x ≠ b ++ y := by
  intro e
  have := congrArg (fun s : String => s.toList.reverse.take k) e
  simp only [String.toList_append, List.reverse_append] at this
  rw [List.take_append_of_le_length (by simpa using hx), List.take_append_of_le_length (by simpa using hy)] at this
  exact h this

/-- A solution of least cost. -/
def SysOut.Optimal (o : SysOut) (σ : Assignment) : Prop :=
  o.solver.Solves σ ∧ ∃ terms, objectiveTerms o.solver.objective = .ok terms ∧ ∀ τ, o.solver.Solves τ → termsVal σ terms ≤ termsVal τ terms

/-- The excess of the bus `l` in step `t` reduced by `m`. -/
def lessExcess (l : String) (t : Nat) (m : ℚ) (σ : Assignment) : Assignment :=
  fun x k => if (x = l ++ "_" ++ "excess_input" ∨ x = l ++ "_" ++ "excess_output") ∧ k = t then σ x k - m else σ x k

theorem rate_ne_excess (c f l : String) : c ++ "__" ++ f ++ "_" ++ "flow_rate" ≠ l ++ "_" ++ "excess_input" ∧ c ++ "__" ++ f ++ "_" ++ "flow_rate" ≠ l ++ "_" ++ "excess_output" :=
  ⟨ending_ne (k := 1) (by decide) (by decide) (by decide), ending_ne (k := 1) (by decide) (by decide) (by decide)⟩

theorem in_ne_out (a l : String) : a ++ "_" ++ "excess_input" ≠ l ++ "_" ++ "excess_output" := ending_ne (k := 4) (by decide) (by decide) (by decide)

theorem lessExcess_rate (l : String) (t : Nat) (m : ℚ) (σ : Assignment) (c f : String) :
    lessExcess l t m σ (c ++ "__" ++ f ++ "_" ++ "flow_rate") = σ (c ++ "__" ++ f ++ "_" ++ "flow_rate") := by
  funext k
  unfold lessExcess
  rw [if_neg]
  rintro ⟨h | h, _⟩
  · exact (rate_ne_excess c f l).1 h
  · exact (rate_ne_excess c f l).2 h

theorem lessExcess_flows (l : String) (t : Nat) (m : ℚ) (σ : Assignment) (s : System) (b : String) (k : Nat) :
    fedInto (lessExcess l t m σ) s b k = fedInto σ s b k ∧ takenFrom (lessExcess l t m σ) s b k = takenFrom σ s b k := by
  unfold fedInto takenFrom
  simp only [lessExcess_rate, and_self]

theorem lessExcess_in (l : String) (t : Nat) (m : ℚ) (σ : Assignment) (b : String) (k : Nat) :
    lessExcess l t m σ (b ++ "_" ++ "excess_input") k = σ (b ++ "_" ++ "excess_input") k - (if b = l ∧ k = t then m else 0) ∧
    lessExcess l t m σ (b ++ "_" ++ "excess_output") k = σ (b ++ "_" ++ "excess_output") k - (if b = l ∧ k = t then m else 0) := by
  have cancel : ∀ x : String, (b ++ "_" ++ x = l ++ "_" ++ x) ↔ b = l := by
    intro x
    constructor
    · intro e
      have := congrArg String.toList e
      simp only [String.toList_append, List.append_assoc, List.append_cancel_right_eq] at this
      exact String.ext this
    · rintro rfl; rfl
  unfold lessExcess
  constructor
  · by_cases hc : b = l ∧ k = t
    · rw [if_pos ⟨Or.inl ((cancel _).2 hc.1), hc.2⟩, if_pos hc]
    · rw [if_neg, if_neg hc, sub_zero]
      rintro ⟨h | h, hk⟩
      · exact hc ⟨(cancel _).1 h, hk⟩
      · exact in_ne_out _ _ h
  · by_cases hc : b = l ∧ k = t
    · rw [if_pos ⟨Or.inr ((cancel _).2 hc.1), hc.2⟩, if_pos hc]
    · rw [if_neg, if_neg hc, sub_zero]
      rintro ⟨h | h, hk⟩
      · exact in_ne_out _ _ h.symm
      · exact hc ⟨(cancel _).1 h, hk⟩

/-- The excess variables of a bus are no variables of a component. -/
theorem comp_not_excess (hv : sys.Valid) (hf : s.Fits sys.n) (h : systemModel sys s = .ok o) {b : BusData} (hb : b ∈ s.buses) (hp : b.excessPenalty ≠ none) {oc : CompOut}
    (hoc : oc ∈ o.comps) {x : Var} (hx : oc.tree.HasVar x) : x.label ≠ b.label ++ "_" ++ "excess_input" ∧ x.label ≠ b.label ++ "_" ++ "excess_output" := by
  obtain ⟨h1, h2, _, _⟩ := system_inv h
  obtain ⟨ob, hob, hm⟩ := forall₂_mem_left h2 hb
  obtain ⟨pen, hpen⟩ := Option.ne_none_iff_exists'.1 hp
  obtain ⟨ein, eout, f, x1, x2, l1, l2, _⟩ := bus_some hv hm hpen (hf.buses b hb pen hpen)
    (busFlows_all (σ := fun _ _ => 0) (n := sys.n) (t := 0) Comp.outputs (·.outputs) (forall₂_imp' h1 fun c _ oc h => (model_flowOf h).2) (bus := b.label)).2
    (busFlows_all (σ := fun _ _ => 0) (n := sys.n) (t := 0) Comp.inputs (·.inputs) (forall₂_imp' h1 fun c _ oc h => (model_flowOf h).1) (bus := b.label)).2
  have hl := (List.nodup_append.1 (system_labels h)).2.1
  rw [List.flatMap_append, List.nodup_append] at hl
  have hc : x.label ∈ (o.comps.map CompOut.tree).flatMap MTree.labels := List.mem_flatMap.2 ⟨_, List.mem_map_of_mem hoc, hasVar_labels hx⟩
  have hbl := bus_labels hm x1 x2
  constructor
  · refine hl.2.2 _ hc _ (List.mem_flatMap.2 ⟨_, List.mem_map_of_mem (f := fun b : BusOut => b.tree) hob, ?_⟩)
    rw [hbl, l1]; exact List.mem_cons_self
  · refine hl.2.2 _ hc _ (List.mem_flatMap.2 ⟨_, List.mem_map_of_mem (f := fun b : BusOut => b.tree) hob, ?_⟩)
    rw [hbl, l2]; simp [excessOutL]

/-- The excess variables of a bus do not belong to the collection of effects. -/
theorem excess_outside (hv : sys.Valid) (hf : s.Fits sys.n) (h : systemModel sys s = .ok o) {b : BusData} (hb : b ∈ s.buses) (hp : b.excessPenalty ≠ none) :
    b.label ++ "_" ++ "excess_input" ∉ o.coll.tree.labels ∧ b.label ++ "_" ++ "excess_output" ∉ o.coll.tree.labels := by
  obtain ⟨h1, h2, _, _⟩ := system_inv h
  obtain ⟨ob, hob, hm⟩ := forall₂_mem_left h2 hb
  obtain ⟨pen, hpen⟩ := Option.ne_none_iff_exists'.1 hp
  obtain ⟨ein, eout, f, x1, x2, l1, l2, _⟩ := bus_some hv hm hpen (hf.buses b hb pen hpen)
    (busFlows_all (σ := fun _ _ => 0) (n := sys.n) (t := 0) Comp.outputs (·.outputs) (forall₂_imp' h1 fun c _ oc h => (model_flowOf h).2) (bus := b.label)).2
    (busFlows_all (σ := fun _ _ => 0) (n := sys.n) (t := 0) Comp.inputs (·.inputs) (forall₂_imp' h1 fun c _ oc h => (model_flowOf h).1) (bus := b.label)).2
  have hbl := bus_labels hm x1 x2
  have hv' : ∀ l, l ∈ ob.tree.labels → l ∉ o.coll.tree.labels := by
    intro l hl hc
    obtain ⟨x, hx, rfl⟩ := hasVar_of_label hl
    exact physical_label h (Or.inr ⟨ob, hob, hx⟩) hc
  constructor
  · refine hv' _ ?_
    rw [hbl, l1]; exact List.mem_cons_self
  · refine hv' _ ?_
    rw [hbl, l2]; simp [excessOutL]

theorem penaltyCost_lessExcess {b b' : BusData} {t : Nat} {m : ℚ} {σ : Assignment} (hl : b'.label = b.label → b' = b) {pen : Num} (hp : b.excessPenalty = some pen)
    (ht : t < sys.n) : b'.penaltyCost sys (lessExcess b.label t m σ) = b'.penaltyCost sys σ - (if b' = b then pen.at t * sys.dt.getD t 0 * (2 * m) else 0) := by
  unfold BusData.penaltyCost
  cases hp' : b'.excessPenalty with
  | none =>
    have : b' ≠ b := by rintro rfl; simp [hp] at hp'
    simp [this]
  | some pen' =>
    simp only [(lessExcess_in _ _ _ _ _ _).1, (lessExcess_in _ _ _ _ _ _).2]
    by_cases hbb : b' = b
    · subst hbb
      rw [hp] at hp'
      cases hp'
      rw [if_pos rfl, ← Finset.sum_erase_add _ _ (Finset.mem_range.2 ht), ← Finset.sum_erase_add (Finset.range sys.n) (fun t => pen.at t * sys.dt.getD t 0 * (σ _ t + σ _ t)) (Finset.mem_range.2 ht)]
      have : ∀ k ∈ (Finset.range sys.n).erase t, ¬ (b'.label = b'.label ∧ k = t) := fun k hk hh => (Finset.mem_erase.1 hk).1 hh.2
      rw [Finset.sum_congr rfl fun k hk => by rw [if_neg (this k hk), sub_zero, sub_zero]]
      rw [if_pos ⟨rfl, rfl⟩]
      ring
    · have hne : b'.label ≠ b.label := fun e => hbb (hl e)
      simp [hbb, hne]

/-- **C76.**  In an optimal solution the excess of a bus is exactly what is missing or too much wherever it has a price: supply and demand
never have excess at the same time. -/
theorem C76 (hv : sys.Valid) (hn : sys.n ≠ 0) (hf : s.Fits sys.n) (h : systemModel sys s = .ok o) {σ : Assignment} (hopt : o.Optimal σ) {b : BusData} (hb : b ∈ s.buses)
    {pen : Num} (hp : b.excessPenalty = some pen) {t : Nat} (ht : t < sys.n) (hpos : 0 < pen.at t * sys.dt.getD t 0) :
    σ (b.label ++ "_" ++ "excess_input") t = max 0 (takenFrom σ s b.label t - fedInto σ s b.label t) ∧
    σ (b.label ++ "_" ++ "excess_output") t = max 0 (fedInto σ s b.label t - takenFrom σ s b.label t) := by
  obtain ⟨hs, terms, hterms, hmin⟩ := hopt
  obtain ⟨s1, s2, s3⟩ := (system_solves h σ).1 hs
  have hbus := (buses_iff hv hf h σ).1 s3
  obtain ⟨n1, n2, n3⟩ := (hbus b hb).2 (by simp [hp]) t ht
  have key : min (σ (b.label ++ "_" ++ "excess_input") t) (σ (b.label ++ "_" ++ "excess_output") t) = 0 := by
    by_contra hne
    have hm : 0 < min (σ (b.label ++ "_" ++ "excess_input") t) (σ (b.label ++ "_" ++ "excess_output") t) := lt_of_le_of_ne (le_min n1 n2) (Ne.symm hne)
    have hm1 := min_le_left (σ (b.label ++ "_" ++ "excess_input") t) (σ (b.label ++ "_" ++ "excess_output") t)
    have hm2 := min_le_right (σ (b.label ++ "_" ++ "excess_input") t) (σ (b.label ++ "_" ++ "excess_output") t)
    generalize min (σ (b.label ++ "_" ++ "excess_input") t) (σ (b.label ++ "_" ++ "excess_output") t) = m at hm hm1 hm2
    let τ := lessExcess b.label t m σ
    have hphys : ∀ oc ∈ o.comps, ∀ x, oc.tree.HasVar x → τ x.label = σ x.label := by
      intro oc hoc x hx
      obtain ⟨e1, e2⟩ := comp_not_excess hv hf h hb (by simp [hp]) hoc hx
      funext k
      show lessExcess _ _ _ _ _ _ = _
      unfold lessExcess
      rw [if_neg]
      rintro ⟨hh | hh, _⟩
      · exact e1 hh
      · exact e2 hh
    have hcomps : ∀ c ∈ o.comps, c.tree.Solves τ := by
      intro oc hoc
      obtain ⟨c, _, hm⟩ := forall₂_mem_right (system_inv h).1 hoc
      exact solves_congr (vars_hasVar _) (model_refs hm (vars_hasVar _)).1 (fun x hx => (hphys oc hoc x hx).symm) (s2 oc hoc)
    have hbuses : ∀ b' ∈ s.buses, s.BusOk sys τ b' := by
      intro b' hb'
      obtain ⟨g1, g2⟩ := hbus b' hb'
      refine ⟨fun hp' k hk => ?_, fun hp' k hk => ?_⟩
      · show fedInto (lessExcess _ _ _ _) _ _ _ = takenFrom (lessExcess _ _ _ _) _ _ _
        rw [(lessExcess_flows _ _ _ _ _ _ _).1, (lessExcess_flows _ _ _ _ _ _ _).2]
        exact g1 hp' k hk
      · show 0 ≤ lessExcess _ _ _ _ _ _ ∧ 0 ≤ lessExcess _ _ _ _ _ _ ∧ fedInto (lessExcess _ _ _ _) _ _ _ + lessExcess _ _ _ _ _ _ = takenFrom (lessExcess _ _ _ _) _ _ _ + lessExcess _ _ _ _ _ _
        rw [(lessExcess_flows _ _ _ _ _ _ _).1, (lessExcess_flows _ _ _ _ _ _ _).2, (lessExcess_in _ _ _ _ _ _).1, (lessExcess_in _ _ _ _ _ _).2]
        obtain ⟨k1, k2, k3⟩ := g2 hp' k hk
        by_cases hc : b'.label = b.label ∧ k = t
        · rw [if_pos hc]
          obtain ⟨e1, rfl⟩ := hc
          rw [e1] at k1 k2 k3 ⊢
          exact ⟨by linarith, by linarith, by linarith⟩
        · rw [if_neg hc, sub_zero, sub_zero]
          exact ⟨k1, k2, k3⟩
    obtain ⟨tb, ta⟩ := solution_totals hv hn hf h hs
    have hop : ∀ l k, k < sys.n → s.opOf sys τ l k = s.opOf sys σ l k := fun l k hk => (contribs_congr hv hf h hphys l).1 k hk
    have hinv : ∀ l, s.invOf τ l = s.invOf σ l := fun l => (contribs_congr hv hf h hphys l).2
    have tb' : (⟨fun l t => σ (opTSL l) t, fun l => σ (invSumL l) 0⟩ : Totals).Balanced s.effects sys.n (s.opOf sys τ) (s.invOf τ) := by
      intro e he
      obtain ⟨u1, u2⟩ := tb e he
      refine ⟨fun k hk => ?_, ?_⟩
      · rw [hop _ k hk]; exact u1 k hk
      · rw [hinv]; exact u2
    obtain ⟨σ', g1, g2, g3⟩ := solution_complete hv hn hf h hcomps hbuses tb' ta
    obtain ⟨terms', e, ht', he, hcost⟩ := solution_cost hv hn hf h
    rw [hterms] at ht'
    cases ht'
    have hle := hmin σ' g1
    rw [hcost σ hs, hcost σ' g1] at hle
    have hem : e ∈ s.effects := List.mem_of_find?_eq_some he
    have hpen : ∀ b' ∈ s.buses, b'.penaltyCost sys σ' = b'.penaltyCost sys τ := by
      intro b' hb'
      unfold BusData.penaltyCost
      cases hp' : b'.excessPenalty with
      | none => rfl
      | some pen' =>
        obtain ⟨e1, e2⟩ := excess_outside hv hf h hb' (by simp [hp'])
        simp only [g2 _ e1, g2 _ e2]
    have hlt : (s.buses.map fun b => b.penaltyCost sys σ').sum < (s.buses.map fun b => b.penaltyCost sys σ).sum := by
      have hin : ∀ b' ∈ s.buses, b'.label = b.label → b' = b := fun b' hb' e => List.inj_on_of_nodup_map (bus_label_nodup h) hb' hb e
      have hd : ∀ b' ∈ s.buses, b'.penaltyCost sys σ' = b'.penaltyCost sys σ - (if b' = b then pen.at t * sys.dt.getD t 0 * (2 * m) else 0) := by
        intro b' hb'
        rw [hpen b' hb']
        exact penaltyCost_lessExcess (hin b' hb') hp ht
      have hdec : 0 < pen.at t * sys.dt.getD t 0 * (2 * m) := by positivity
      refine List.sum_lt_sum _ _ (fun b' hb' => ?_) ⟨b, hb, ?_⟩
      · rw [hd b' hb']
        split <;> linarith
      · rw [hd b hb, if_pos rfl]
        linarith
    have hsame : ∑ k ∈ Finset.range sys.n, σ' (e.label ++ "__operation_operation_sum_TS") k + σ' (e.label ++ "__invest_invest_sum") 0 =
        ∑ k ∈ Finset.range sys.n, σ (e.label ++ "__operation_operation_sum_TS") k + σ (e.label ++ "__invest_invest_sum") 0 := by
      obtain ⟨q1, q2⟩ := g3 e hem
      rw [show σ' (e.label ++ "__operation_operation_sum_TS") = fun t => σ (opTSL e.label) t from q1, show σ' (e.label ++ "__invest_invest_sum") 0 = σ (invSumL e.label) 0 from q2]
      rfl
    unfold System.cost at hle
    linarith
  rcases min_choice (σ (b.label ++ "_" ++ "excess_input") t) (σ (b.label ++ "_" ++ "excess_output") t) with e | e
  · rw [e] at key
    rw [key] at n3 ⊢
    constructor
    · rw [max_eq_left (by linarith)]
    · rw [max_eq_right (by linarith)]; linarith
  · rw [e] at key
    rw [key] at n3 ⊢
    constructor
    · rw [max_eq_right (by linarith)]; linarith
    · rw [max_eq_left (by linarith)]

/-- A source that has to deliver 2 into a bus nobody takes from. -/
def exWaste : System :=
  { effects := [{ label := "costs", isStandard := true, isObjective := true }]
    comps := [.plain { label := "Src", inputs := [], outputs := [{ label := "Q", bus := "heat", size := .num 2, relMin := .s 1 }] }]
    buses := [{ label := "heat", excessPenalty := some (.s 100) }] }

def exWasteSol : Assignment := tableSol
  [("heat_excess_output", [2, 2, 2]), ("Effects__penalty_penalty_sum", [800]), ("Effects__heat__excess_output", [800]),
   ("Src__Q_flow_rate", [2, 2, 2]), ("Src__Q_sumFlowHours", [8])]

def exWasteRate : Var := { label := "Src__Q_flow_rate", length := 3, lb := some (.s 2), ub := some (.s 2) }

theorem exWaste_fits : exWaste.Fits exSys.n := by
  refine ⟨?_, ?_, ?_⟩
  · simp only [exWaste, List.forall_mem_cons, List.not_mem_nil, false_imp_iff, implies_true, and_true]
    constructor <;> simp
  · simp only [exWaste, List.forall_mem_cons, List.not_mem_nil, false_imp_iff, implies_true, and_true]
    refine ⟨?_, by simp [Comp.onOff], by simp⟩
    simp only [Comp.flows, Comp.inputs, Comp.outputs, List.nil_append, List.forall_mem_cons, List.not_mem_nil, false_imp_iff, implies_true, and_true]
    exact ⟨by simp [EffDict.Series], by simp, by simp⟩
  · simp only [exWaste, List.forall_mem_cons, List.not_mem_nil, false_imp_iff, implies_true, and_true]
    intro pen hp
    cases hp
    exact Or.inl rfl

/-- The hypotheses of `C76` are met: an optimal solution with excess. -/
theorem exWaste_optimal : ∃ o, systemModel exSys exWaste = .ok o ∧ o.Optimal exWasteSol := by
  obtain ⟨o, h, hs⟩ := builds_and_solves (σ := exWasteSol) (r := systemModel exSys exWaste)
    (f := fun o : SysOut => MTree.node o.solver.vars o.solver.cons []) (by decide +kernel)
  obtain ⟨o', h', hx⟩ := of_okB (p := fun o : SysOut => decide (exWasteRate ∈ o.solver.vars)) (r := systemModel exSys exWaste) (by decide +kernel)
  rw [h] at h'
  cases h'
  have hsol : o.solver.Solves exWasteSol := ⟨hs.1, hs.2.1⟩
  obtain ⟨terms, e, ht, he, hcost⟩ := solution_cost exSys_valid (by decide) exWaste_fits h
  refine ⟨o, h, hsol, terms, ht, fun τ hτ => ?_⟩
  rw [hcost _ hsol, hcost τ hτ]
  have he' : e = { label := "costs", isStandard := true, isObjective := true } := by
    simp only [exWaste, List.find?_cons, Option.some.injEq] at he
    exact he.symm
  subst he'
  have hval : exWaste.cost exSys { label := "costs", isStandard := true, isObjective := true } exWasteSol = 800 := by decide +kernel
  rw [hval]
  have o1 := (C21_system_operation exSys_valid (by decide) exWaste_fits h hτ (List.mem_of_find?_eq_some he)).1
  have o2 := (C21_system_invest exSys_valid (by decide) exWaste_fits h hτ (List.mem_of_find?_eq_some he)).1
  have z1 : ∀ t < exSys.n, τ ("costs" ++ "__operation_operation_sum_TS") t = 0 := by
    intro t ht
    rw [o1 t ht]
    simp [exWaste, Comp.operation, Comp.flows, Comp.inputs, Comp.outputs, flowOperation, onOffOperation, effVal, Comp.onOff, fromOthersOp]
  have z2 : τ ("costs" ++ "__invest_invest_sum") 0 = 0 := by
    rw [o2]
    simp [exWaste, Comp.investment, Comp.flows, Comp.inputs, Comp.outputs, flowInvestment, fromOthersInv]
  have hr : ∀ t < 3, τ "Src__Q_flow_rate" t = 2 := by
    intro t ht
    have := C04_bounds (x := exWasteRate) (by decide +kernel) (hτ.1 exWasteRate (by simpa using hx)) t ht
    exact le_antisymm (this.2.1 _ rfl) (this.1 _ rfl)
  unfold System.cost
  rw [Finset.sum_eq_zero fun t ht => z1 t (Finset.mem_range.1 ht), z2]
  have hb := fun t ht => (C27_system exSys_valid h hτ (b := { label := "heat", excessPenalty := some (.s 100) }) (by simp [exWaste])).2 (.s 100) rfl (Or.inl rfl) t ht
  have f1 : ∀ t < 3, fedInto τ exWaste "heat" t = 2 := by
    intro t ht
    simpa [fedInto, exWaste, Comp.outputs, Comp.label] using hr t ht
  have f2 : ∀ t < 3, takenFrom τ exWaste "heat" t = 0 := by
    intro t ht
    simp [takenFrom, exWaste, Comp.inputs]
  have hb0 := hb 0 (by decide)
  have hb1 := hb 1 (by decide)
  have hb2 := hb 2 (by decide)
  simp only [f1 0 (by decide), f1 1 (by decide), f1 2 (by decide), f2 0 (by decide), f2 1 (by decide), f2 2 (by decide)] at hb0 hb1 hb2
  rw [show ("heat" ++ "_" ++ "excess_input" : String) = "heat_excess_input" by decide +kernel, show ("heat" ++ "_" ++ "excess_output" : String) = "heat_excess_output" by decide +kernel] at hb0 hb1 hb2
  simp only [exWaste, List.map_cons, List.map_nil, List.sum_cons, List.sum_nil, BusData.penaltyCost, exSys, Finset.sum_range_succ, Finset.sum_range_zero, Num.at]
  simp
  linarith [hb0.1, hb1.1, hb2.1, hb0.2.1, hb1.2.1, hb2.2.1]

end Flix
