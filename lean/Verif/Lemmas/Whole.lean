import Verif.Props.Account

/-!
# Solutions of a whole system in terms of the declared data
-/

namespace Flix

variable {sys : Sys} {s : System} {o : SysOut}

/-- The balance of a bus, in terms of what is connected to it. -/
def System.BusOk (sys : Sys) (s : System) (σ : Assignment) (b : BusData) : Prop :=
  (b.excessPenalty = none → ∀ t < sys.n, fedInto σ s b.label t = takenFrom σ s b.label t) ∧
  (b.excessPenalty ≠ none → ∀ t < sys.n, 0 ≤ σ (b.label ++ "_" ++ "excess_input") t ∧ 0 ≤ σ (b.label ++ "_" ++ "excess_output") t ∧
    fedInto σ s b.label t + σ (b.label ++ "_" ++ "excess_input") t = takenFrom σ s b.label t + σ (b.label ++ "_" ++ "excess_output") t)

theorem buses_iff (hv : sys.Valid) (hf : s.Fits sys.n) (h : systemModel sys s = .ok o) (σ : Assignment) :
    (∀ ob ∈ o.buses, ob.tree.Solves σ) ↔ ∀ b ∈ s.buses, s.BusOk sys σ b := by
  obtain ⟨h1, h2, _, _⟩ := system_inv h
  have f1 := fun l t => busFlows_all (σ := σ) (n := sys.n) (t := t) Comp.outputs (·.outputs) (forall₂_imp' h1 fun c _ oc h => (model_flowOf h).2) (bus := l)
  have f2 := fun l t => busFlows_all (σ := σ) (n := sys.n) (t := t) Comp.inputs (·.inputs) (forall₂_imp' h1 fun c _ oc h => (model_flowOf h).1) (bus := l)
  have e1 : ∀ l t, flowSum σ (busFlows (o.comps.map (·.outputs)).flatten l) t = fedInto σ s l t := fun l t => (f1 l t).1
  have e2 : ∀ l t, flowSum σ (busFlows (o.comps.map (·.inputs)).flatten l) t = takenFrom σ s l t := fun l t => (f2 l t).1
  have each : ∀ b ∈ s.buses, ∀ ob, busModel sys b (busFlows (o.comps.map (·.outputs)).flatten b.label) (busFlows (o.comps.map (·.inputs)).flatten b.label) = .ok ob →
      (ob.tree.Solves σ ↔ s.BusOk sys σ b) := by
    intro b hb ob hm
    cases hp : b.excessPenalty with
    | none =>
      rw [(bus_none hm hp (f1 _ 0).2 (f2 _ 0).2).2.2.2 σ]
      unfold System.BusOk
      simp only [hp, e1, e2, true_implies, ne_eq, not_true_eq_false, false_implies, and_true]
      constructor
      · rintro (⟨ha, hb⟩ | hx)
        · intro t _
          rw [← e1, ← e2, ha, hb]
        · exact hx
      · exact Or.inr
    | some pen =>
      obtain ⟨ein, eout, f, _, _, l1, l2, _, _, _, _, _, hiff⟩ := bus_some hv hm hp (hf.buses b hb pen hp) (f1 _ 0).2 (f2 _ 0).2
      rw [hiff σ, l1, l2]
      unfold System.BusOk
      simp only [hp, e1, e2, reduceCtorEq, false_implies, ne_eq, not_false_eq_true, true_implies, true_and, excessInL, excessOutL]
      constructor
      · rintro ⟨a, b, c⟩ t ht
        exact ⟨a t ht, b t ht, c t ht⟩
      · intro hh
        exact ⟨fun t ht => (hh t ht).1, fun t ht => (hh t ht).2.1, fun t ht => (hh t ht).2.2⟩
  constructor
  · intro hs b hb
    obtain ⟨ob, hob, hm⟩ := forall₂_mem_left h2 hb
    exact (each b hb ob hm).1 (hs ob hob)
  · intro hs ob hob
    obtain ⟨b, hb, hm⟩ := forall₂_mem_right h2 hob
    exact (each b hb ob hm).2 (hs b hb)

/-- The totals of a solution add up and keep the limits. -/
theorem solution_totals (hv : sys.Valid) (hn : sys.n ≠ 0) (hf : s.Fits sys.n) (h : systemModel sys s = .ok o) {σ : Assignment} (hs : o.solver.Solves σ) :
    (⟨fun l t => σ (opTSL l) t, fun l => σ (invSumL l) 0⟩ : Totals).Balanced s.effects sys.n (s.opOf sys σ) (s.invOf σ) ∧
    ∀ e ∈ s.effects, (⟨fun l t => σ (opTSL l) t, fun l => σ (invSumL l) 0⟩ : Totals).Allowed sys e := by
  obtain ⟨_, _, h3, h4⟩ := system_inv h
  obtain ⟨hw, d1, d2, _⟩ := system_calls hv hf h
  obtain ⟨s1, s2, s3⟩ := (system_solves h σ).1 hs
  have rows := ((collection_iff hv hn h3 hf.effects hw).2.2.2.2 σ).1 s1
  refine ⟨fun e he => ⟨fun t ht => ?_, ?_⟩, fun e he => ?_⟩
  · have := (rows.effect e he).opStep t ht
    rw [d1 σ _ t ht] at this
    exact this
  · have := (rows.effect e he).inv
    rw [d2 σ] at this
    exact this
  · have r := rows.effect e he
    have hsum : σ (opSumL e.label) 0 = ∑ t ∈ Finset.range sys.n, σ (opTSL e.label) t := r.opTotal
    have hall := r.all
    rw [hsum] at hall
    refine ⟨?_, ?_, r.invBounds.totalMin, r.invBounds.totalMax, ?_, ?_, r.opBounds.stepMin _ rfl, r.opBounds.stepMax _ rfl⟩
    · intro m hm; have := r.opBounds.totalMin m hm; rw [hsum] at this; exact this
    · intro m hm; have := r.opBounds.totalMax m hm; rw [hsum] at this; exact this
    · intro m hm; have := r.allBounds.totalMin m hm; rw [hall] at this; exact this
    · intro m hm; have := r.allBounds.totalMax m hm; rw [hall] at this; exact this

/-- Given totals are taken over. -/
theorem solution_complete (hv : sys.Valid) (hn : sys.n ≠ 0) (hf : s.Fits sys.n) (h : systemModel sys s = .ok o) {σ : Assignment}
    (hc : ∀ c ∈ o.comps, c.tree.Solves σ) (hbus : ∀ b ∈ s.buses, s.BusOk sys σ b) {T : Totals}
    (hb : T.Balanced s.effects sys.n (s.opOf sys σ) (s.invOf σ)) (ha : ∀ e ∈ s.effects, T.Allowed sys e) :
    ∃ σ', o.solver.Solves σ' ∧ (∀ l, l ∉ o.coll.tree.labels → σ' l = σ l) ∧ ∀ e ∈ s.effects, σ' (opTSL e.label) = T.op e.label ∧ σ' (invSumL e.label) 0 = T.inv e.label := by
  obtain ⟨_, _, h3, h4⟩ := system_inv h
  obtain ⟨hw, d1, d2, _⟩ := system_calls hv hf h
  obtain ⟨r1, r2, r3⟩ := physical_refs h
  have hb' : T.Balanced s.effects sys.n (fun l t => direct σ s.effects o.calls .operation l t) (fun l => direct σ s.effects o.calls .invest l 0) := by
    intro e he
    obtain ⟨b1, b2⟩ := hb e he
    refine ⟨fun t ht => ?_, ?_⟩
    · simp only [d1 σ _ t ht]; exact b1 t ht
    · simp only [d2 σ]; exact b2
  obtain ⟨σ', c1, c2, c3⟩ := coll_extend hv hn h3 hf.effects hw (List.nodup_append.1 (system_labels h)).1
    (fun c hc x hx => physical_label h (r3 c hc x hx)) hb' ha
  have hag : ∀ x, o.Physical x → σ x.label = σ' x.label := fun x hx => (c2 _ (physical_label h hx)).symm
  refine ⟨σ', (system_solves h σ').2 ⟨c1, ?_, ?_⟩, c2, c3⟩
  · exact fun c hcm => solves_congr (r1 c hcm).1 (r1 c hcm).2 hag (hc c hcm)
  · exact fun b hbm => solves_congr (r2 b hbm).1 (r2 b hbm).2 hag ((buses_iff hv hf h σ).2 hbus b hbm)

/-- What a solution costs: the objective effect over the horizon, its investments and the penalties of all buses. -/
def System.cost (sys : Sys) (s : System) (e : EffectData) (σ : Assignment) : ℚ :=
  ∑ t ∈ Finset.range sys.n, σ (e.label ++ "__operation_operation_sum_TS") t + σ (e.label ++ "__invest_invest_sum") 0 + (s.buses.map fun b => b.penaltyCost sys σ).sum

theorem solution_cost (hv : sys.Valid) (hn : sys.n ≠ 0) (hf : s.Fits sys.n) (h : systemModel sys s = .ok o) :
    ∃ terms e, objectiveTerms o.solver.objective = .ok terms ∧ s.effects.find? (·.isObjective) = some e ∧ ∀ σ : Assignment, o.solver.Solves σ →
      termsVal σ terms = s.cost sys e σ := by
  obtain ⟨terms, e, ht, he, hval⟩ := C22_system hv hn hf h
  refine ⟨terms, e, ht, he, fun σ hs => ?_⟩
  have hem : e ∈ s.effects := List.mem_of_find?_eq_some he
  rw [hval σ hs, (C21_system_invest hv hn hf h hs hem).2, (C21_system_operation hv hn hf h hs hem).2]
  rfl

/-- What a component contributes depends on its own variables only. -/
theorem contrib_congr (hv : sys.Valid) {c : Comp} {oc : CompOut} (hf : c.EffFits sys.n) (h : c.model sys = .ok oc) {σ τ : Assignment}
    (hst : ∀ x, oc.tree.HasVar x → σ x.label = τ x.label) (es : List EffectData) (l : String) :
    (∀ t < sys.n, c.operation sys.width σ es l t = c.operation sys.width τ es l t) ∧ c.investment σ es l = c.investment τ es l := by
  obtain ⟨_, x2, x3⟩ := model_calls hv hf h
  have key : ∀ tg t, direct σ es oc.shares tg l t = direct τ es oc.shares tg l t := by
    intro tg t
    unfold direct
    congr 1
    refine List.map_congr_left fun q hq => share_value_congr (fun x hx => hst x ?_) t
    exact (model_refs h (vars_hasVar _)).2.1 q (List.mem_filter.1 hq).1 x hx
  exact ⟨fun t ht => by rw [← x2 σ es l t ht, ← x2 τ es l t ht, key], by rw [← x3 σ es l, ← x3 τ es l, key]⟩

theorem contribs_congr (hv : sys.Valid) (hf : s.Fits sys.n) (h : systemModel sys s = .ok o) {σ τ : Assignment}
    (hst : ∀ oc ∈ o.comps, ∀ x, oc.tree.HasVar x → σ x.label = τ x.label) (l : String) :
    (∀ t < sys.n, s.opOf sys σ l t = s.opOf sys τ l t) ∧ s.invOf σ l = s.invOf τ l := by
  have each : ∀ c ∈ s.comps, (∀ t < sys.n, c.operation sys.width σ s.effects l t = c.operation sys.width τ s.effects l t) ∧ c.investment σ s.effects l = c.investment τ s.effects l := by
    intro c hc
    obtain ⟨oc, hoc, hm⟩ := forall₂_mem_left (system_inv h).1 hc
    exact contrib_congr hv (hf.comps c hc) hm (hst oc hoc) s.effects l
  unfold System.opOf System.invOf
  exact ⟨fun t ht => by rw [List.map_congr_left fun c hc => (each c hc).1 t ht], by rw [List.map_congr_left fun c hc => (each c hc).2]⟩

end Flix
