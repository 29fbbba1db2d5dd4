import Verif.Props.Optimum

/-!
# C77: a component that may stay idle never makes a system worse
-/

namespace Flix

variable {sys : Sys} {s : System} {o : SysOut}

/-- In `σ` the component `c` moves nothing and costs nothing. -/
structure Comp.Idle (sys : Sys) (es : List EffectData) (σ : Assignment) (c : Comp) : Prop where
  rates : ∀ f ∈ c.inputs ++ c.outputs, ∀ t < sys.n, σ (c.label ++ "__" ++ f.label ++ "_" ++ "flow_rate") t = 0
  operation : ∀ e ∈ es, ∀ t < sys.n, c.operation sys.width σ es e.label t = 0
  investment : ∀ e ∈ es, c.investment σ es e.label = 0

/-- The system with one more component, added last as `FlowSystem.add_components` does (flow_system.py:72-104). -/
def System.with (s : System) (c : Comp) : System := { s with comps := s.comps ++ [c] }

/-- Every flow rate is a variable of the component. -/
theorem rate_hasVar {c : Comp} {oc : CompOut} (h : c.model sys = .ok oc) {f : FlowData} (hf : f ∈ c.inputs ++ c.outputs) :
    ∃ x, oc.tree.HasVar x ∧ x.label = c.label ++ "__" ++ f.label ++ "_" ++ "flow_rate" := by
  obtain ⟨h1, h2⟩ := model_flowOf h
  have hr := (model_refs h (vars_hasVar _)).2.2
  rcases List.mem_append.1 hf with hf | hf
  · obtain ⟨q, hq, e⟩ := forall₂_mem_left h1 hf
    exact ⟨_, (hr q (List.mem_append_left _ hq)).1, e.2.2.1⟩
  · obtain ⟨q, hq, e⟩ := forall₂_mem_left h2 hf
    exact ⟨_, (hr q (List.mem_append_right _ hq)).1, e.2.2.1⟩

/-- What is fed in and taken depends on the variables of the components only. -/
theorem flows_congr (h : systemModel sys s = .ok o) {σ τ : Assignment} (hst : ∀ oc ∈ o.comps, ∀ x, oc.tree.HasVar x → σ x.label = τ x.label) (b : String) (t : Nat) :
    fedInto σ s b t = fedInto τ s b t ∧ takenFrom σ s b t = takenFrom τ s b t := by
  have each : ∀ c ∈ s.comps, ∀ f ∈ c.inputs ++ c.outputs, σ (c.label ++ "__" ++ f.label ++ "_" ++ "flow_rate") = τ (c.label ++ "__" ++ f.label ++ "_" ++ "flow_rate") := by
    intro c hc f hf
    obtain ⟨oc, hoc, hm⟩ := forall₂_mem_left (system_inv h).1 hc
    obtain ⟨x, hx, hl⟩ := rate_hasVar hm hf
    rw [← hl]
    exact hst oc hoc x hx
  unfold fedInto takenFrom
  constructor
  · refine congrArg List.sum (List.map_congr_left fun c hc => congrArg List.sum (List.map_congr_left fun f hf => ?_))
    rw [each c hc f (List.mem_append_right _ (List.mem_filter.1 hf).1)]
  · refine congrArg List.sum (List.map_congr_left fun c hc => congrArg List.sum (List.map_congr_left fun f hf => ?_))
    rw [each c hc f (List.mem_append_left _ (List.mem_filter.1 hf).1)]

/-- Solutions carry over between systems with the same effects and buses if the components are solved and the flows and contributions are the same. -/
theorem transfer (hv : sys.Valid) (hn : sys.n ≠ 0) {s₁ s₂ : System} {o₁ o₂ : SysOut} (hf₁ : s₁.Fits sys.n) (hf₂ : s₂.Fits sys.n) (h₁ : systemModel sys s₁ = .ok o₁)
    (h₂ : systemModel sys s₂ = .ok o₂) (he : s₂.effects = s₁.effects) (hb : s₂.buses = s₁.buses) {σ τ : Assignment} (hs : o₁.solver.Solves σ)
    (hc : ∀ oc ∈ o₂.comps, oc.tree.Solves τ) (hfed : ∀ b t, t < sys.n → fedInto τ s₂ b t = fedInto σ s₁ b t) (htak : ∀ b t, t < sys.n → takenFrom τ s₂ b t = takenFrom σ s₁ b t)
    (hex : ∀ b ∈ s₁.buses, b.excessPenalty ≠ none → τ (b.label ++ "_" ++ "excess_input") = σ (b.label ++ "_" ++ "excess_input") ∧ τ (b.label ++ "_" ++ "excess_output") = σ (b.label ++ "_" ++ "excess_output"))
    (hop : ∀ e ∈ s₁.effects, (∀ t < sys.n, s₂.opOf sys τ e.label t = s₁.opOf sys σ e.label t) ∧ s₂.invOf τ e.label = s₁.invOf σ e.label) :
    ∃ σ', o₂.solver.Solves σ' ∧ (∀ l, l ∉ o₂.coll.tree.labels → σ' l = τ l) ∧
      (∀ e ∈ s₁.effects, (∀ t < sys.n, σ' (e.label ++ "__operation_operation_sum_TS") t = σ (e.label ++ "__operation_operation_sum_TS") t) ∧
        σ' (e.label ++ "__invest_invest_sum") 0 = σ (e.label ++ "__invest_invest_sum") 0) ∧
      ∃ t₁ t₂, objectiveTerms o₁.solver.objective = .ok t₁ ∧ objectiveTerms o₂.solver.objective = .ok t₂ ∧ termsVal σ' t₂ = termsVal σ t₁ := by
  obtain ⟨_, _, s3⟩ := (system_solves h₁ σ).1 hs
  have hbus := (buses_iff hv hf₁ h₁ σ).1 s3
  obtain ⟨tb, ta⟩ := solution_totals hv hn hf₁ h₁ hs
  have hbus' : ∀ b ∈ s₂.buses, s₂.BusOk sys τ b := by
    intro b hbm
    rw [hb] at hbm
    obtain ⟨g1, g2⟩ := hbus b hbm
    refine ⟨fun hp t ht => ?_, fun hp t ht => ?_⟩
    · rw [hfed _ t ht, htak _ t ht]; exact g1 hp t ht
    · rw [hfed _ t ht, htak _ t ht, (hex b hbm hp).1, (hex b hbm hp).2]; exact g2 hp t ht
  have tb' : (⟨fun l t => σ (opTSL l) t, fun l => σ (invSumL l) 0⟩ : Totals).Balanced s₂.effects sys.n (s₂.opOf sys τ) (s₂.invOf τ) := by
    rw [he]
    intro e hem
    obtain ⟨u1, u2⟩ := tb e hem
    refine ⟨fun t ht => ?_, ?_⟩
    · rw [(hop e hem).1 t ht]; exact u1 t ht
    · rw [(hop e hem).2]; exact u2
  obtain ⟨σ', g1, g2, g3⟩ := solution_complete hv hn hf₂ h₂ hc hbus' tb' (by rw [he]; exact ta)
  rw [he] at g3
  have same : ∀ e ∈ s₁.effects, (∀ t < sys.n, σ' (e.label ++ "__operation_operation_sum_TS") t = σ (e.label ++ "__operation_operation_sum_TS") t) ∧
        σ' (e.label ++ "__invest_invest_sum") 0 = σ (e.label ++ "__invest_invest_sum") 0 := by
    intro e hem
    obtain ⟨q1, q2⟩ := g3 e hem
    exact ⟨fun t _ => congrFun q1 t, q2⟩
  refine ⟨σ', g1, g2, same, ?_⟩
  obtain ⟨t₁, e₁, a1, a2, a3⟩ := solution_cost hv hn hf₁ h₁
  obtain ⟨t₂, e₂, b1, b2, b3⟩ := solution_cost hv hn hf₂ h₂
  rw [he, a2] at b2
  cases b2
  refine ⟨t₁, t₂, a1, b1, ?_⟩
  rw [a3 σ hs, b3 σ' g1]
  have hem := List.mem_of_find?_eq_some a2
  unfold System.cost
  rw [Finset.sum_congr rfl fun t ht => (same _ hem).1 t (Finset.mem_range.1 ht), (same _ hem).2, hb]
  congr 1
  refine congrArg List.sum (List.map_congr_left fun b hbm => ?_)
  unfold BusData.penaltyCost
  cases hp : b.excessPenalty with
  | none => rfl
  | some pen =>
    obtain ⟨e1, e2⟩ := excess_outside hv hf₂ h₂ (by rw [hb]; exact hbm) (by simp [hp])
    obtain ⟨x1, x2⟩ := hex b hbm (by simp [hp])
    simp only [g2 _ e1, g2 _ e2, x1, x2]

theorem with_fits {c : Comp} {n : Nat} (h : (s.with c).Fits n) : s.Fits n :=
  ⟨h.effects, fun d hd => h.comps d (List.mem_append_left _ hd), h.buses⟩

/-- The models of the other components stay the same. -/
theorem with_comps {c : Comp} {o' : SysOut} (h : systemModel sys s = .ok o) (h' : systemModel sys (s.with c) = .ok o') :
    ∃ oc, c.model sys = .ok oc ∧ o'.comps = o.comps ++ [oc] := by
  have h1 := (system_inv h).1
  have h2 : List.Forall₂ (fun c oc => Comp.model sys c = .ok oc) (s.comps ++ [c]) o'.comps := (system_inv h').1
  generalize s.comps = cs at h1 h2
  generalize o.comps = ocs at h1 ⊢
  generalize o'.comps = ocs' at h2 ⊢
  induction h1 generalizing ocs' with
  | nil =>
    cases h2 with
    | cons a b =>
      cases b
      exact ⟨_, a, rfl⟩
  | cons a b ih =>
    rename_i c0 oc0 cs0 ocs0
    cases h2 with
    | cons a' b' =>
      rw [a] at a'
      cases a'
      obtain ⟨oc, k1, k2⟩ := ih _ b'
      exact ⟨oc, k1, by rw [k2]; rfl⟩

theorem with_flows (σ : Assignment) (s : System) (c : Comp) (hi : ∀ f ∈ c.inputs ++ c.outputs, ∀ t < sys.n, σ (c.label ++ "__" ++ f.label ++ "_" ++ "flow_rate") t = 0) (b : String) {t : Nat}
    (ht : t < sys.n) : fedInto σ (s.with c) b t = fedInto σ s b t ∧ takenFrom σ (s.with c) b t = takenFrom σ s b t := by
  have z : ∀ fs : List FlowData, (∀ f ∈ fs, f ∈ c.inputs ++ c.outputs) → ((fs.filter fun f => f.bus = b).map fun f => σ (c.label ++ "__" ++ f.label ++ "_" ++ "flow_rate") t).sum = 0 := by
    intro fs hfs
    refine List.sum_eq_zero fun x hx => ?_
    obtain ⟨f, hf, rfl⟩ := List.mem_map.1 hx
    exact hi f (hfs f (List.mem_filter.1 hf).1) t ht
  unfold fedInto takenFrom System.with
  simp only [List.map_append, List.sum_append, List.map_cons, List.map_nil, List.sum_cons, List.sum_nil]
  rw [z _ fun f hf => List.mem_append_right _ hf, z _ fun f hf => List.mem_append_left _ hf]
  simp

theorem with_contrib (σ : Assignment) {c : Comp} (hi : c.Idle sys s.effects σ) {e : EffectData} (he : e ∈ s.effects) :
    (∀ t < sys.n, (s.with c).opOf sys σ e.label t = s.opOf sys σ e.label t) ∧ (s.with c).invOf σ e.label = s.invOf σ e.label := by
  unfold System.opOf System.invOf System.with
  simp only [List.map_append, List.sum_append, List.map_cons, List.map_nil, List.sum_cons, List.sum_nil]
  exact ⟨fun t ht => by rw [hi.operation e he t ht]; simp, by rw [hi.investment e he]; simp⟩

/-- Being idle depends on the component's own variables only. -/
theorem idle_congr (hv : sys.Valid) {c : Comp} {oc : CompOut} (hf : c.EffFits sys.n) (h : c.model sys = .ok oc) {es : List EffectData} {σ τ : Assignment}
    (hst : ∀ x, oc.tree.HasVar x → σ x.label = τ x.label) (hi : c.Idle sys es σ) : c.Idle sys es τ := by
  refine ⟨fun f hf t ht => ?_, fun e he t ht => ?_, fun e he => ?_⟩
  · obtain ⟨x, hx, hl⟩ := rate_hasVar h hf
    rw [← hl, ← hst x hx, hl]
    exact hi.rates f hf t ht
  · rw [← (contrib_congr hv hf h hst es e.label).1 t ht]; exact hi.operation e he t ht
  · rw [← (contrib_congr hv hf h hst es e.label).2]; exact hi.investment e he

/-- The variables of the buses are their excesses. -/
theorem bus_vars (hv : sys.Valid) (hf : s.Fits sys.n) (h : systemModel sys s = .ok o) {ob : BusOut} (hob : ob ∈ o.buses) {x : Var} (hx : ob.tree.HasVar x) :
    ∃ b ∈ s.buses, b.excessPenalty ≠ none ∧ (x.label = b.label ++ "_" ++ "excess_input" ∨ x.label = b.label ++ "_" ++ "excess_output") := by
  obtain ⟨h1, h2, _, _⟩ := system_inv h
  obtain ⟨b, hb, hm⟩ := forall₂_mem_right h2 hob
  refine ⟨b, hb, ?_⟩
  cases hp : b.excessPenalty with
  | none =>
    unfold busModel at hm
    rw [hp] at hm
    simp only [Except.ok.injEq] at hm
    subst hm
    have := hasVar_labels hx
    simp [MTree.labels, MTree.nodes, MTree.nodesAll, MTree.vars] at this
  | some pen =>
    obtain ⟨ein, eout, f, x1, x2, l1, l2, _⟩ := bus_some hv hm hp (hf.buses b hb pen hp)
      (busFlows_all (σ := fun _ _ => 0) (n := sys.n) (t := 0) Comp.outputs (·.outputs) (forall₂_imp' h1 fun c _ oc h => (model_flowOf h).2) (bus := b.label)).2
      (busFlows_all (σ := fun _ _ => 0) (n := sys.n) (t := 0) Comp.inputs (·.inputs) (forall₂_imp' h1 fun c _ oc h => (model_flowOf h).1) (bus := b.label)).2
    have := hasVar_labels hx
    rw [bus_labels hm x1 x2, l1, l2] at this
    simpa [excessInL, excessOutL] using this

/-- **C77 (adding).**  If a component can be operated so that it moves and costs nothing, every solution of the system without it is, with the same
values of all components and buses, the same effects and the same objective, a solution of the system with it. -/
theorem C77_add (hv : sys.Valid) (hn : sys.n ≠ 0) {c : Comp} {o' : SysOut} (hf : (s.with c).Fits sys.n) (h : systemModel sys s = .ok o) (h' : systemModel sys (s.with c) = .ok o')
    {oc : CompOut} (hc : c.model sys = .ok oc) {ρ : Assignment} (hρ : oc.tree.Solves ρ) (hi : c.Idle sys s.effects ρ) {σ : Assignment} (hs : o.solver.Solves σ) :
    ∃ σ', o'.solver.Solves σ' ∧ (∀ x, o.Physical x → σ' x.label = σ x.label) ∧ c.Idle sys s.effects σ' ∧
      (∀ e ∈ s.effects, (∀ t < sys.n, σ' (e.label ++ "__operation_operation_sum_TS") t = σ (e.label ++ "__operation_operation_sum_TS") t) ∧
        σ' (e.label ++ "__invest_invest_sum") 0 = σ (e.label ++ "__invest_invest_sum") 0) ∧
      ∃ t₁ t₂, objectiveTerms o.solver.objective = .ok t₁ ∧ objectiveTerms o'.solver.objective = .ok t₂ ∧ termsVal σ' t₂ = termsVal σ t₁ := by
  obtain ⟨oc', k1, k2⟩ := with_comps h h'
  rw [hc] at k1
  cases k1
  have hmem : oc ∈ o'.comps := by rw [k2]; simp
  have hfc : c.EffFits sys.n := hf.comps c (List.mem_append_right _ (by simp))
  have hl := (List.nodup_append.1 (system_labels h')).2.1
  rw [List.flatMap_append, List.nodup_append, k2, List.map_append, List.flatMap_append, List.nodup_append] at hl
  have hdis : ∀ d ∈ o.comps, ∀ x, d.tree.HasVar x → x.label ∉ oc.tree.labels := by
    intro d hd x hx hm
    exact hl.1.2.2 _ (List.mem_flatMap.2 ⟨_, List.mem_map_of_mem hd, hasVar_labels hx⟩) _ (by simpa using hm) rfl
  let τ : Assignment := fun l => if l ∈ oc.tree.labels then ρ l else σ l
  have t1 : ∀ x, oc.tree.HasVar x → ρ x.label = τ x.label := fun x hx => (if_pos (hasVar_labels hx)).symm
  have t2 : ∀ l, l ∉ oc.tree.labels → τ l = σ l := fun l hx => if_neg hx
  obtain ⟨_, s2, _⟩ := (system_solves h σ).1 hs
  have hcomps : ∀ d ∈ o'.comps, d.tree.Solves τ := by
    rw [k2]
    intro d hd
    rcases List.mem_append.1 hd with hd | hd
    · obtain ⟨c', _, hm⟩ := forall₂_mem_right (system_inv h).1 hd
      exact solves_congr (vars_hasVar _) (model_refs hm (vars_hasVar _)).1 (fun x hx => (t2 _ (hdis d hd x hx)).symm) (s2 d hd)
    · rw [List.mem_singleton] at hd
      subst hd
      exact solves_congr (vars_hasVar _) (model_refs hc (vars_hasVar _)).1 t1 hρ
  have hiτ : c.Idle sys s.effects τ := idle_congr hv hfc hc t1 hi
  have hag : ∀ d ∈ o.comps, ∀ x, d.tree.HasVar x → τ x.label = σ x.label := fun d hd x hx => t2 _ (hdis d hd x hx)
  have hex : ∀ b ∈ s.buses, b.excessPenalty ≠ none → τ (b.label ++ "_" ++ "excess_input") = σ (b.label ++ "_" ++ "excess_input") ∧ τ (b.label ++ "_" ++ "excess_output") = σ (b.label ++ "_" ++ "excess_output") := by
    intro b hb hp
    have := fun x hx => comp_not_excess hv hf h' (b := b) hb hp hmem (x := x) hx
    constructor
    · refine t2 _ fun hm => ?_
      obtain ⟨x, hx, e⟩ := hasVar_of_label hm
      exact (this x hx).1 e
    · refine t2 _ fun hm => ?_
      obtain ⟨x, hx, e⟩ := hasVar_of_label hm
      exact (this x hx).2 e
  obtain ⟨σ', g1, g2, g3, g4⟩ := transfer hv hn (with_fits hf) hf h h' rfl rfl hs hcomps
    (fun b t ht => by rw [(with_flows τ s c hiτ.rates b ht).1, (flows_congr h hag b t).1])
    (fun b t ht => by rw [(with_flows τ s c hiτ.rates b ht).2, (flows_congr h hag b t).2]) hex
    (fun e he => ⟨fun t ht => by rw [(with_contrib τ hiτ he).1 t ht, (contribs_congr hv (with_fits hf) h hag e.label).1 t ht],
      by rw [(with_contrib τ hiτ he).2, (contribs_congr hv (with_fits hf) h hag e.label).2]⟩)
  refine ⟨σ', g1, ?_, ?_, g3, g4⟩
  · rintro x (⟨d, hd, hx⟩ | ⟨ob, hob, hx⟩)
    · rw [g2 _ (physical_label h' (Or.inl ⟨d, by rw [k2]; exact List.mem_append_left _ hd, hx⟩))]
      exact hag d hd x hx
    · obtain ⟨b, hb, hp, e⟩ := bus_vars hv (with_fits hf) h hob hx
      obtain ⟨e1, e2⟩ := excess_outside hv hf h' (b := b) hb hp
      rcases e with e | e <;> rw [e]
      · rw [g2 _ e1, (hex b hb hp).1]
      · rw [g2 _ e2, (hex b hb hp).2]
  · refine idle_congr hv hfc hc (σ := τ) (fun x hx => ?_) hiτ
    exact (g2 _ (physical_label h' (Or.inl ⟨oc, hmem, hx⟩))).symm

/-- **C77 (removing).**  Conversely a component that stays idle in a solution can be left out: the rest is a solution of the system without it, with the
same values of all components and buses, the same effects and the same objective. -/
theorem C77_remove (hv : sys.Valid) (hn : sys.n ≠ 0) {c : Comp} {o' : SysOut} (hf : (s.with c).Fits sys.n) (h : systemModel sys s = .ok o) (h' : systemModel sys (s.with c) = .ok o')
    {σ' : Assignment} (hs : o'.solver.Solves σ') (hi : c.Idle sys s.effects σ') :
    ∃ σ, o.solver.Solves σ ∧ (∀ x, o.Physical x → σ x.label = σ' x.label) ∧
      (∀ e ∈ s.effects, (∀ t < sys.n, σ (e.label ++ "__operation_operation_sum_TS") t = σ' (e.label ++ "__operation_operation_sum_TS") t) ∧
        σ (e.label ++ "__invest_invest_sum") 0 = σ' (e.label ++ "__invest_invest_sum") 0) ∧
      ∃ t₁ t₂, objectiveTerms o'.solver.objective = .ok t₁ ∧ objectiveTerms o.solver.objective = .ok t₂ ∧ termsVal σ t₂ = termsVal σ' t₁ := by
  obtain ⟨oc, k1, k2⟩ := with_comps h h'
  obtain ⟨_, s2, _⟩ := (system_solves h' σ').1 hs
  obtain ⟨σ, g1, g2, g3, g4⟩ := transfer hv hn hf (with_fits hf) h' h rfl rfl hs (fun d hd => s2 d (by rw [k2]; exact List.mem_append_left _ hd))
    (fun b t ht => ((with_flows σ' s c hi.rates b ht).1).symm) (fun b t ht => ((with_flows σ' s c hi.rates b ht).2).symm) (fun _ _ _ => ⟨rfl, rfl⟩)
    (fun e he => ⟨fun t ht => ((with_contrib σ' hi he).1 t ht).symm, ((with_contrib σ' hi he).2).symm⟩)
  exact ⟨σ, g1, fun x hx => g2 _ (physical_label h hx), g3, g4⟩

/-- **C77.**  A component that can stay idle never worsens the optimum. -/
theorem C77 (hv : sys.Valid) (hn : sys.n ≠ 0) {c : Comp} {o' : SysOut} (hf : (s.with c).Fits sys.n) (h : systemModel sys s = .ok o) (h' : systemModel sys (s.with c) = .ok o')
    (hi : ∃ oc ρ, c.model sys = .ok oc ∧ oc.tree.Solves ρ ∧ c.Idle sys s.effects ρ) {σ σ' : Assignment} (hs : o.Optimal σ) (hs' : o'.Optimal σ') :
    ∃ t₁ t₂, objectiveTerms o.solver.objective = .ok t₁ ∧ objectiveTerms o'.solver.objective = .ok t₂ ∧ termsVal σ' t₂ ≤ termsVal σ t₁ := by
  obtain ⟨oc, ρ, hc, hρ, hid⟩ := hi
  obtain ⟨τ, g1, _, _, _, t₁, t₂, e1, e2, e3⟩ := C77_add hv hn hf h h' hc hρ hid hs.1
  obtain ⟨_, t₃, e4, hmin⟩ := hs'
  rw [e2] at e4
  cases e4
  exact ⟨t₁, t₂, e1, e2, e3 ▸ hmin τ g1⟩

/-- The declared limits of a flow allow it to stand still. -/
structure FlowData.MayIdle (sys : Sys) (f : FlowData) : Prop where
  onOff : f.onOff = none
  fixed : ∀ q, f.size ≠ .invest q
  lower : ∀ t < sys.n, (f.absBounds sys.cfg).1.at t ≤ 0
  upper : ∀ t < sys.n, 0 ≤ (f.absBounds sys.cfg).2.at t
  hoursMin : ∀ m, f.flowHoursTotalMin = some m → m ≤ 0
  hoursMax : ∀ m, f.flowHoursTotalMax = some m → 0 ≤ m
  loadMin : ∀ m, f.loadFactorMin = some m → f.fixSize sys.cfg * (sys.total * m) ≤ 0
  loadMax : ∀ m, f.loadFactorMax = some m → 0 ≤ f.fixSize sys.cfg * (sys.total * m)

/-- **C77 (sources, sinks).**  A component without on/off parameters whose limits allow all its flows to stand still can stay idle. -/
theorem C77_plain (hv : sys.Valid) {c : CompData} {oc : CompOut} (h : Comp.model sys (.plain c) = .ok oc) (hc : c.onOff = none) (hp : c.prevent = [])
    (hfit : ∀ f ∈ c.inputs ++ c.outputs, f.Fits sys.n) (hf : ∀ f ∈ c.inputs ++ c.outputs, f.MayIdle sys) (es : List EffectData) :
    oc.tree.Solves (fun _ _ => 0) ∧ (Comp.plain c).Idle sys es (fun _ _ => 0) := by
  have h0 : compModel sys c = .ok oc := h
  obtain ⟨_, _, hon, prev, hprev, e1, e2, e3, _⟩ := comp_inv h0
  have hfill : ∀ f ∈ c.inputs ++ c.outputs, fillOnOff c f = f := by
    intro f _
    unfold fillOnOff
    simp [hc, hp]
  have hon' : oc.on = none := by
    unfold compOnOff at hon
    rw [hc] at hon
    simpa using hon.symm
  have hprev' : prev = [] := by
    unfold compPrevent at hprev
    rw [hp] at hprev
    simpa using hprev.symm
  constructor
  · rw [CompOut.tree, e1, e2, e3, hon', hprev']
    refine ⟨by simp, by simp, ?_⟩
    refine solvesAll_iff.2 fun t ht => ?_
    simp only [Option.map_none, Option.toList_none, List.append_nil, List.mem_map] at ht
    obtain ⟨q, hq, rfl⟩ := ht
    obtain ⟨f, hfm, _, hm⟩ := comp_flow_mem h0 q hq
    rw [hfill f hfm] at hm
    have hi := hf f hfm
    obtain ⟨_, k2, k3, _⟩ := flow_inv hm
    have n1 : q.2.onOff = none := by
      unfold flowOnOff at k2
      rw [hi.onOff] at k2
      simpa using k2.symm
    have n2 : q.2.invest = none := by
      cases hh : q.2.invest with
      | none => rfl
      | some i =>
        rw [hh] at k3
        obtain ⟨r, hr, _⟩ := flowInvest_some k3
        exact absurd hr (hi.fixed r)
    refine (flow_iff hv (hfit f hfm) hm _).2 ⟨fun _ => hi.lower, fun _ => hi.upper, fun _ _ _ => le_refl _, by simp, hi.hoursMin, hi.hoursMax, ?_, ?_, ?_, ?_, ?_, ?_⟩
    · simp [n2]
    · exact fun lf hlf _ => hi.loadMax lf hlf
    · simp [n2]
    · exact fun lf hlf _ => hi.loadMin lf hlf
    · simp [n1]
    · simp [n2]
  · refine ⟨fun _ _ _ _ => rfl, fun e _ t _ => ?_, fun e _ => ?_⟩
    · unfold Comp.operation
      have : ∀ f ∈ (Comp.plain c).flows, flowOperation sys.width (fun _ _ => 0) es (Comp.plain c).label f e.label t = 0 := by
        intro f hfm
        unfold flowOperation onOffOperation
        rw [(hf f hfm).onOff]
        simp
      rw [List.map_congr_left this]
      simp [Comp.onOff, hc, onOffOperation]
    · unfold Comp.investment
      have : ∀ f ∈ (Comp.plain c).flows, flowInvestment (fun _ _ => 0) es (Comp.plain c).label f e.label = 0 := by
        intro f hfm
        unfold flowInvestment
        have := (hf f hfm).fixed
        cases hz : f.size with
        | invest q => exact absurd hz (this q)
        | _ => rfl
      rw [List.map_congr_left this]
      simp

/-- A sink that may take up to 5 from the bus of `exWaste`. -/
def exSinkData : CompData := { label := "Snk", inputs := [{ label := "Q", bus := "heat", size := .num 5 }], outputs := [] }

def exSink : Comp := .plain exSinkData

def exSinkSol : Assignment := tableSol [("Src__Q_flow_rate", [2, 2, 2]), ("Src__Q_sumFlowHours", [8]), ("Snk__Q_flow_rate", [2, 2, 2]), ("Snk__Q_sumFlowHours", [8])]

theorem exSink_idle : ∃ oc ρ, exSink.model exSys = .ok oc ∧ oc.tree.Solves ρ ∧ exSink.Idle exSys exWaste.effects ρ := by
  obtain ⟨oc, h⟩ : ∃ oc, exSink.model exSys = .ok oc := builds (by decide +kernel)
  refine ⟨oc, _, h, C77_plain exSys_valid h rfl rfl ?_ ?_ _⟩
  · simp only [exSinkData, List.append_nil, List.forall_mem_cons, List.not_mem_nil, false_imp_iff, implies_true, and_true]
    constructor <;> simp
  · simp only [exSinkData, List.append_nil, List.forall_mem_cons, List.not_mem_nil, false_imp_iff, implies_true, and_true]
    constructor <;> simp [FlowData.absBounds, FlowData.relBounds, FlowData.effSize, pyOr, Num.map, Num.at]

theorem exSink_fits : (exWaste.with exSink).Fits exSys.n := by
  refine ⟨exWaste_fits.effects, ?_, exWaste_fits.buses⟩
  intro c hc
  rcases List.mem_append.1 hc with hc | hc
  · exact exWaste_fits.comps c hc
  · rw [List.mem_singleton] at hc
    subst hc
    refine ⟨?_, by simp [Comp.onOff, exSink, exSinkData], by simp [exSink]⟩
    simp only [exSink, exSinkData, Comp.flows, Comp.inputs, Comp.outputs, List.append_nil, List.forall_mem_cons, List.not_mem_nil, false_imp_iff, implies_true, and_true]
    exact ⟨by simp [EffDict.Series], by simp, by simp⟩

/-- With the sink nothing has to be thrown away. -/
theorem exSink_optimal : ∃ o, systemModel exSys (exWaste.with exSink) = .ok o ∧ o.Optimal exSinkSol := by
  obtain ⟨o, h, hs⟩ := builds_and_solves (σ := exSinkSol) (r := systemModel exSys (exWaste.with exSink))
    (f := fun o : SysOut => MTree.node o.solver.vars o.solver.cons []) (by decide +kernel)
  have hsol : o.solver.Solves exSinkSol := ⟨hs.1, hs.2.1⟩
  obtain ⟨terms, e, ht, he, hcost⟩ := solution_cost exSys_valid (by decide) exSink_fits h
  refine ⟨o, h, hsol, terms, ht, fun τ hτ => ?_⟩
  rw [hcost _ hsol, hcost τ hτ]
  have he' : e = { label := "costs", isStandard := true, isObjective := true } := by
    simp only [exWaste, System.with, List.find?_cons, Option.some.injEq] at he
    exact he.symm
  subst he'
  have hval : (exWaste.with exSink).cost exSys { label := "costs", isStandard := true, isObjective := true } exSinkSol = 0 := by decide +kernel
  rw [hval]
  have o1 := (C21_system_operation exSys_valid (by decide) exSink_fits h hτ (List.mem_of_find?_eq_some he)).1
  have o2 := (C21_system_invest exSys_valid (by decide) exSink_fits h hτ (List.mem_of_find?_eq_some he)).1
  have z1 : ∀ t < exSys.n, τ ("costs" ++ "__operation_operation_sum_TS") t = 0 := by
    intro t ht
    rw [o1 t ht]
    simp [exWaste, System.with, exSink, exSinkData, Comp.operation, Comp.flows, Comp.inputs, Comp.outputs, flowOperation, onOffOperation, effVal, Comp.onOff, fromOthersOp]
  have z2 : τ ("costs" ++ "__invest_invest_sum") 0 = 0 := by
    rw [o2]
    simp [exWaste, System.with, exSink, exSinkData, Comp.investment, Comp.flows, Comp.inputs, Comp.outputs, flowInvestment, fromOthersInv]
  unfold System.cost
  rw [Finset.sum_eq_zero fun t ht => z1 t (Finset.mem_range.1 ht), z2]
  have hb := fun t ht => (C27_system exSys_valid h hτ (b := { label := "heat", excessPenalty := some (.s 100) }) (by simp [exWaste, System.with])).2 (.s 100) rfl (Or.inl rfl) t ht
  have hb0 := (hb 0 (by decide)).2
  have hb1 := (hb 1 (by decide)).2
  have hb2 := (hb 2 (by decide)).2
  rw [show ("heat" ++ "_" ++ "excess_input" : String) = "heat_excess_input" by decide +kernel, show ("heat" ++ "_" ++ "excess_output" : String) = "heat_excess_output" by decide +kernel] at hb0 hb1 hb2
  simp only [exWaste, System.with, List.map_cons, List.map_nil, List.sum_cons, List.sum_nil, BusData.penaltyCost, exSys, Finset.sum_range_succ, Finset.sum_range_zero, Num.at]
  simp
  linarith [hb0.1, hb1.1, hb2.1, hb0.2, hb1.2, hb2.2]

/-- The hypotheses of `C77` are met, and the optimum gets better. -/
example : ∃ o o' t₁ t₂, systemModel exSys exWaste = .ok o ∧ systemModel exSys (exWaste.with exSink) = .ok o' ∧ objectiveTerms o.solver.objective = .ok t₁ ∧
    objectiveTerms o'.solver.objective = .ok t₂ ∧ termsVal exSinkSol t₂ ≤ termsVal exWasteSol t₁ := by
  obtain ⟨o, h, hs⟩ := exWaste_optimal
  obtain ⟨o', h', hs'⟩ := exSink_optimal
  obtain ⟨t₁, t₂, e⟩ := C77 exSys_valid (by decide) exSink_fits h h' exSink_idle hs hs'
  exact ⟨o, o', t₁, t₂, h, h', e⟩

/-- The hypotheses of `C77_add` are met. -/
example : ∃ o' σ', systemModel exSys (exWaste.with exSink) = .ok o' ∧ o'.solver.Solves σ' ∧ exSink.Idle exSys exWaste.effects σ' := by
  obtain ⟨o, h, hs⟩ := exWaste_optimal
  obtain ⟨o', h', _⟩ := exSink_optimal
  obtain ⟨oc, ρ, h1, h2, h3⟩ := exSink_idle
  obtain ⟨σ', g1, _, g2, _⟩ := C77_add exSys_valid (by decide) exSink_fits h h' h1 h2 h3 hs.1
  exact ⟨o', σ', h', g1, g2⟩

/-- The hypotheses of `C77_remove` are met. -/
example : ∃ o σ, systemModel exSys exWaste = .ok o ∧ o.solver.Solves σ := by
  obtain ⟨o, h, hs⟩ := exWaste_optimal
  obtain ⟨o', h', _⟩ := exSink_optimal
  obtain ⟨oc, ρ, h1, h2, h3⟩ := exSink_idle
  obtain ⟨σ', g1, _, g2, _⟩ := C77_add exSys_valid (by decide) exSink_fits h h' h1 h2 h3 hs.1
  obtain ⟨σ, k, _⟩ := C77_remove exSys_valid (by decide) exSink_fits h h' g1 g2
  exact ⟨o, σ, h, k⟩

end Flix
