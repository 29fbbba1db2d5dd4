import Verif.Lemmas.Watched3
import Verif.Props.Larger

/-!
# C119: an effect that is only observed changes nothing
-/

namespace Flix

variable {sys : Sys} {s s' : System} {l : String} {o o' : SysOut}

/-- What is declared: a sensible system whose effect `l` is only observed. -/
structure System.Watches (sys : Sys) (s : System) (l : String) : Prop where
  valid : sys.Valid
  past : sys.prevDt.Nonneg
  steps : 1 < sys.n
  sane : s.Sane sys
  tied : s.Tied
  named : s.Named
  proper : ∀ c ∈ s.comps, c.Proper sys ∧ c.CapacityNonneg
  observed : ∀ e ∈ s.effects, e.label = l → e.OnlyObserved
  pieces : ∀ c ∈ s.comps, c.NoPieceOf l

/-- The results agree: all variables of the components and all effects other than `l`. -/
structure System.SameResults (sys : Sys) (s : System) (l : String) (o : SysOut) (σ σ' : Assignment) : Prop where
  vars : ∀ c ∈ o.comps, ∀ x, c.tree.HasVar x → σ' x.label = σ x.label
  rates : ∀ c ∈ s.comps, ∀ f ∈ c.inputs ++ c.outputs, σ' (c.label ++ "__" ++ f.label ++ "_" ++ "flow_rate") = σ (c.label ++ "__" ++ f.label ++ "_" ++ "flow_rate")
  effects : ∀ e ∈ s.effects, e.label ≠ l →
    (∀ t < sys.n, σ' (e.label ++ "__operation_operation_sum_TS") t = σ (e.label ++ "__operation_operation_sum_TS") t) ∧
    σ' (e.label ++ "__invest_invest_sum") 0 = σ (e.label ++ "__invest_invest_sum") 0

/-- **C119 (exists).**  Both systems have a model. -/
theorem C119_exists (h : s.Watches sys l) : ∃ o o', systemModel sys s = .ok o ∧ systemModel sys (s.without l) = .ok o' := by
  obtain ⟨o, _, h1, _⟩ := C83 h.valid h.steps h.sane h.tied h.named
  obtain ⟨o', _, h2, _⟩ := C83 h.valid h.steps (system_sane_without h.observed h.pieces h.sane) (system_tied_without h.tied) (system_named_without h.named)
  exact ⟨o, o', h1, h2⟩

/-- What solves the components and the buses of one system does so in the other. -/
theorem freer_parts (hv : sys.Valid) (hpd : sys.prevDt.Nonneg) (hn : sys.n ≠ 0) (hf : s.Fits sys.n) (hp : ∀ c ∈ s.comps, c.Proper sys ∧ c.CapacityNonneg)
    (hp' : ∀ c ∈ s'.comps, c.Proper sys ∧ c.CapacityNonneg) (h : systemModel sys s = .ok o) (h' : systemModel sys s' = .ok o')
    (hl : s.Freer sys.cfg.big sys.n s') (hb : s'.buses = s.buses) {σ : Assignment} (hs : o.solver.Solves σ) :
    (∀ oc ∈ o'.comps, oc.tree.Solves σ) ∧ ∀ b ∈ s'.buses, s'.BusOk sys σ b := by
  obtain ⟨_, s2, s3⟩ := (system_solves h σ).1 hs
  have hbus := (buses_iff hv hf h σ).1 s3
  refine ⟨fun oc' hoc' => ?_, fun b hbm => ?_⟩
  · obtain ⟨c', hc', hm'⟩ := forall₂_mem_right (system_inv h').1 hoc'
    obtain ⟨c, hc, hcl⟩ := forall₂_mem_right hl.comps hc'
    obtain ⟨oc, hoc, hm⟩ := forall₂_mem_left (system_inv h).1 hc
    exact anyComp_looser (σ := σ) hv hpd hn (hp c hc).1 (hp' c' hc').1 (hp c hc).2 (hp' c' hc').2 hm hm' hcl (s2 oc hoc)
  · obtain ⟨g1, g2⟩ := hbus b (by rw [← hb]; exact hbm)
    unfold System.BusOk
    refine ⟨fun hpen t ht => ?_, fun hpen t ht => ?_⟩
    · rw [(fed_looser hl _ t).1, (fed_looser hl _ t).2]
      exact g1 hpen t ht
    · rw [(fed_looser hl _ t).1, (fed_looser hl _ t).2]
      exact g2 hpen t ht

theorem penalty_same (hv : sys.Valid) (hf : s.Fits sys.n) (h : systemModel sys s = .ok o) {σ σ' : Assignment} (g : ∀ l, l ∉ o.coll.tree.labels → σ' l = σ l) :
    (s.buses.map fun b => b.penaltyCost sys σ').sum = (s.buses.map fun b => b.penaltyCost sys σ).sum := by
  refine congrArg List.sum (List.map_congr_left fun b hb => ?_)
  unfold BusData.penaltyCost
  cases e : b.excessPenalty with
  | none => rfl
  | some p =>
    obtain ⟨x1, x2⟩ := excess_outside hv hf h hb (by simp [e])
    simp only [g _ x1, g _ x2]

theorem objective_without (hw : ∀ e ∈ s.effects, e.label = l → e.OnlyObserved) :
    (s.without l).effects.find? (·.isObjective) = (s.effects.find? (·.isObjective)).map (EffectData.without l) :=
  find_without (fun _ => rfl) fun e he hl => (hw e he hl).objective

theorem allowed_without {T T' : Totals} {e : EffectData} (ho : ∀ t < sys.n, T'.op e.label t = T.op e.label t) (hi : T'.inv e.label = T.inv e.label) {e' : EffectData} (hl : e'.label = e.label)
    (h1 : e'.minOperation = e.minOperation) (h2 : e'.maxOperation = e.maxOperation) (h3 : e'.minInvest = e.minInvest) (h4 : e'.maxInvest = e.maxInvest)
    (h5 : e'.minTotal = e.minTotal) (h6 : e'.maxTotal = e.maxTotal) (h7 : e'.minOperationPerHour = e.minOperationPerHour) (h8 : e'.maxOperationPerHour = e.maxOperationPerHour)
    (h : T.Allowed sys e) : T'.Allowed sys e' := by
  have e0 : T'.opSum sys.n e.label = T.opSum sys.n e.label := Finset.sum_congr rfl fun t ht => ho t (Finset.mem_range.1 ht)
  constructor
  · rw [h1, hl, e0]; exact h.minOperation
  · rw [h2, hl, e0]; exact h.maxOperation
  · rw [h3, hl, hi]; exact h.minInvest
  · rw [h4, hl, hi]; exact h.maxInvest
  · rw [h5, hl, e0, hi]; exact h.minTotal
  · rw [h6, hl, e0, hi]; exact h.maxTotal
  · rw [h7, hl]; exact fun m hm t ht => by rw [ho t ht]; exact h.minPerHour m hm t ht
  · rw [h8, hl]; exact fun m hm t ht => by rw [ho t ht]; exact h.maxPerHour m hm t ht

/-- **C119.**  Leaving out an effect that is only observed, with all its prices, changes nothing: what the components do and all other effects remain possible, at the same cost. -/
theorem C119 (h : s.Watches sys l) (h1 : systemModel sys s = .ok o) (h2 : systemModel sys (s.without l) = .ok o') {σ : Assignment} (hσ : o.solver.Solves σ) :
    ∃ σ', o'.solver.Solves σ' ∧ s.SameResults sys l o' σ σ' ∧
      ∃ t₁ t₂, objectiveTerms o.solver.objective = .ok t₁ ∧ objectiveTerms o'.solver.objective = .ok t₂ ∧ termsVal σ' t₂ = termsVal σ t₁ := by
  have hn : sys.n ≠ 0 := by have := h.steps; omega
  have hf := sane_fits h.sane
  have hf' := sane_fits (system_sane_without h.observed h.pieces h.sane)
  have hst : ∀ e ∈ s.effects, e.label = l → e.isStandard = false := fun e he hl => (h.observed e he hl).standard
  obtain ⟨tb, ta⟩ := solution_totals h.valid hn hf h1 hσ
  obtain ⟨hc, hb⟩ := freer_parts h.valid h.past hn hf h.proper (proper_without h.proper) h1 h2 (without_freer (l := l)).1 rfl hσ
  obtain ⟨σ', g1, g2, g3⟩ := solution_complete h.valid hn hf' h2 hc hb
    (balanced_without h.observed (fun l' hl => (contrib_without hst hl).1) (fun l' hl => (contrib_without (sys := sys) hst hl).2) tb) fun e' he' => by
    obtain ⟨e, he, hne, rfl⟩ := mem_without he'
    exact allowed_without (e := e) (fun _ _ => rfl) rfl rfl rfl rfl rfl rfl rfl rfl rfl rfl (ta e he)
  have tot : ∀ e ∈ s.effects, e.label ≠ l → (∀ t < sys.n, σ' (e.label ++ "__operation_operation_sum_TS") t = σ (e.label ++ "__operation_operation_sum_TS") t) ∧
      σ' (e.label ++ "__invest_invest_sum") 0 = σ (e.label ++ "__invest_invest_sum") 0 := by
    intro e he hne
    obtain ⟨q1, q2⟩ := g3 (e.without l) (List.mem_map_of_mem (List.mem_filter.2 ⟨he, by simpa using hne⟩))
    exact ⟨fun t _ => congrFun q1 t, q2⟩
  have vars : ∀ c ∈ o'.comps, ∀ x, c.tree.HasVar x → σ' x.label = σ x.label := fun c hc x hx => g2 _ (physical_label h2 (.inl ⟨c, hc, hx⟩))
  refine ⟨σ', g1, ⟨vars, fun c hc f hf => ?_, tot⟩, ?_⟩
  · obtain ⟨oc, hoc, hmod⟩ := forall₂_mem_left (system_inv h2).1 (List.mem_map_of_mem (f := Comp.mapEff (EffDict.without l)) hc)
    obtain ⟨x, hx, ex⟩ := rate_hasVar (f := f.mapEff (EffDict.without l)) hmod (by
      show _ ∈ (c.mapEff (EffDict.without l)).flows
      rw [comp_mapEff_flows]
      exact List.mem_map_of_mem hf)
    rw [(comp_mapEff_shape c).1] at ex
    change x.label = c.label ++ "__" ++ f.label ++ "_" ++ "flow_rate" at ex
    rw [← ex]
    exact vars oc hoc x hx
  · obtain ⟨t₁, e₁, a1, a2, a3⟩ := solution_cost h.valid hn hf h1
    obtain ⟨t₂, e₂, b1, b2, b3⟩ := solution_cost h.valid hn hf' h2
    refine ⟨t₁, t₂, a1, b1, ?_⟩
    rw [a3 σ hσ, b3 σ' g1]
    rw [objective_without h.observed, a2] at b2
    cases b2
    have hem := List.mem_of_find?_eq_some a2
    have hne : e₁.label ≠ l := fun hl => by
      have := (h.observed e₁ hem hl).objective
      have h0 : e₁.isObjective = true := List.find?_some a2
      rw [h0] at this
      cases this
    obtain ⟨q1, q2⟩ := tot e₁ hem hne
    have pen := penalty_same h.valid hf' h2 g2
    change (s.buses.map fun b => b.penaltyCost sys σ').sum = (s.buses.map fun b => b.penaltyCost sys σ).sum at pen
    unfold System.cost
    show _ + _ + (s.buses.map fun b => b.penaltyCost sys σ').sum = _
    rw [pen, show (e₁.without l).label = e₁.label from rfl, q2, Finset.sum_congr rfl fun t ht => q1 t (Finset.mem_range.1 ht)]

/-- **C119 (back).**  Conversely, whatever is possible without the effect is possible while it is observed. -/
theorem C119_back (h : s.Watches sys l) (h1 : systemModel sys s = .ok o) (h2 : systemModel sys (s.without l) = .ok o') {σ' : Assignment} (hσ : o'.solver.Solves σ') :
    ∃ σ, o.solver.Solves σ ∧ s.SameResults sys l o σ' σ ∧
      ∃ t₁ t₂, objectiveTerms o.solver.objective = .ok t₁ ∧ objectiveTerms o'.solver.objective = .ok t₂ ∧ termsVal σ t₁ = termsVal σ' t₂ := by
  have hn : sys.n ≠ 0 := by have := h.steps; omega
  have hf := sane_fits h.sane
  have hf' := sane_fits (system_sane_without h.observed h.pieces h.sane)
  have hst : ∀ e ∈ s.effects, e.label = l → e.isStandard = false := fun e he hl => (h.observed e he hl).standard
  obtain ⟨tb, ta⟩ := solution_totals h.valid hn hf' h2 hσ
  obtain ⟨hc, hb⟩ := freer_parts h.valid h.past hn hf' (proper_without h.proper) h.proper h2 h1 (without_freer (l := l)).2 rfl hσ
  obtain ⟨σ, g1, g2, g3⟩ := solution_complete h.valid hn hf h1 hc hb
    (balanced_observing h.observed (fun l' hl => (contrib_without hst hl).1) (fun l' hl => (contrib_without (sys := sys) hst hl).2) tb) fun e he => by
    by_cases hne : e.label = l
    · have hw := h.observed e he hne
      constructor
      · rw [hw.minOperation]; intro m hm; cases hm
      · rw [hw.maxOperation]; intro m hm; cases hm
      · rw [hw.minInvest]; intro m hm; cases hm
      · rw [hw.maxInvest]; intro m hm; cases hm
      · rw [hw.minTotal]; intro m hm; cases hm
      · rw [hw.maxTotal]; intro m hm; cases hm
      · rw [hw.minPerHour]; intro m hm; cases hm
      · rw [hw.maxPerHour]; intro m hm; cases hm
    · exact allowed_without (e := e.without l) (fun t _ => by simp [Totals.observing, EffectData.without, hne]) (by simp [Totals.observing, EffectData.without, hne]) rfl rfl rfl rfl rfl rfl rfl rfl rfl
        (ta _ (List.mem_map_of_mem (List.mem_filter.2 ⟨he, by simpa using hne⟩)))
  have tot : ∀ e ∈ s.effects, e.label ≠ l → (∀ t < sys.n, σ (e.label ++ "__operation_operation_sum_TS") t = σ' (e.label ++ "__operation_operation_sum_TS") t) ∧
      σ (e.label ++ "__invest_invest_sum") 0 = σ' (e.label ++ "__invest_invest_sum") 0 := by
    intro e he hne
    obtain ⟨q1, q2⟩ := g3 e he
    refine ⟨fun t _ => (congrFun q1 t).trans ?_, q2.trans ?_⟩
    · simp only [Totals.observing, if_neg hne]
      rfl
    · simp only [Totals.observing, if_neg hne]
      rfl
  have vars : ∀ c ∈ o.comps, ∀ x, c.tree.HasVar x → σ x.label = σ' x.label := fun c hc x hx => g2 _ (physical_label h1 (.inl ⟨c, hc, hx⟩))
  refine ⟨σ, g1, ⟨vars, fun c hc f hf => ?_, tot⟩, ?_⟩
  · obtain ⟨oc, hoc, hmod⟩ := forall₂_mem_left (system_inv h1).1 hc
    obtain ⟨x, hx, ex⟩ := rate_hasVar (f := f) hmod hf
    rw [← ex]
    exact vars oc hoc x hx
  · obtain ⟨t₁, e₁, a1, a2, a3⟩ := solution_cost h.valid hn hf h1
    obtain ⟨t₂, e₂, b1, b2, b3⟩ := solution_cost h.valid hn hf' h2
    refine ⟨t₁, t₂, a1, b1, ?_⟩
    rw [a3 σ g1, b3 σ' hσ]
    rw [objective_without h.observed, a2] at b2
    cases b2
    have hem := List.mem_of_find?_eq_some a2
    have hne : e₁.label ≠ l := fun hl => by
      have := (h.observed e₁ hem hl).objective
      have h0 : e₁.isObjective = true := List.find?_some a2
      rw [h0] at this
      cases this
    obtain ⟨q1, q2⟩ := tot e₁ hem hne
    have pen := penalty_same h.valid hf h1 g2
    unfold System.cost
    show _ = _ + _ + (s.buses.map fun b => b.penaltyCost sys σ').sum
    rw [pen, show (e₁.without l).label = e₁.label from rfl, q2, Finset.sum_congr rfl fun t ht => q1 t (Finset.mem_range.1 ht)]

/-- **C119 (optimum).**  Observing an effect does not change what is best, nor what it costs. -/
theorem C119_optimum (h : s.Watches sys l) (h1 : systemModel sys s = .ok o) (h2 : systemModel sys (s.without l) = .ok o') {σ' : Assignment} (ho : o'.Optimal σ') :
    ∃ σ, o.Optimal σ ∧ s.SameResults sys l o σ' σ ∧
      ∃ t₁ t₂, objectiveTerms o.solver.objective = .ok t₁ ∧ objectiveTerms o'.solver.objective = .ok t₂ ∧ termsVal σ t₁ = termsVal σ' t₂ := by
  obtain ⟨hσ, t, et, hmin⟩ := ho
  obtain ⟨σ, g1, g2, t₁, t₂, a1, a2, a3⟩ := C119_back h h1 h2 hσ
  refine ⟨σ, ⟨g1, t₁, a1, fun τ hτ => ?_⟩, g2, t₁, t₂, a1, a2, a3⟩
  rw [et] at a2
  cases a2
  obtain ⟨ρ, r1, _, b₁, b₂, c1, c2, c3⟩ := C119 h h1 h2 hτ
  rw [a1] at c1
  cases c1
  rw [et] at c2
  cases c2
  rw [a3, ← c3]
  exact hmin ρ r1

/-! ## Example -/

/-- Costs are minimised; emissions are counted, and a tenth of the costs is added to them. -/
def exWatched : System :=
  { exSystem with effects := [{ label := "costs", isStandard := true, isObjective := true, maxTotal := some 1000, shareOperation := [("co2", .s (1 / 10))] }, { label := "co2" }] }

theorem exWatched_names (l : String) (o : Option String) : names exWatched.effects l o = names exSystem.effects l o := by
  cases o <;> rfl

theorem exWatched_watches : exWatched.Watches exSys "co2" := by
  have hs : exSystem.Sane exSys := exSystem_scalable.sane
  have hl : exWatched.effects.map (·.label) = exSystem.effects.map (·.label) := rfl
  have dict : ∀ {d : EffDict}, EffDict.Known exSystem.effects d → EffDict.Known exWatched.effects d := by
    intro d hd
    refine ⟨fun q hq => ?_, by simpa only [exWatched_names] using hd.once⟩
    obtain ⟨e, he, hn⟩ := hd.known q hq
    have : e.label ∈ exWatched.effects.map (·.label) := by rw [hl]; exact List.mem_map_of_mem he
    obtain ⟨e', he', hee⟩ := List.mem_map.1 this
    exact ⟨e', he', by rw [hee, exWatched_names]; exact hn⟩
  have hoo : ∀ {q : OnOffParams}, q.Known exSystem.effects → q.Known exWatched.effects := fun hq => ⟨dict hq.starts, dict hq.hours⟩
  have hin : ∀ {q : InvestParams}, q.Known exSystem.effects → q.Known exWatched.effects := fun hq => ⟨dict hq.fix, dict hq.specific, dict hq.divest, hq.segs⟩
  refine ⟨exSys_valid, by simp [exSys, Num.Nonneg], by decide, ⟨hs.comps, fun c hc => ?_, hs.buses, fun e he => ?_, ?_⟩, ⟨exSystem_tied.comps, exSystem_tied.buses⟩, ?_, exSystem_proper, ?_, ?_⟩
  · have k := hs.known c hc
    exact ⟨fun f hf => ⟨dict (k.flows f hf).hours, fun q hq => hoo ((k.flows f hf).onOff q hq), fun q hq => hin ((k.flows f hf).invest q hq)⟩, fun q hq => hoo (k.onOff q hq),
      fun t ht q hq => hin (k.capacity t ht q hq)⟩
  · simp only [exWatched, List.mem_cons, List.not_mem_nil, or_false] at he
    rcases he with rfl | rfl
    · exact ⟨⟨by simp [Num.Fits, Num.isScalar], by simp, by simp, by simp⟩, ⟨by simp [exWatched], by simp⟩⟩
    · exact ⟨⟨by simp, by simp, by simp, by simp⟩, ⟨by simp, by simp⟩⟩
  · exact ⟨_, List.mem_cons_self, rfl⟩
  · exact ⟨exSystem_named.names, exSystem_named.distinct, exSystem_named.flowNames, exSystem_named.flowDistinct, exSystem_named.noClash⟩
  · intro e he h0
    simp only [exWatched, List.mem_cons, List.not_mem_nil, or_false] at he
    rcases he with rfl | rfl
    · simp at h0
    · constructor <;> rfl
  · intro c hc
    refine ⟨fun f hf q hq xs rs he => ?_, fun t q ht hq xs rs he => ?_⟩
    · rw [(exSystem_smooth c hc).1 f hf q hq] at he; cases he
    · rw [(exSystem_smooth c hc).2 t q ht hq] at he; cases he

/-- Emissions are really counted: those of the boiler's size and a tenth of the costs. -/
def exWatchedSol : Assignment := tableSol
  [("heat_excess_output", [0, 0, 1]), ("Effects__penalty_penalty_sum", [200]), ("Effects__heat__excess_output", [200]),
   ("costs__invest_invest_sum", [12]), ("costs__operation_operation_sum", [32]), ("costs__operation_operation_sum_TS", [8, 16, 8]),
   ("costs__all_all_sum", [44]), ("co2__invest_invest_sum", [30]), ("co2__operation_operation_sum", [96 / 5]),
   ("co2__operation_operation_sum_TS", [24 / 5, 48 / 5, 24 / 5]), ("co2__all_all_sum", [246 / 5]),
   ("costs__Boiler__th__fix_effects", [7]), ("costs__Boiler__th__specific_effects", [5]), ("co2__costs_operation", [4 / 5, 8 / 5, 4 / 5]),
   ("costs__Gas__Q__effects_per_flow_hour", [8, 16, 8]), ("costs__operation", [32]), ("costs__invest", [12]),
   ("co2__Boiler__th__specific_effects", [30]), ("co2__Gas__Q__effects_per_flow_hour", [4, 8, 4]), ("co2__operation", [96 / 5]), ("co2__invest", [30]),
   ("Gas__Q_flow_rate", [4, 8, 2]), ("Gas__Q_sumFlowHours", [16]), ("Boiler__fu_flow_rate", [4, 8, 2]), ("Boiler__fu_sumFlowHours", [16]),
   ("Boiler__th_flow_rate", [2, 4, 1]), ("Boiler__th_sumFlowHours", [8]), ("Boiler__th__Investment_size", [10]),
   ("Load__Q_flow_rate", [2, 4, 0]), ("Load__Q_sumFlowHours", [6])]

/-- The hypotheses are met: without counting emissions the same rates cost 244 as well. -/
example : ∃ o o', systemModel exSys exWatched = .ok o ∧ systemModel exSys (exWatched.without "co2") = .ok o' ∧ o.solver.Solves exWatchedSol ∧
    ∃ σ', o'.solver.Solves σ' ∧ σ' "Boiler__th_flow_rate" 1 = 4 ∧ exWatchedSol "co2__operation_operation_sum_TS" 1 = 48 / 5 ∧
      ∃ t₁ t₂, objectiveTerms o.solver.objective = .ok t₁ ∧ objectiveTerms o'.solver.objective = .ok t₂ ∧ termsVal exWatchedSol t₁ = 244 ∧ termsVal σ' t₂ = 244 := by
  obtain ⟨o, h, hs⟩ := builds_and_solves (σ := exWatchedSol) (r := systemModel exSys exWatched) (f := fun o : SysOut => MTree.node o.solver.vars o.solver.cons []) (by decide +kernel)
  obtain ⟨_, o', _, h'⟩ := C119_exists exWatched_watches
  obtain ⟨σ', g1, g2, t₁, t₂, a1, a2, a3⟩ := C119 exWatched_watches h h' ⟨hs.1, hs.2.1⟩
  have e : termsVal exWatchedSol t₁ = 244 := by
    obtain ⟨t, e, b1, b2, b3⟩ := solution_cost exSys_valid (by decide) (sane_fits exWatched_watches.sane) h
    rw [a1] at b1
    cases b1
    rw [b3 exWatchedSol ⟨hs.1, hs.2.1⟩]
    cases b2
    decide +kernel
  refine ⟨o, o', h, h', ⟨hs.1, hs.2.1⟩, σ', g1, ?_, by decide +kernel, t₁, t₂, a1, a2, e, by rw [a3, e]⟩
  have := congrFun (g2.rates (.converter { comp := { label := "Boiler", inputs := [exBoilerIn], outputs := [exBoilerOut] }, factors := [[("fu", .s (1 / 2)), ("th", .s 1)]] }) (by simp [exWatched, exSystem]) exBoilerOut
    (by simp [Comp.inputs, Comp.outputs])) 1
  refine Eq.trans ?_ (this.trans ?_)
  · exact congrArg (fun l => σ' l 1) (by decide +kernel)
  · decide +kernel

/-- The hypotheses of `C119_optimum` are met: there is a best operation without counting emissions, and it is best while they are counted. -/
example : ∃ o o' σ σ', systemModel exSys exWatched = .ok o ∧ systemModel exSys (exWatched.without "co2") = .ok o' ∧ o'.Optimal σ' ∧ o.Optimal σ ∧ exWatched.SameResults exSys "co2" o σ' σ := by
  obtain ⟨o, h, hs⟩ := builds_and_solves (σ := exWatchedSol) (r := systemModel exSys exWatched) (f := fun o : SysOut => MTree.node o.solver.vars o.solver.cons []) (by decide +kernel)
  obtain ⟨_, o', _, h'⟩ := C119_exists exWatched_watches
  obtain ⟨σ₀, g, _⟩ := C119 exWatched_watches h h' ⟨hs.1, hs.2.1⟩
  have hf := sane_fits (system_sane_without exWatched_watches.observed exWatched_watches.pieces exWatched_watches.sane)
  obtain ⟨σ', ho⟩ := C95 exSys_valid (by decide) hf (by
    intro c hc f hfl
    obtain ⟨c, hd, rfl⟩ := List.mem_map.1 hc
    rw [comp_mapEff_flows] at hfl
    obtain ⟨f, hg, rfl⟩ := List.mem_map.1 hfl
    refine flow_fits_mapEff ?_
    simp only [exWatched, exSystem, List.mem_cons, List.not_mem_nil, or_false] at hd
    rcases hd with rfl | rfl | rfl <;> simp only [Comp.flows, Comp.inputs, Comp.outputs, List.nil_append, List.cons_append, List.append_nil, List.mem_cons, List.not_mem_nil, or_false] at hg
    · subst hg; exact ⟨Or.inl rfl, Or.inl rfl, by simp [exGasOut], by simp [exGasOut]⟩
    · rcases hg with rfl | rfl
      · exact ⟨Or.inl rfl, Or.inl rfl, by simp [exBoilerIn], by simp [exBoilerIn]⟩
      · exact ⟨Or.inl rfl, Or.inl rfl, by simp [exBoilerOut], by simp [exBoilerOut]⟩
    · subst hg; exact ⟨Or.inl rfl, Or.inl rfl, by simp [exLoadIn, exSys, Num.Fits, Num.len], by simp [exLoadIn]⟩) h'
    (rank := fun _ => 0) (by simp [Ranked, exWatched, System.without, EffectData.without]) (by simp [Ranked, exWatched, System.without, EffectData.without])
    (by simp [exWatched, exSystem, System.without, Num.at]) ⟨_, g⟩
  obtain ⟨σ, h1, h2, _⟩ := C119_optimum exWatched_watches h h' ho
  exact ⟨o, o', σ, σ', h, h', ho, h1, h2⟩

/-- What is left of the system: the prices for emissions are gone, and so is the share of the costs. -/
example : (exWatched.without "co2").effects.map (fun e => (e.label, e.shareOperation)) = [("costs", [])] ∧ exBoilerInvest.specificEffects.map (·.1) = [some "costs", some "co2"] ∧
    (exBoilerInvest.mapEff (EffDict.without "co2")).specificEffects.map (·.1) = [some "costs"] := by
  refine ⟨by decide +kernel, by decide +kernel, by decide +kernel⟩

end Flix
