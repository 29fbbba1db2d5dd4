import Verif.Lemmas.Rename4
import Verif.Props.Units
import Verif.Props.Sensible

/-!
# C106: names do not matter
-/

namespace Flix

variable {sys : Sys} {s : System} {ρ : Renaming} {o o' : SysOut}

/-- The same results under the new names. -/
structure System.SameUnder (sys : Sys) (s : System) (ρ : Renaming) (o : SysOut) (σ σ' : Assignment) : Prop where
  rates : ∀ c ∈ s.comps, ∀ f ∈ c.inputs ++ c.outputs,
    σ' (ρ.comp c.label ++ "__" ++ ρ.flow c.label f.label ++ "_" ++ "flow_rate") = σ (c.label ++ "__" ++ f.label ++ "_" ++ "flow_rate")
  vars : ∀ v, ((∃ c ∈ o.comps, c.tree.HasVar v) ∨ ∃ b ∈ o.buses, b.tree.HasVar v) → ∀ el el', s.Becomes ρ el el' → ∀ x ∈ variableEndings, v.label = el ++ x → σ' (el' ++ x) = σ (el ++ x)
  effects : ∀ e ∈ s.effects,
    (∀ t < sys.n, σ' (ρ.effect e.label ++ "__operation_operation_sum_TS") t = σ (e.label ++ "__operation_operation_sum_TS") t) ∧
    σ' (ρ.effect e.label ++ "__invest_invest_sum") 0 = σ (e.label ++ "__invest_invest_sum") 0

theorem becomes_to (hs : s.Named) {el el' : String} (h : s.Becomes ρ el el') : To (ρ.label s) ρ.effect IsName el el' := by
  cases h with
  | comp c hc => exact label_to (.inl (hs.comp hc)) (full_comp hc)
  | flow c f hc hf => exact label_to (full_of_flow (hs.comp hc) (hs.flowNames c hc f hf)) (full_flow hs hc hf)
  | bus b hb => exact label_to (.inl (hs.bus hb)) (full_bus hs hb)

/-- The labels of the variables of components and buses. -/
def SysOut.physLabels (o : SysOut) : List String := (o.comps.map CompOut.tree ++ o.buses.map (·.tree)).flatMap MTree.labels

theorem physLabels_iff {l : String} : l ∈ o.physLabels ↔ ∃ x, o.Physical x ∧ x.label = l := by
  unfold SysOut.physLabels
  rw [List.mem_flatMap]
  constructor
  · rintro ⟨t, ht, hl⟩
    obtain ⟨x, hx, e⟩ := hasVar_of_label hl
    rcases List.mem_append.1 ht with ht | ht
    · obtain ⟨c, hc, rfl⟩ := List.mem_map.1 ht
      exact ⟨x, .inl ⟨c, hc, hx⟩, e⟩
    · obtain ⟨b, hb, rfl⟩ := List.mem_map.1 ht
      exact ⟨x, .inr ⟨b, hb, hx⟩, e⟩
  · rintro ⟨x, ⟨c, hc, hx⟩ | ⟨b, hb, hx⟩, rfl⟩
    · exact ⟨_, List.mem_append_left _ (List.mem_map_of_mem hc), hasVar_labels hx⟩
    · exact ⟨_, List.mem_append_right _ (List.mem_map_of_mem hb), hasVar_labels hx⟩

theorem end2 (a b c : String) : a ++ b ++ c = a ++ (b ++ c) := String.append_assoc

theorem excess_vars {b : BusData} {ins outs : List Var} {ob : BusOut} (h : busModel sys b ins outs = .ok ob) {p : Num} (hp : b.excessPenalty = some p) :
    ∃ x y, ob.tree.HasVar x ∧ ob.tree.HasVar y ∧ x.label = b.label ++ "_" ++ "excess_input" ∧ y.label = b.label ++ "_" ++ "excess_output" := by
  unfold busModel at h
  rw [hp] at h
  dsimp only at h
  peel h with f, hf
  peel h with x, hx
  peel h with y, hy
  cases h
  obtain ⟨ex, _⟩ := mkVar_ok hx
  obtain ⟨ey, _⟩ := mkVar_ok hy
  exact ⟨x, y, ⟨_, .refl _, by simp [MTree.vars]⟩, ⟨_, .refl _, by simp [MTree.vars]⟩, by rw [ex], by rw [ey]⟩

/-- What both directions have in common: values of the variables of components and buses of both systems that agree, one of them a solution. -/
theorem renamed_results (hv : sys.Valid) (hf : s.Fits sys.n) (hs : s.Named) (hk : s.SegmentsKnown) (hρ : ρ.Injective)
    (h : systemModel sys s = .ok o) (h' : systemModel sys (s.rename ρ) = .ok o') {σ τ : Assignment} (hn : sys.n ≠ 0)
    (s1 : o.solver.Solves σ) (s2 : o'.solver.Solves τ) (hp : ∀ l ∈ o.physLabels, τ (ρ.label s l) = σ l)
    (he : ∀ e ∈ s.effects, (∀ t < sys.n, τ (opTSL (ρ.effect e.label)) t = σ (opTSL e.label) t) ∧ τ (invSumL (ρ.effect e.label)) 0 = σ (invSumL e.label) 0) :
    s.SameUnder sys ρ o σ τ ∧ ∃ t₁ t₂, objectiveTerms o.solver.objective = .ok t₁ ∧ objectiveTerms o'.solver.objective = .ok t₂ ∧ termsVal τ t₂ = termsVal σ t₁ := by
  have hvar : ∀ v, o.Physical v → ∀ el el', s.Becomes ρ el el' → ∀ x ∈ variableEndings, v.label = el ++ x → τ (el' ++ x) = σ (el ++ x) := by
    intro v hv el el' hb x hx e
    have := hp v.label (physLabels_iff.2 ⟨v, hv, rfl⟩)
    have sub : ∀ x ∈ variableEndings, x ∈ plainVarSufs := by decide +kernel
    rwa [e, (becomes_to hs hb).plain x (sub x hx)] at this
  refine ⟨⟨fun c hc f hfm => ?_, hvar, he⟩, ?_⟩
  · obtain ⟨oc, hoc, hm⟩ := forall₂_mem_left (system_inv h).1 hc
    obtain ⟨v, hv, e⟩ := rate_hasVar hm hfm
    have := hvar v (.inl ⟨oc, hoc, hv⟩) _ _ (.flow c f hc hfm) "_flow_rate" (by decide +kernel) (by rw [e, end2 _ "_" "flow_rate"]; rfl)
    rw [end2 _ "_" "flow_rate", end2 _ "_" "flow_rate"]
    exact this
  · obtain ⟨t₁, e₁, a1, a2, a3⟩ := solution_cost hv hn hf h
    obtain ⟨t₂, e₂, b1, b2, b3⟩ := solution_cost hv hn (fits_rename hf) h'
    refine ⟨t₁, t₂, a1, b1, ?_⟩
    rw [a3 σ s1, b3 τ s2]
    have el : e₂ = e₁.rename ρ.effect := by
      change (s.effects.map (EffectData.rename ρ.effect)).find? _ = _ at b2
      rw [List.find?_map] at b2
      change (s.effects.find? (·.isObjective)).map _ = _ at b2
      rw [a2] at b2
      exact (Option.some.inj b2).symm
    subst el
    have hem := List.mem_of_find?_eq_some a2
    have pen : ((s.rename ρ).buses.map fun b => b.penaltyCost sys τ).sum = (s.buses.map fun b => b.penaltyCost sys σ).sum := by
      change ((s.buses.map (BusData.rename ρ.bus)).map fun b => b.penaltyCost sys τ).sum = _
      rw [List.map_map]
      refine congrArg List.sum (List.map_congr_left fun b hb => ?_)
      obtain ⟨ob, hob, hm⟩ := forall₂_mem_left (system_inv h).2.1 hb
      simp only [Function.comp_apply]
      unfold BusData.penaltyCost
      rw [show (b.rename ρ.bus).excessPenalty = b.excessPenalty from rfl]
      cases hpen : b.excessPenalty with
      | none => rfl
      | some p =>
        obtain ⟨x, y, hx, hy, ex, ey⟩ := excess_vars hm hpen
        have k1 := hvar x (.inr ⟨ob, hob, hx⟩) _ _ (.bus b hb) "_excess_input" (by decide +kernel) (by rw [ex, String.append_assoc]; rfl)
        have k2 := hvar y (.inr ⟨ob, hob, hy⟩) _ _ (.bus b hb) "_excess_output" (by decide +kernel) (by rw [ey, String.append_assoc]; rfl)
        refine Finset.sum_congr rfl fun t _ => ?_
        have j1 : τ ((b.rename ρ.bus).label ++ "_" ++ "excess_input") = σ (b.label ++ "_" ++ "excess_input") := by
          rw [String.append_assoc, String.append_assoc]
          exact k1
        have j2 : τ ((b.rename ρ.bus).label ++ "_" ++ "excess_output") = σ (b.label ++ "_" ++ "excess_output") := by
          rw [String.append_assoc, String.append_assoc]
          exact k2
        rw [j1, j2]
    unfold System.cost
    rw [pen]
    have q1 := (he e₁ hem).1
    have q2 := (he e₁ hem).2
    refine congrArg₂ _ (congrArg₂ _ (Finset.sum_congr rfl fun t ht => q1 t (Finset.mem_range.1 ht)) q2) rfl

theorem physical_move (h : systemModel sys s = .ok o) {σ τ : Assignment} (he : ∀ l ∈ o.physLabels, τ l = σ l) (hσ : (∀ c ∈ o.comps, c.tree.Solves σ) ∧ ∀ b ∈ o.buses, b.tree.Solves σ) :
    (∀ c ∈ o.comps, c.tree.Solves τ) ∧ ∀ b ∈ o.buses, b.tree.Solves τ := by
  obtain ⟨r1, r2, _⟩ := physical_refs h
  have hag : ∀ x, o.Physical x → σ x.label = τ x.label := fun x hx => (he _ (physLabels_iff.2 ⟨x, hx, rfl⟩)).symm
  exact ⟨fun c hc => solves_congr (r1 c hc).1 (r1 c hc).2 hag (hσ.1 c hc), fun b hb => solves_congr (r2 b hb).1 (r2 b hb).2 hag (hσ.2 b hb)⟩

theorem SysOut.Like.iff {L : String → String} (hl : o.Like L o') (τ : Assignment) :
    ((∀ c ∈ o'.comps, c.tree.Solves τ) ∧ ∀ b ∈ o'.buses, b.tree.Solves τ) ↔ (∀ c ∈ o.comps, c.tree.Solves fun l => τ (L l)) ∧ ∀ b ∈ o.buses, b.tree.Solves fun l => τ (L l) := by
  refine and_congr ⟨fun h c hc => ?_, fun h c hc => ?_⟩ ⟨fun h c hc => ?_, fun h c hc => ?_⟩
  · obtain ⟨c', hc', k⟩ := forall₂_mem_left hl.comps hc
    exact (solves_like k).1 (h c' hc')
  · obtain ⟨c', hc', k⟩ := forall₂_mem_right hl.comps hc
    exact (solves_like k).2 (h c' hc')
  · obtain ⟨c', hc', k⟩ := forall₂_mem_left hl.buses hc
    exact (solves_like k).1 (h c' hc')
  · obtain ⟨c', hc', k⟩ := forall₂_mem_right hl.buses hc
    exact (solves_like k).2 (h c' hc')

/-- **C106.**  Names do not matter: if components, flows, buses and effects get other labels and all references follow, every solution is one under the new names. -/
theorem C106 (hv : sys.Valid) (hn : sys.n ≠ 0) (hf : s.Fits sys.n) (hs : s.Named) (hk : s.SegmentsKnown) (hρ : ρ.Injective)
    (h : systemModel sys s = .ok o) (h' : systemModel sys (s.rename ρ) = .ok o') {σ : Assignment} (hσ : o.solver.Solves σ) :
    ∃ σ', o'.solver.Solves σ' ∧ s.SameUnder sys ρ o σ σ' ∧
      ∃ t₁ t₂, objectiveTerms o.solver.objective = .ok t₁ ∧ objectiveTerms o'.solver.objective = .ok t₂ ∧ termsVal σ' t₂ = termsVal σ t₁ := by
  classical
  have hl := system_like hρ hs hk h h'
  obtain ⟨tb, ta⟩ := solution_totals hv hn hf h hσ
  obtain ⟨_, s2, s3⟩ := (system_solves h σ).1 hσ
  have inj : ∀ x ∈ o.physLabels, ∀ y ∈ o.physLabels, ρ.label s x = ρ.label s y → x = y := by
    have := (List.nodup_append.1 (system_labels h')).2.1
    rw [hl.labels] at this
    exact fun x hx y hy e => List.inj_on_of_nodup_map this hx hy e
  let τ : Assignment := fun l' => if e : ∃ l ∈ o.physLabels, ρ.label s l = l' then σ e.choose else fun _ => 0
  have hτ : ∀ l ∈ o.physLabels, τ (ρ.label s l) = σ l := by
    intro l hm
    have e : ∃ k ∈ o.physLabels, ρ.label s k = ρ.label s l := ⟨l, hm, rfl⟩
    show (if e : ∃ k ∈ o.physLabels, ρ.label s k = ρ.label s l then σ e.choose else fun _ => 0) = _
    rw [dif_pos e, inj _ e.choose_spec.1 _ hm e.choose_spec.2]
  obtain ⟨c1, c2⟩ := (hl.iff τ).2 (physical_move h hτ ⟨s2, s3⟩)
  have con : ∀ l, (∀ t < sys.n, (s.rename ρ).opOf sys τ (ρ.effect l) t = s.opOf sys σ l t) ∧ (s.rename ρ).invOf τ (ρ.effect l) = s.invOf σ l := by
    intro l
    obtain ⟨a, b⟩ := contribs_rename (τ := τ) (sys := sys) hρ hs hk l
    obtain ⟨a', b'⟩ := contribs_congr hv hf h (σ := fun l => τ (ρ.label s l)) (τ := σ) (fun oc hoc x hx => hτ _ (physLabels_iff.2 ⟨x, .inl ⟨oc, hoc, hx⟩, rfl⟩)) l
    exact ⟨fun t ht => (a t).trans (a' t ht), b.trans b'⟩
  let T : Totals := ⟨fun l t => σ (opTSL l) t, fun l => σ (invSumL l) 0⟩
  let T' : Totals := ⟨fun l t => σ (opTSL (Function.invFun ρ.effect l)) t, fun l => σ (invSumL (Function.invFun ρ.effect l)) 0⟩
  have li := Function.leftInverse_invFun hρ.effect
  have t1 : ∀ l t, T'.op (ρ.effect l) t = T.op l t := fun l t => by
    show σ (opTSL (Function.invFun ρ.effect (ρ.effect l))) t = _
    rw [li l]
  have t2 : ∀ l, T'.inv (ρ.effect l) = T.inv l := fun l => by
    show σ (invSumL (Function.invFun ρ.effect (ρ.effect l))) 0 = _
    rw [li l]
  obtain ⟨σ', g1, g2, g3⟩ := solution_complete (T := T') hv hn (fits_rename hf) h' c1 ((buses_iff hv (fits_rename hf) h' τ).1 c2)
    ((balanced_rename hρ.effect t1 t2 (fun l => (con l).1) (fun l => (con l).2)).2 tb) (fun e' he' => by
      obtain ⟨e, he, rfl⟩ := List.mem_map.1 he'
      exact (allowed_rename t1 t2 e).2 (ta e he))
  obtain ⟨r1, r2⟩ := renamed_results hv hf hs hk hρ h h' hn hσ g1 (fun l hm => by
    have hm' : ρ.label s l ∈ o'.physLabels := by
      unfold SysOut.physLabels
      rw [hl.labels]
      exact List.mem_map_of_mem hm
    obtain ⟨x, hx, e⟩ := physLabels_iff.1 hm'
    rw [← hτ l hm, g2 _ (by rw [← e]; exact physical_label h' hx)]) (fun e he => by
    obtain ⟨q1, q2⟩ := g3 (e.rename ρ.effect) (List.mem_map_of_mem he)
    exact ⟨fun t _ => (congrFun q1 t).trans (t1 e.label t), q2.trans (t2 e.label)⟩)
  exact ⟨σ', g1, r1, r2⟩

/-- **C106 (back).**  There are no further solutions under the new names. -/
theorem C106_back (hv : sys.Valid) (hn : sys.n ≠ 0) (hf : s.Fits sys.n) (hs : s.Named) (hk : s.SegmentsKnown) (hρ : ρ.Injective)
    (h : systemModel sys s = .ok o) (h' : systemModel sys (s.rename ρ) = .ok o') {σ' : Assignment} (hσ : o'.solver.Solves σ') :
    ∃ σ, o.solver.Solves σ ∧ s.SameUnder sys ρ o σ σ' ∧
      ∃ t₁ t₂, objectiveTerms o.solver.objective = .ok t₁ ∧ objectiveTerms o'.solver.objective = .ok t₂ ∧ termsVal σ' t₂ = termsVal σ t₁ := by
  have hl := system_like hρ hs hk h h'
  obtain ⟨tb, ta⟩ := solution_totals hv hn (fits_rename hf) h' hσ
  obtain ⟨_, s2, s3⟩ := (system_solves h' σ').1 hσ
  obtain ⟨c1, c2⟩ := (hl.iff σ').1 ⟨s2, s3⟩
  let T : Totals := ⟨fun l t => σ' (opTSL (ρ.effect l)) t, fun l => σ' (invSumL (ρ.effect l)) 0⟩
  have con := fun l => contribs_rename (τ := σ') (sys := sys) hρ hs hk l
  obtain ⟨σ, g1, g2, g3⟩ := solution_complete (T := T) hv hn hf h c1 ((buses_iff hv hf h _).1 c2)
    ((balanced_rename (T' := ⟨fun l t => σ' (opTSL l) t, fun l => σ' (invSumL l) 0⟩) hρ.effect (fun _ _ => rfl) (fun _ => rfl) (fun l t _ => (con l).1 t) (fun l => (con l).2)).1 tb) (fun e he =>
      (allowed_rename (T' := ⟨fun l t => σ' (opTSL l) t, fun l => σ' (invSumL l) 0⟩) (ε := ρ.effect) (fun _ _ => rfl) (fun _ => rfl) e).1 (ta _ (List.mem_map_of_mem he)))
  obtain ⟨r1, r2⟩ := renamed_results hv hf hs hk hρ h h' hn g1 hσ (fun l hm => by
    obtain ⟨x, hx, rfl⟩ := physLabels_iff.1 hm
    exact (g2 _ (physical_label h hx)).symm) (fun e he => by
    obtain ⟨q1, q2⟩ := g3 e he
    exact ⟨fun t _ => (congrFun q1 t).symm, q2.symm⟩)
  exact ⟨σ, g1, r1, r2⟩

/-- **C106 (optimum).**  The cheapest operation is the same under all names. -/
theorem C106_optimum (hv : sys.Valid) (hn : sys.n ≠ 0) (hf : s.Fits sys.n) (hs : s.Named) (hk : s.SegmentsKnown) (hρ : ρ.Injective)
    (h : systemModel sys s = .ok o) (h' : systemModel sys (s.rename ρ) = .ok o') {σ : Assignment} (ho : o.Optimal σ) :
    ∃ σ', o'.Optimal σ' ∧ s.SameUnder sys ρ o σ σ' := by
  obtain ⟨hσ, t, et, hmin⟩ := ho
  obtain ⟨σ', g1, g2, t₁, t₂, a1, a2, a3⟩ := C106 hv hn hf hs hk hρ h h' hσ
  rw [et] at a1
  cases a1
  refine ⟨σ', ⟨g1, t₂, a2, fun τ hτ => ?_⟩, g2⟩
  obtain ⟨σ₀, k1, _, b₁, b₂, c1, c2, c3⟩ := C106_back hv hn hf hs hk hρ h h' hτ
  rw [et] at c1
  rw [a2] at c2
  cases c1
  cases c2
  rw [a3, c3]
  exact hmin σ₀ k1

/-- **C106 (errors).**  What is refused in a component is refused, with the same error, under the new names. -/
theorem C106_errors (hs : s.Named) (hk : s.SegmentsKnown) (hρ : ρ.Injective) {c : Comp} (hc : c ∈ s.comps) (e : Err) :
    (c.rename ρ).model sys = .error e ↔ c.model sys = .error e := by
  have key := model_label (sys := sys) hρ hs hk hc
  revert key
  cases c.model sys <;> cases (c.rename ρ).model sys <;> intro key <;> cases key <;> simp

/-! ## Example -/

/-- Every label gets a letter in front. -/
def exLetters : Renaming := ⟨("N" ++ ·), fun _ => ("F" ++ ·), ("B" ++ ·), ("E" ++ ·)⟩

theorem exLetters_injective : exLetters.Injective := by
  have key : ∀ p : String, Function.Injective (p ++ ·) := fun p a b e => by simpa using e
  exact ⟨key _, fun _ => key _, key _, key _⟩

/-- The hypotheses are met by gas, a boiler of decided size and a load; the boiler delivers the same under its new name. -/
example : exSys.Valid ∧ exSystem.Fits exSys.n ∧ exSystem.Named ∧ exSystem.SegmentsKnown ∧ exLetters.Injective ∧
    ∃ o o', systemModel exSys exSystem = .ok o ∧ systemModel exSys (exSystem.rename exLetters) = .ok o' ∧ o.solver.Solves exSystemSol ∧
      ∃ σ', o'.solver.Solves σ' ∧ σ' "NBoiler__Fth_flow_rate" 1 = 4 := by
  have hn : exSystem.Named := by
    have hn := named_of (s := exSystem) (by decide +kernel)
    refine ⟨hn.names, hn.distinct, hn.flowNames, hn.flowDistinct, ?_⟩
    intro a b ha
    simp [exSystem] at ha
  have hk : exSystem.SegmentsKnown := by
    intro c hc
    simp only [exSystem, List.mem_cons, List.not_mem_nil, or_false] at hc
    rcases hc with rfl | rfl | rfl
    all_goals
      refine ⟨fun f hf q hq xs rs e => ?_, fun t q ht => by cases ht⟩
      simp only [Comp.inputs, Comp.outputs, List.nil_append, List.cons_append, List.append_nil, List.mem_cons, List.not_mem_nil, or_false] at hf
    · subst hf; cases hq
    · rcases hf with rfl | rfl
      · cases hq
      · cases hq; cases e
    · subst hf; cases hq
  obtain ⟨o, h, hs⟩ := exSystem_ok
  obtain ⟨o', h'⟩ := builds (r := systemModel exSys (exSystem.rename exLetters)) (by decide +kernel)
  refine ⟨exSys_valid, exSystem_fits, hn, hk, exLetters_injective, o, o', h, h', hs, ?_⟩
  obtain ⟨σ', g1, g2, _⟩ := C106 exSys_valid (by decide) exSystem_fits hn hk exLetters_injective h h' hs
  refine ⟨σ', g1, ?_⟩
  have := g2.rates (.converter { comp := { label := "Boiler", inputs := [exBoilerIn], outputs := [exBoilerOut] }, factors := [[("fu", .s (1 / 2)), ("th", .s 1)]] }) (by simp [exSystem]) exBoilerOut
    (by simp [Comp.inputs, Comp.outputs])
  have e := congrFun this 1
  refine Eq.trans ?_ (e.trans ?_)
  · exact congrArg (fun l => σ' l 1) (by decide +kernel)
  · decide +kernel

end Flix
