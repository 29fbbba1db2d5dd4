import Verif.Lemmas.Exact
import Verif.Props.Cheapest
import Verif.Props.Watched
import Verif.Spec.Penalties

/-!
# C121: a high enough penalty avoids every avoidable excess
-/

namespace Flix

variable {sys : Sys} {s s' : System} {o o' : SysOut}

/-- The objective has the value `c`. -/
def SysOut.Costs (o : SysOut) (σ : Assignment) (c : ℚ) : Prop := ∃ terms, objectiveTerms o.solver.objective = .ok terms ∧ termsVal σ terms = c

/-- Operation costs and investment costs, without penalties. -/
def System.ownCost (sys : Sys) (e : EffectData) (σ : Assignment) : ℚ :=
  ∑ t ∈ Finset.range sys.n, σ (e.label ++ "__operation_operation_sum_TS") t + σ (e.label ++ "__invest_invest_sum") 0

/-- Flow hours of excess at a bus. -/
def BusData.hours (sys : Sys) (σ : Assignment) (b : BusData) : ℚ :=
  if b.excessPenalty = none then 0 else
    ∑ t ∈ Finset.range sys.n, sys.dt.getD t 0 * (σ (b.label ++ "_" ++ "excess_input") t + σ (b.label ++ "_" ++ "excess_output") t)

theorem termsVal_flatMap {α} (σ : Assignment) (f : α → List (ℚ × String × Nat)) : ∀ l : List α, termsVal σ (l.flatMap f) = (l.map fun a => termsVal σ (f a)).sum
  | [] => by simp [termsVal]
  | a :: l => by rw [List.flatMap_cons, termsVal_append, termsVal_flatMap σ f l, List.map_cons, List.sum_cons]

theorem ownCost_terms (sys : Sys) (e : EffectData) : ∃ f, ∀ σ, termsVal σ f = System.ownCost sys e σ := by
  refine ⟨(List.range sys.n).flatMap (fun t => [(1, e.label ++ "__operation_operation_sum_TS", t)]) ++ [(1, e.label ++ "__invest_invest_sum", 0)], fun σ => ?_⟩
  rw [termsVal_append, termsVal_flatMap]
  unfold System.ownCost
  rw [← list_sum_range]
  simp [termsVal]

theorem hours_terms (sys : Sys) (s : System) : ∃ g, ∀ σ, termsVal σ g = (s.buses.map fun b => b.hours sys σ).sum := by
  refine ⟨s.buses.flatMap fun b => if b.excessPenalty = none then [] else (List.range sys.n).flatMap fun t =>
    [(sys.dt.getD t 0, b.label ++ "_" ++ "excess_input", t), (sys.dt.getD t 0, b.label ++ "_" ++ "excess_output", t)], fun σ => ?_⟩
  rw [termsVal_flatMap]
  refine congrArg List.sum (List.map_congr_left fun b _ => ?_)
  unfold BusData.hours
  by_cases hp : b.excessPenalty = none
  · rw [if_pos hp, if_pos hp]; rfl
  · rw [if_neg hp, if_neg hp, termsVal_flatMap, ← list_sum_range]
    refine congrArg List.sum (List.map_congr_left fun t _ => ?_)
    simp [termsVal, mul_add]

theorem hours_nonneg (hv : sys.Valid) {σ : Assignment} {b : BusData} (hb : s.BusOk sys σ b) : 0 ≤ b.hours sys σ := by
  unfold BusData.hours
  split
  · exact le_rfl
  · rename_i hp
    refine Finset.sum_nonneg fun t ht => ?_
    obtain ⟨e1, e2, _⟩ := hb.2 hp t (Finset.mem_range.1 ht)
    exact mul_nonneg (hv.width_pos (Finset.mem_range.1 ht)).le (add_nonneg e1 e2)

theorem noExcess_iff (hv : sys.Valid) {σ : Assignment} (hb : ∀ b ∈ s.buses, s.BusOk sys σ b) : s.NoExcess sys.n σ ↔ (s.buses.map fun b => b.hours sys σ).sum = 0 := by
  constructor
  · intro h
    refine List.sum_eq_zero fun x hx => ?_
    obtain ⟨b, hbm, rfl⟩ := List.mem_map.1 hx
    unfold BusData.hours
    split
    · rfl
    · rename_i hp
      refine Finset.sum_eq_zero fun t ht => ?_
      obtain ⟨e1, e2⟩ := (h b hbm t (Finset.mem_range.1 ht)).2 hp
      rw [e1, e2, add_zero, mul_zero]
  · intro h b hbm t ht
    by_cases hp : b.excessPenalty = none
    · exact ⟨(hb b hbm).1 hp t ht, fun hh => absurd hp hh⟩
    · have h0 : b.hours sys σ = 0 := by
        refine le_antisymm ?_ (hours_nonneg hv (hb b hbm))
        rw [← h]
        refine List.single_le_sum (fun x hx => ?_) _ (List.mem_map_of_mem hbm)
        obtain ⟨b', hb', rfl⟩ := List.mem_map.1 hx
        exact hours_nonneg hv (hb b' hb')
      unfold BusData.hours at h0
      rw [if_neg hp, Finset.sum_eq_zero_iff_of_nonneg] at h0
      · obtain ⟨k1, k2, k3⟩ := (hb b hbm).2 hp t ht
        have := (mul_eq_zero.1 (h0 t (Finset.mem_range.2 ht))).resolve_left (hv.width_pos ht).ne'
        have e1 : σ (b.label ++ "_" ++ "excess_input") t = 0 := by linarith
        have e2 : σ (b.label ++ "_" ++ "excess_output") t = 0 := by linarith
        exact ⟨by rw [e1, e2] at k3; simpa using k3, fun _ => ⟨e1, e2⟩⟩
      · intro t ht
        obtain ⟨k1, k2, _⟩ := (hb b hbm).2 hp t (Finset.mem_range.1 ht)
        exact mul_nonneg (hv.width_pos (Finset.mem_range.1 ht)).le (add_nonneg k1 k2)

/-- What solves one system solves another with the same components and effects, if it suits the buses there. -/
theorem other_buses (hv : sys.Valid) (hn : sys.n ≠ 0) (hf : s.Fits sys.n) (hf' : s'.Fits sys.n) (h : systemModel sys s = .ok o) (h' : systemModel sys s' = .ok o')
    (he : s'.effects = s.effects) (hc : s'.comps = s.comps) {σ τ : Assignment} (hs : o.solver.Solves σ) (hag : ∀ oc ∈ o.comps, ∀ x, oc.tree.HasVar x → τ x.label = σ x.label)
    (hb : ∀ b ∈ s'.buses, s'.BusOk sys τ b) :
    ∃ σ', o'.solver.Solves σ' ∧ (∀ l, l ∉ o'.coll.tree.labels → σ' l = τ l) ∧ ∀ e ∈ s.effects, System.ownCost sys e σ' = System.ownCost sys e σ := by
  obtain ⟨_, s2, _⟩ := (system_solves h σ).1 hs
  obtain ⟨tb, ta⟩ := solution_totals hv hn hf h hs
  have hcomps : ∀ oc ∈ o'.comps, oc.tree.Solves τ := by
    intro oc hoc
    obtain ⟨c, hcm, hm⟩ := forall₂_mem_right (system_inv h').1 hoc
    rw [hc] at hcm
    obtain ⟨oc', hoc', hm'⟩ := forall₂_mem_left (system_inv h).1 hcm
    rw [hm] at hm'
    cases hm'
    exact solves_congr (vars_hasVar _) (model_refs hm (vars_hasVar _)).1 (fun x hx => (hag oc hoc' x hx).symm) (s2 oc hoc')
  obtain ⟨k1, k2⟩ : (∀ l, ∀ t < sys.n, s.opOf sys τ l t = s.opOf sys σ l t) ∧ ∀ l, s.invOf τ l = s.invOf σ l :=
    ⟨fun l => (contribs_congr hv hf h hag l).1, fun l => (contribs_congr hv hf h hag l).2⟩
  have e1 : s'.opOf sys τ = s.opOf sys τ := by unfold System.opOf; rw [he, hc]
  have e2 : s'.invOf τ = s.invOf τ := by unfold System.invOf; rw [he, hc]
  obtain ⟨σ', g1, g2, g3⟩ := solution_complete hv hn hf' h' hcomps hb (T := ⟨fun l t => σ (opTSL l) t, fun l => σ (invSumL l) 0⟩) (by
    intro e hem
    rw [he] at hem
    obtain ⟨u1, u2⟩ := tb e hem
    rw [e1, e2, he]
    refine ⟨fun t ht => ?_, ?_⟩
    · rw [k1 _ t ht]; exact u1 t ht
    · rw [k2]; exact u2) (by rw [he]; exact ta)
  refine ⟨σ', g1, g2, fun e hem => ?_⟩
  obtain ⟨q1, q2⟩ := g3 e (by rw [he]; exact hem)
  unfold System.ownCost
  rw [show σ' (e.label ++ "__operation_operation_sum_TS") = fun t => σ (opTSL e.label) t from q1, show σ' (e.label ++ "__invest_invest_sum") 0 = σ (invSumL e.label) 0 from q2]
  rfl

theorem fed_same (hc : s'.comps = s.comps) (σ : Assignment) (b : String) (t : Nat) : fedInto σ s' b t = fedInto σ s b t ∧ takenFrom σ s' b t = takenFrom σ s b t := by
  unfold fedInto takenFrom
  rw [hc]
  exact ⟨rfl, rfl⟩

theorem System.OnlyPenalties.symm (h : s.OnlyPenalties s') : s'.OnlyPenalties s :=
  ⟨h.effects.symm, h.comps.symm, (h.buses.imp fun _ _ hb => ⟨hb.1.symm, hb.2.symm⟩).flip⟩

/-- The buses allow the same. -/
theorem busOk_same (h : s.OnlyPenalties s') {σ : Assignment} (hb : ∀ b ∈ s.buses, s.BusOk sys σ b) : ∀ b ∈ s'.buses, s'.BusOk sys σ b := by
  intro b' hb'
  obtain ⟨b, hbm, e1, e2⟩ := forall₂_mem_right h.buses hb'
  obtain ⟨g1, g2⟩ := hb b hbm
  unfold System.BusOk
  simp only [(fed_same h.comps _ _ _).1, (fed_same h.comps _ _ _).2, e1, ne_eq, e2]
  exact ⟨g1, g2⟩

theorem hours_same (h : s.OnlyPenalties s') (σ : Assignment) : (s'.buses.map fun b => b.hours sys σ).sum = (s.buses.map fun b => b.hours sys σ).sum := by
  have : ∀ {l l' : List BusData}, List.Forall₂ (fun b b' : BusData => b'.label = b.label ∧ (b'.excessPenalty = none ↔ b.excessPenalty = none)) l l' →
      (l'.map fun b => b.hours sys σ).sum = (l.map fun b => b.hours sys σ).sum := by
    intro l l' hl
    induction hl with
    | nil => rfl
    | cons hb _ ih =>
      rw [List.map_cons, List.map_cons, List.sum_cons, List.sum_cons, ih]
      congr 1
      unfold BusData.hours
      simp only [hb.1, hb.2]
  exact this h.buses

/-- The excess variables keep their values. -/
theorem hours_kept (hv : sys.Valid) (hf : s.Fits sys.n) (h : systemModel sys s = .ok o) {σ σ' : Assignment} (g : ∀ l, l ∉ o.coll.tree.labels → σ' l = σ l) :
    (s.buses.map fun b => b.hours sys σ').sum = (s.buses.map fun b => b.hours sys σ).sum := by
  refine congrArg List.sum (List.map_congr_left fun b hb => ?_)
  unfold BusData.hours
  by_cases e : b.excessPenalty = none
  · rw [if_pos e, if_pos e]
  · obtain ⟨x1, x2⟩ := excess_outside hv hf h hb e
    rw [if_neg e, if_neg e]
    simp only [g _ x1, g _ x2]

/-- What excess costs at least. -/
theorem penalty_above (hv : sys.Valid) {p : ℚ} (hp : s.PenaltiesAbove sys.n p) {σ : Assignment} (hb : ∀ b ∈ s.buses, s.BusOk sys σ b) :
    p * (s.buses.map fun b => b.hours sys σ).sum ≤ (s.buses.map fun b => b.penaltyCost sys σ).sum := by
  rw [← List.sum_map_mul_left]
  refine List.sum_le_sum fun b hbm => ?_
  unfold BusData.hours BusData.penaltyCost
  cases e : b.excessPenalty with
  | none => simp
  | some pen =>
    rw [if_neg (by simp), Finset.mul_sum]
    refine Finset.sum_le_sum fun t ht => ?_
    obtain ⟨k1, k2, _⟩ := (hb b hbm).2 (by simp [e]) t (Finset.mem_range.1 ht)
    have hw : 0 ≤ sys.dt.getD t 0 := (hv.width_pos (Finset.mem_range.1 ht)).le
    have := mul_le_mul_of_nonneg_right (hp b hbm pen e t (Finset.mem_range.1 ht)) (mul_nonneg hw (add_nonneg k1 k2))
    linarith

/-- Without excess there is no penalty. -/
theorem penalty_none {σ : Assignment} (h : s.NoExcess sys.n σ) : (s.buses.map fun b => b.penaltyCost sys σ).sum = 0 := by
  refine List.sum_eq_zero fun x hx => ?_
  obtain ⟨b, hbm, rfl⟩ := List.mem_map.1 hx
  unfold BusData.penaltyCost
  cases e : b.excessPenalty with
  | none => rfl
  | some pen =>
    refine Finset.sum_eq_zero fun t ht => ?_
    obtain ⟨e1, e2⟩ := (h b hbm t (Finset.mem_range.1 ht)).2 (by simp [e])
    rw [e1, e2, add_zero, mul_zero]

/-- All excess set to zero. -/
def System.zeroed (s : System) (σ : Assignment) : Assignment :=
  open Classical in fun x k => if ∃ b ∈ s.buses, b.excessPenalty ≠ none ∧ (x = b.label ++ "_" ++ "excess_input" ∨ x = b.label ++ "_" ++ "excess_output") then 0 else σ x k

theorem zeroed_rate (s : System) (σ : Assignment) (c f : String) : s.zeroed σ (c ++ "__" ++ f ++ "_" ++ "flow_rate") = σ (c ++ "__" ++ f ++ "_" ++ "flow_rate") := by
  funext k
  unfold System.zeroed
  rw [if_neg]
  rintro ⟨b, _, _, hh | hh⟩
  · exact (rate_ne_excess c f b.label).1 hh
  · exact (rate_ne_excess c f b.label).2 hh

theorem zeroed_excess (σ : Assignment) {b : BusData} (hb : b ∈ s.buses) (hp : b.excessPenalty ≠ none) (t : Nat) :
    s.zeroed σ (b.label ++ "_" ++ "excess_input") t = 0 ∧ s.zeroed σ (b.label ++ "_" ++ "excess_output") t = 0 :=
  ⟨if_pos ⟨b, hb, hp, .inl rfl⟩, if_pos ⟨b, hb, hp, .inr rfl⟩⟩

theorem zeroed_flows (s : System) (σ : Assignment) (b : String) (k : Nat) :
    fedInto (s.zeroed σ) s b k = fedInto σ s b k ∧ takenFrom (s.zeroed σ) s b k = takenFrom σ s b k := by
  unfold fedInto takenFrom
  simp only [zeroed_rate, and_self]

theorem strict_fits {n : Nat} (hf : s.Fits n) : s.strict.Fits n := by
  refine ⟨hf.effects, hf.comps, fun b hb pen hp => ?_⟩
  obtain ⟨b, _, rfl⟩ := List.mem_map.1 hb
  cases hp

/-- An operation without excess is one of the system that does not know excess. -/
theorem strict_busOk {σ : Assignment} (h : s.NoExcess sys.n σ) : ∀ b ∈ s.strict.buses, s.strict.BusOk sys σ b := by
  intro b hb
  obtain ⟨b, hbm, rfl⟩ := List.mem_map.1 hb
  exact ⟨fun _ t ht => (h b hbm t ht).1, fun hh => absurd rfl hh⟩

theorem strict_none (σ : Assignment) : (s.strict.buses.map fun b => b.penaltyCost sys σ).sum = 0 := by
  refine List.sum_eq_zero fun x hx => ?_
  obtain ⟨b, hb, rfl⟩ := List.mem_map.1 hx
  obtain ⟨b, _, rfl⟩ := List.mem_map.1 hb
  rfl

/-- **C121.**  If a system can be operated without excess, there is a number such that with penalties of at least this number no cheapest solution has excess; the least cost is
then the least cost of the system in which no bus allows excess, whatever the penalties are. -/
theorem C121 (hv : sys.Valid) (hn : sys.n ≠ 0) (hf : s.Fits sys.n) (hff : ∀ c ∈ s.comps, ∀ f ∈ c.flows, f.Fits sys.n)
    (h : systemModel sys s = .ok o) {rank : String → Nat} (hr1 : Ranked s.effects (·.shareOperation) rank) (hr2 : Ranked s.effects (·.shareInvest) rank)
    (hs : ∃ σ, o.solver.Solves σ ∧ s.NoExcess sys.n σ) :
    ∃ p c : ℚ, 0 ≤ p ∧ (∀ o', systemModel sys s.strict = .ok o' → (∃ σ', o'.Optimal σ') ∧ ∀ σ', o'.Optimal σ' → o'.Costs σ' c) ∧
      ∀ s' o', s.OnlyPenalties s' → s'.Fits sys.n → s'.PenaltiesAbove sys.n p → systemModel sys s' = .ok o' →
      (∃ σ', o'.Optimal σ') ∧ ∀ σ', o'.Optimal σ' → s'.NoExcess sys.n σ' ∧ o'.Costs σ' c := by
  obtain ⟨terms, e, ht, he, hc⟩ := solution_cost hv hn hf h
  have hem := List.mem_of_find?_eq_some he
  obtain ⟨k1, k2⟩ := effects_bdd hv hn hf hff h hr1 hr2 e hem
  obtain ⟨B, hB⟩ := (bddOn_sum (f := fun t σ => σ (opTSL e.label) t) sys.n k1).add k2
  obtain ⟨f, hfv⟩ := ownCost_terms sys e
  obtain ⟨g, hgv⟩ := hours_terms sys s
  have hbus : ∀ σ, o.solver.Solves σ → ∀ b ∈ s.buses, s.BusOk sys σ b := fun σ hσ => (buses_iff hv hf h σ).1 ((system_solves h σ).1 hσ).2.2
  have hlow : ∀ σ, o.solver.Solves σ → -B ≤ termsVal σ f ∧ 0 ≤ termsVal σ g := by
    intro σ hσ
    rw [hfv, hgv]
    refine ⟨(abs_le.1 (hB σ hσ)).1, List.sum_nonneg fun x hx => ?_⟩
    obtain ⟨b, hb, rfl⟩ := List.mem_map.1 hx
    exact hours_nonneg hv (hbus σ hσ b hb)
  obtain ⟨σ₀, h₀, hx₀⟩ := hs
  obtain ⟨R, bins, _, hiff⟩ := model_linear h₀
  -- the cheapest operation without excess
  let zero : Row := ⟨.eq, g, 0⟩
  have hzero : ∀ σ, zero.Holds σ ↔ termsVal σ g = 0 := fun σ => Iff.rfl
  obtain ⟨σ₁, ⟨r1, r2⟩, hmin⟩ := milp_attained f bins (zero :: R) (σ₀ := σ₀) (by
    intro r hr
    rcases List.mem_cons.1 hr with rfl | hr
    · rw [hzero, hgv]; exact (noExcess_iff hv (hbus σ₀ h₀)).1 hx₀
    · exact ((hiff σ₀).1 h₀).1 r hr) ((hiff σ₀).1 h₀).2 (b := -B) fun σ u1 u2 =>
      (hlow σ ((hiff σ).2 ⟨fun r hr => u1 r (List.mem_cons_of_mem _ hr), u2⟩)).1
  have h₁ : o.solver.Solves σ₁ := (hiff σ₁).2 ⟨fun r hr => r1 r (List.mem_cons_of_mem _ hr), r2⟩
  have hg₁ : termsVal σ₁ g = 0 := (hzero _).1 (r1 _ List.mem_cons_self)
  have hx₁ : s.NoExcess sys.n σ₁ := (noExcess_iff hv (hbus σ₁ h₁)).2 (by rw [← hgv]; exact hg₁)
  obtain ⟨P, hP, hall⟩ := milp_exact f g (b := -B) (c₀ := termsVal σ₁ f) bins R (fun σ u1 u2 => hlow σ ((hiff σ).2 ⟨u1, u2⟩)) (by
    intro σ u1 u2 u3
    refine hmin σ ?_ u2
    intro r hr
    rcases List.mem_cons.1 hr with rfl | hr
    · exact (hzero σ).2 u3
    · exact u1 r hr)
  refine ⟨P + 1, termsVal σ₁ f, by linarith, fun o' h' => ?_, fun s' o' hsame hf' habove h' => ?_⟩
  · have hf' := strict_fits hf
    obtain ⟨terms', e', ht', he', hc'⟩ := solution_cost hv hn hf' h'
    have hee : e' = e := (Option.some.inj (he.symm.trans he')).symm
    subst hee
    have hcost : ∀ σ', o'.solver.Solves σ' → termsVal σ' terms' = System.ownCost sys e' σ' := by
      intro σ' hσ'
      rw [hc' σ' hσ']
      unfold System.cost System.ownCost
      rw [strict_none, add_zero]
    have lower : ∀ σ', o'.solver.Solves σ' → termsVal σ₁ f ≤ termsVal σ' terms' := by
      intro σ' hσ'
      have hb' := (buses_iff hv hf' h' σ').1 ((system_solves h' σ').1 hσ').2.2
      obtain ⟨τ, t1, t2, t3⟩ := other_buses hv hn hf' hf h' h rfl rfl hσ' (τ := s.zeroed σ') (by
        intro oc hoc x hx
        obtain ⟨c, hcm, hm⟩ := forall₂_mem_right (system_inv h').1 hoc
        obtain ⟨oc', hoc', hm'⟩ := forall₂_mem_left (system_inv h).1 (show c ∈ s.comps from hcm)
        rw [hm] at hm'
        cases hm'
        funext k
        unfold System.zeroed
        rw [if_neg]
        rintro ⟨b, hb, hp, hh | hh⟩
        · exact (comp_not_excess hv hf h hb hp hoc' hx).1 hh
        · exact (comp_not_excess hv hf h hb hp hoc' hx).2 hh) (by
        intro b hb
        have e0 := fun t ht => (hb' { b with excessPenalty := none } (List.mem_map.2 ⟨b, hb, rfl⟩)).1 rfl t ht
        unfold System.BusOk
        simp only [(zeroed_flows s σ' _ _).1, (zeroed_flows s σ' _ _).2]
        refine ⟨fun _ t ht => e0 t ht, fun hp t ht => ?_⟩
        rw [(zeroed_excess σ' hb hp t).1, (zeroed_excess σ' hb hp t).2]
        exact ⟨le_rfl, le_rfl, by rw [add_zero, add_zero]; exact e0 t ht⟩)
      have hg0 : termsVal τ g = 0 := by
        rw [hgv, hours_kept hv hf h t2]
        refine List.sum_eq_zero fun x hx => ?_
        obtain ⟨b, hb, rfl⟩ := List.mem_map.1 hx
        unfold BusData.hours
        split
        · rfl
        · rename_i hp
          refine Finset.sum_eq_zero fun t _ => ?_
          rw [(zeroed_excess σ' hb hp t).1, (zeroed_excess σ' hb hp t).2, add_zero, mul_zero]
      rw [hcost σ' hσ', ← t3 e' hem, ← hfv]
      refine hmin τ ?_ ((hiff τ).1 t1).2
      intro r hr
      rcases List.mem_cons.1 hr with rfl | hr
      · exact (hzero τ).2 hg0
      · exact ((hiff τ).1 t1).1 r hr
    obtain ⟨ρ, p1, p2, p3⟩ := other_buses hv hn hf hf' h h' rfl rfl h₁ (τ := σ₁) (fun _ _ _ _ => rfl) (strict_busOk hx₁)
    have hρ : termsVal ρ terms' = termsVal σ₁ f := by rw [hcost ρ p1, hfv, p3 e' hem]
    refine ⟨⟨ρ, p1, terms', ht', fun τ hτ => by rw [hρ]; exact lower τ hτ⟩, fun σ' hopt => ?_⟩
    obtain ⟨hσ', terms'', ht'', hmin'⟩ := hopt
    rw [ht'] at ht''
    cases ht''
    exact ⟨terms', ht', le_antisymm (hρ ▸ hmin' ρ p1) (lower σ' hσ')⟩
  obtain ⟨terms', e', ht', he', hc'⟩ := solution_cost hv hn hf' h'
  have hee : e' = e := by
    rw [hsame.effects, he] at he'
    exact (Option.some.inj he').symm
  subst hee
  have hbus' : ∀ σ, o'.solver.Solves σ → ∀ b ∈ s'.buses, s'.BusOk sys σ b := fun σ hσ => (buses_iff hv hf' h' σ).1 ((system_solves h' σ).1 hσ).2.2
  -- every solution of the other system costs at least as much
  have lower : ∀ σ', o'.solver.Solves σ' → termsVal σ₁ f + (s'.buses.map fun b => b.hours sys σ').sum ≤ termsVal σ' terms' := by
    intro σ' hσ'
    obtain ⟨τ, t1, t2, t3⟩ := other_buses hv hn hf' hf h' h hsame.effects.symm hsame.comps.symm hσ' (τ := σ') (fun _ _ _ _ => rfl) (busOk_same hsame.symm (hbus' σ' hσ'))
    have a1 := hall τ ((hiff τ).1 t1).1 ((hiff τ).1 t1).2
    rw [hfv τ, hgv τ, hours_kept hv hf h t2, t3 e' (by rw [hsame.effects]; exact hem), ← hours_same hsame] at a1
    have a2 := penalty_above hv habove (hbus' σ' hσ')
    rw [hc' σ' hσ']
    unfold System.cost
    unfold System.ownCost at a1
    linarith
  -- and the cheapest operation without excess costs exactly this
  obtain ⟨ρ, p1, p2, p3⟩ := other_buses hv hn hf hf' h h' hsame.effects hsame.comps h₁ (τ := σ₁) (fun _ _ _ _ => rfl) (busOk_same hsame (hbus σ₁ h₁))
  have hρ : s'.NoExcess sys.n ρ := by
    rw [noExcess_iff hv (hbus' ρ p1), hours_kept hv hf' h' p2, hours_same hsame, ← hgv]
    exact hg₁
  have hcost : termsVal ρ terms' = termsVal σ₁ f := by
    rw [hc' ρ p1, hfv, ← p3 e' hem]
    unfold System.cost System.ownCost
    rw [penalty_none hρ, add_zero]
  have hnn : ∀ σ', o'.solver.Solves σ' → 0 ≤ (s'.buses.map fun b => b.hours sys σ').sum := by
    intro σ' hσ'
    refine List.sum_nonneg fun x hx => ?_
    obtain ⟨b, hb, rfl⟩ := List.mem_map.1 hx
    exact hours_nonneg hv (hbus' σ' hσ' b hb)
  refine ⟨⟨ρ, p1, terms', ht', fun τ hτ => ?_⟩, fun σ' hopt => ?_⟩
  · rw [hcost]
    linarith [lower τ hτ, hnn τ hτ]
  · obtain ⟨hσ', terms'', ht'', hmin'⟩ := hopt
    rw [ht'] at ht''
    cases ht''
    have b1 := hmin' ρ p1
    have b2 := lower σ' hσ'
    have b3 := hnn σ' hσ'
    refine ⟨(noExcess_iff hv (hbus' σ' hσ')).2 (by linarith), terms', ht', by linarith⟩

/-! ### No penalty is enough for every system -/

/-- A load of 2 and a generator that is dearer than the default penalty (elements.py:99). -/
def exDear : System :=
  { effects := [{ label := "costs", isStandard := true, isObjective := true }]
    comps := [.plain { label := "Gen", inputs := [], outputs := [{ label := "Q", bus := "heat", size := .num 5, effectsPerFlowHour := [(some "costs", .s 200000)] }] },
      .plain { label := "Load", inputs := [{ label := "Q", bus := "heat", size := .num 2, relMin := .s 1 }], outputs := [] }]
    buses := [{ label := "heat" }] }

/-- The generator supplies the load. -/
def exDearSupplied : Assignment := tableSol
  [("costs__operation_operation_sum_TS", [400000, 400000, 800000]), ("costs__operation_operation_sum", [1600000]), ("costs__all_all_sum", [1600000]),
   ("Gen__Q_flow_rate", [2, 2, 2]), ("Gen__Q_sumFlowHours", [8]), ("Load__Q_flow_rate", [2, 2, 2]), ("Load__Q_sumFlowHours", [8]),
   ("costs__Gen__Q__effects_per_flow_hour", [400000, 400000, 800000]), ("costs__operation", [1600000])]

/-- Everything is missing. -/
def exDearMissing : Assignment := tableSol
  [("heat_excess_input", [2, 2, 2]), ("Effects__penalty_penalty_sum", [800000]), ("Effects__heat__excess_input", [800000]),
   ("Load__Q_flow_rate", [2, 2, 2]), ("Load__Q_sumFlowHours", [8])]

theorem exDear_fits : exDear.Fits exSys.n := by
  refine ⟨?_, ?_, ?_⟩
  · simp only [exDear, List.forall_mem_cons, List.not_mem_nil, false_imp_iff, implies_true, and_true]
    constructor <;> simp
  · simp only [exDear, List.forall_mem_cons, List.not_mem_nil, false_imp_iff, implies_true, and_true]
    refine ⟨⟨?_, by simp [Comp.onOff], by simp⟩, ⟨?_, by simp [Comp.onOff], by simp⟩⟩
    all_goals
      simp only [Comp.flows, Comp.inputs, Comp.outputs, List.nil_append, List.append_nil, List.forall_mem_cons, List.not_mem_nil, false_imp_iff, implies_true, and_true]
      exact ⟨by simp [EffDict.Series, Num.Fits, Num.isScalar], by simp, by simp⟩
  · simp only [exDear, List.forall_mem_cons, List.not_mem_nil, false_imp_iff, implies_true, and_true]
    intro pen hp
    cases hp
    exact Or.inl rfl

theorem exDear_flows : ∀ c ∈ exDear.comps, ∀ f ∈ c.flows, f.Fits exSys.n := by
  simp only [exDear, List.forall_mem_cons, List.not_mem_nil, false_imp_iff, implies_true, and_true, Comp.flows, Comp.inputs, Comp.outputs, List.nil_append, List.append_nil]
  refine ⟨?_, ?_⟩ <;> constructor <;> simp [Num.Fits, Num.isScalar, exSys]

def exDearLoad : Var := { label := "Load__Q_flow_rate", length := 3, lb := some (.s 2), ub := some (.s 2) }

/-- Both are solutions; the generator can supply the load. -/
theorem exDear_ok : ∃ o, systemModel exSys exDear = .ok o ∧ o.solver.Solves exDearSupplied ∧ o.solver.Solves exDearMissing ∧ exDear.NoExcess exSys.n exDearSupplied := by
  obtain ⟨o, h, hs⟩ := builds_and_solves (σ := exDearSupplied) (r := systemModel exSys exDear)
    (f := fun o : SysOut => MTree.node o.solver.vars o.solver.cons []) (by decide +kernel)
  obtain ⟨o', h', ht⟩ := builds_and_solves (σ := exDearMissing) (r := systemModel exSys exDear)
    (f := fun o : SysOut => MTree.node o.solver.vars o.solver.cons []) (by decide +kernel)
  rw [h] at h'
  cases h'
  refine ⟨o, h, ⟨hs.1, hs.2.1⟩, ⟨ht.1, ht.2.1⟩, ?_⟩
  unfold System.NoExcess
  decide +kernel

/-- The hypotheses of `C121` are met. -/
example : ∃ p c : ℚ, 0 ≤ p ∧ ∀ s' o', exDear.OnlyPenalties s' → s'.Fits exSys.n → s'.PenaltiesAbove exSys.n p → systemModel exSys s' = .ok o' →
    ∀ σ', o'.Optimal σ' → s'.NoExcess exSys.n σ' ∧ o'.Costs σ' c := by
  obtain ⟨o, h, hs, _, hx⟩ := exDear_ok
  obtain ⟨p, c, hp, _, hall⟩ := C121 exSys_valid (by decide) exDear_fits exDear_flows h (rank := fun _ => 0) (by simp [Ranked, exDear]) (by simp [Ranked, exDear]) ⟨_, hs, hx⟩
  exact ⟨p, c, hp, fun s' o' h1 h2 h3 h4 => (hall s' o' h1 h2 h3 h4).2⟩

/-- **C121: the default is not enough for every system.**  With the default penalty there is a system that can be operated without excess but whose cheapest solutions all have
excess. -/
theorem C121_default : ∃ s o, (∀ b ∈ s.buses, b.excessPenalty = some (.s 100000)) ∧ systemModel exSys s = .ok o ∧ (∃ σ, o.solver.Solves σ ∧ s.NoExcess exSys.n σ) ∧
    (∃ σ, o.Optimal σ) ∧ ∀ σ, o.Optimal σ → ¬ s.NoExcess exSys.n σ := by
  obtain ⟨o, h, hs, hm, hx⟩ := exDear_ok
  refine ⟨exDear, o, by simp [exDear], h, ⟨_, hs, hx⟩, ?_, ?_⟩
  · exact C95 exSys_valid (by decide) exDear_fits exDear_flows h (rank := fun _ => 0) (by simp [Ranked, exDear]) (by simp [Ranked, exDear]) (by
      simp only [exDear, List.forall_mem_cons, List.not_mem_nil, false_imp_iff, implies_true, and_true]
      intro pen hp t _
      cases hp
      norm_num [Num.at]) ⟨_, hs⟩
  · rintro σ ⟨hσ, terms, ht, hmin⟩ hno
    obtain ⟨terms', e, ht', he, hcost⟩ := solution_cost exSys_valid (by decide) exDear_fits h
    rw [ht] at ht'
    cases ht'
    have he' : e = { label := "costs", isStandard := true, isObjective := true } := by
      simp only [exDear, List.find?_cons, Option.some.injEq] at he
      exact he.symm
    subst he'
    have hle := hmin _ hm
    rw [hcost _ hσ, hcost _ hm] at hle
    have hval : exDear.cost exSys { label := "costs", isStandard := true, isObjective := true } exDearMissing = 800000 := by decide +kernel
    rw [hval] at hle
    obtain ⟨o', h', hl⟩ := of_okB (p := fun o : SysOut => decide (exDearLoad ∈ o.solver.vars)) (r := systemModel exSys exDear) (by decide +kernel)
    rw [h] at h'
    cases h'
    have hr : ∀ t < 3, σ "Load__Q_flow_rate" t = 2 := by
      intro t ht
      have := C04_bounds (x := exDearLoad) (by decide +kernel) (hσ.1 exDearLoad (by simpa using hl)) t ht
      exact le_antisymm (this.2.1 _ rfl) (this.1 _ rfl)
    have hg : ∀ t < 3, σ "Gen__Q_flow_rate" t = 2 := by
      intro t ht
      have := (hno { label := "heat" } (by simp [exDear]) t ht).1
      have f1 : fedInto σ exDear "heat" t = σ "Gen__Q_flow_rate" t := by simp [fedInto, exDear, Comp.outputs, Comp.label]
      have f2 : takenFrom σ exDear "heat" t = σ "Load__Q_flow_rate" t := by simp [takenFrom, exDear, Comp.inputs, Comp.label]
      rw [← f1, ← hr t ht, ← f2]
      exact this
    have o1 := (C21_system_operation exSys_valid (by decide) exDear_fits h hσ (List.mem_of_find?_eq_some he)).1
    have o2 := (C21_system_invest exSys_valid (by decide) exDear_fits h hσ (List.mem_of_find?_eq_some he)).1
    have z1 : ∀ t < exSys.n, σ ("costs" ++ "__operation_operation_sum_TS") t = σ "Gen__Q_flow_rate" t * exSys.width t * 200000 := by
      intro t ht
      rw [o1 t ht]
      have hl : rateL "Gen" "Q" = "Gen__Q_flow_rate" := by decide +kernel
      simp [exDear, Comp.operation, Comp.flows, Comp.inputs, Comp.outputs, Comp.label, flowOperation, onOffOperation, effVal, Comp.onOff, fromOthersOp, names, List.filter, Num.at, hl]
      ring
    have z2 : σ ("costs" ++ "__invest_invest_sum") 0 = 0 := by
      rw [o2]
      simp [exDear, Comp.investment, Comp.flows, Comp.inputs, Comp.outputs, flowInvestment, fromOthersInv]
    unfold System.cost at hle
    rw [penalty_none hno, z2] at hle
    rw [Finset.sum_congr rfl fun t ht => z1 t (Finset.mem_range.1 ht)] at hle
    simp only [exSys, Finset.sum_range_succ, Finset.sum_range_zero, Sys.width] at hle
    rw [hg 0 (by decide), hg 1 (by decide), hg 2 (by decide)] at hle
    norm_num at hle

end Flix
