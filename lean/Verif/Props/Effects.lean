import Verif.Lemmas.Collection
import Verif.Lemmas.Check
import Verif.Props.OnOff

/-!
# C21–C23: totals of effects, the objective, limits on effects
-/

namespace Flix

/-! ## An example

Costs (standard, objective) and CO₂ (0.2 costs per CO₂ in operation, limited); a flow rate with costs over time, a fixed
investment cost, an investment share to CO₂, a penalty. -/

def exEffects : List EffectData :=
  [{ label := "costs", isStandard := true, isObjective := true, maxTotal := some 1000 },
   { label := "co2", shareOperation := [("costs", .s (1 / 5))], maxOperationPerHour := some (.v [10, 10, 20]), maxInvest := some 50 }]

def exRate : Var := { label := "c__f__flow_rate", length := 3, lb := some (.s 0), ub := some (.s 10) }

def exCalls : List ShareCall :=
  [{ target := .operation, effect := none, name := "c__f_effects", var := some exRate, factor := .v [1, 2, 3], asSum := false },
   { target := .operation, effect := some "co2", name := "c__f_effects", var := some exRate, factor := .s 1, asSum := false },
   { target := .invest, effect := some "costs", name := "c_fix", var := none, factor := .s 7, asSum := false },
   { target := .invest, effect := some "co2", name := "c_fix", var := none, factor := .s 3, asSum := false },
   { target := .penalty, effect := none, name := "bus", var := some exRate, factor := .s 2, asSum := true }]

theorem exEffects_ok : ∃ o, collectionModel exSys exEffects exCalls = .ok o := ⟨_, rfl⟩

theorem exEffects_fit : ∀ e ∈ exEffects, e.Fits exSys.n := by
  intro e he
  simp only [exEffects, List.mem_cons, List.not_mem_nil, or_false] at he
  rcases he with rfl | rfl
  · exact ⟨by simp, by simp, by simp, by simp⟩
  · exact ⟨by simp [Num.isScalar], by simp, by simp, by simp [exSys, Num.isScalar, Num.len]⟩

theorem exCalls_wf : ∀ c ∈ exCalls, c.WellFormed exSys.n := by
  intro c hc
  simp only [exCalls, List.mem_cons, List.not_mem_nil, or_false] at hc
  rcases hc with rfl | rfl | rfl | rfl | rfl <;>
    simp [ShareCall.WellFormed, Share.WellFormed, ShareCall.share, exRate, exSys, Num.isScalar, Num.len]

/-- A solution of the example: the flow is 1, 2, 0. -/
def exEffSol : Assignment := fun l t =>
  if l = "c__f__flow_rate" then [1, 2, 0].getD t 0
  else if l = "costs__operation_operation_sum_TS" then [6 / 5, 22 / 5, 0].getD t 0
  else if l = "costs__operation_operation_sum" then 28 / 5
  else if l = "costs__invest_invest_sum" then 7
  else if l = "costs__all_all_sum" then 63 / 5
  else if l = "co2__operation_operation_sum_TS" then [1, 2, 0].getD t 0
  else if l = "co2__operation_operation_sum" then 3
  else if l = "co2__invest_invest_sum" then 3
  else if l = "co2__all_all_sum" then 6
  else if l = "Effects__penalty_penalty_sum" then 6
  else if l = "Effects__bus" then 6
  else if l = "costs__co2_operation" then [1 / 5, 2 / 5, 0].getD t 0
  else if l = "costs__c__f_effects" then [1, 4, 0].getD t 0
  else if l = "co2__c__f_effects" then [1, 2, 0].getD t 0
  else if l = "costs__c_fix" then 7
  else if l = "co2__c_fix" then 3
  else if l = "costs__operation" then 28 / 5
  else if l = "costs__invest" then 7
  else if l = "co2__operation" then 3
  else if l = "co2__invest" then 3
  else 0

/-! ## C21 -/

/-- **C21 (operation).**  In every solution the operation of an effect in a time step is the sum of the contributions of all
elements in this step plus the shares of all other effects in this step. -/
theorem C21_operation {sys : Sys} (hv : sys.Valid) (hn : sys.n ≠ 0) {es : List EffectData} {calls : List ShareCall} {o : CollOut}
    (h : collectionModel sys es calls = .ok o) (hf : ∀ e ∈ es, e.Fits sys.n) (hw : ∀ c ∈ calls, c.WellFormed sys.n)
    {σ : Assignment} (hs : o.tree.Solves σ) {e : EffectData} (he : e ∈ es) :
    (∀ t < sys.n, σ (e.label ++ "__operation_operation_sum_TS") t =
      ((calls.filter (ShareCall.goesTo es .operation e.label)).map fun c => c.share.value σ t).sum +
      (es.map fun o => ((o.shareOperation.filter fun q => q.1 = e.label).map fun q =>
        q.2.at t * σ (o.label ++ "__operation_operation_sum_TS") t).sum).sum) ∧
    σ (e.label ++ "__operation_operation_sum") 0 = ∑ t ∈ Finset.range sys.n, σ (e.label ++ "__operation_operation_sum_TS") t := by
  have r := ((collection_iff hv hn h hf hw).2.2.2.2 σ).1 hs
  exact ⟨(r.effect e he).opStep, (r.effect e he).opTotal⟩

/-- **C21 (investment).** -/
theorem C21_invest {sys : Sys} (hv : sys.Valid) (hn : sys.n ≠ 0) {es : List EffectData} {calls : List ShareCall} {o : CollOut}
    (h : collectionModel sys es calls = .ok o) (hf : ∀ e ∈ es, e.Fits sys.n) (hw : ∀ c ∈ calls, c.WellFormed sys.n)
    {σ : Assignment} (hs : o.tree.Solves σ) {e : EffectData} (he : e ∈ es) :
    σ (e.label ++ "__invest_invest_sum") 0 =
      ((calls.filter (ShareCall.goesTo es .invest e.label)).map fun c => c.share.value σ 0).sum +
      (es.map fun o => ((o.shareInvest.filter fun q => q.1 = e.label).map fun q =>
        q.2.at 0 * σ (o.label ++ "__invest_invest_sum") 0).sum).sum := by
  have r := ((collection_iff hv hn h hf hw).2.2.2.2 σ).1 hs
  exact (r.effect e he).inv

/-- **C21 (total).** -/
theorem C21_total {sys : Sys} (hv : sys.Valid) (hn : sys.n ≠ 0) {es : List EffectData} {calls : List ShareCall} {o : CollOut}
    (h : collectionModel sys es calls = .ok o) (hf : ∀ e ∈ es, e.Fits sys.n) (hw : ∀ c ∈ calls, c.WellFormed sys.n)
    {σ : Assignment} (hs : o.tree.Solves σ) {e : EffectData} (he : e ∈ es) :
    σ (e.label ++ "__all_all_sum") 0 = σ (e.label ++ "__operation_operation_sum") 0 + σ (e.label ++ "__invest_invest_sum") 0 := by
  have r := ((collection_iff hv hn h hf hw).2.2.2.2 σ).1 hs
  exact (r.effect e he).all

/-- **C21 (penalties).**  The penalty is the sum of all penalties. -/
theorem C21_penalty {sys : Sys} (hv : sys.Valid) (hn : sys.n ≠ 0) {es : List EffectData} {calls : List ShareCall} {o : CollOut}
    (h : collectionModel sys es calls = .ok o) (hf : ∀ e ∈ es, e.Fits sys.n) (hw : ∀ c ∈ calls, c.WellFormed sys.n)
    {σ : Assignment} (hs : o.tree.Solves σ) :
    σ "Effects__penalty_penalty_sum" 0 = ((calls.filter fun c => decide (c.target = .penalty)).map fun c => c.share.value σ 0).sum := by
  have r := ((collection_iff hv hn h hf hw).2.2.2.2 σ).1 hs
  rw [show "Effects__penalty_penalty_sum" = penaltyL from rfl, r.penalty, penaltyShares, List.map_map]
  rfl

/-- The hypotheses of C21–C23 are met by the example. -/
theorem exEffects_solvable : ∃ o, collectionModel exSys exEffects exCalls = .ok o ∧ o.tree.Solves exEffSol :=
  builds_and_solves (by decide +kernel)

/-! ## C22 -/

theorem objective_value {a b c : Var} (ha : a.length = 1) (hb : b.length = 1) (hc : c.length = 1) {terms : List (ℚ × String × Nat)}
    (h : objectiveTerms [sAll a (.s 1), sAll b (.s 1), sAll c (.s 1)] = .ok terms) (σ : Assignment) :
    termsVal σ terms = σ a.label 0 + σ b.label 0 + σ c.label 0 := by
  have : objectiveTerms [sAll a (.s 1), sAll b (.s 1), sAll c (.s 1)] = .ok [(1, a.label, 0), (1, b.label, 0), (1, c.label, 0)] := by
    obtain ⟨al, an, _⟩ := a
    obtain ⟨bl, bn, _⟩ := b
    obtain ⟨cl, cn, _⟩ := c
    simp only at ha hb hc
    subst ha hb hc
    rfl
  rw [this] at h
  simp only [Except.ok.injEq] at h
  subst h
  simp [termsVal, add_assoc]

/-- **C22.**  The value that is minimised is, in every solution, the total of the objective effect (operation and investment)
plus the total penalty. -/
theorem C22 {sys : Sys} (hv : sys.Valid) (hn : sys.n ≠ 0) {es : List EffectData} {calls : List ShareCall} {o : CollOut}
    (h : collectionModel sys es calls = .ok o) (hf : ∀ e ∈ es, e.Fits sys.n) (hw : ∀ c ∈ calls, c.WellFormed sys.n)
    {terms : List (ℚ × String × Nat)} (ht : objectiveTerms o.objective = .ok terms) :
    ∃ e, es.find? (·.isObjective) = some e ∧ ∀ σ : Assignment, o.tree.Solves σ →
      termsVal σ terms = σ (e.label ++ "__all_all_sum") 0 +
        ((calls.filter fun c => decide (c.target = .penalty)).map fun c => c.share.value σ 0).sum := by
  obtain ⟨hsh, ⟨p1, p2⟩, _⟩ := collection_iff hv hn h hf hw
  obtain ⟨_, _, _, _, _, _, _, h4, _⟩ := collection_inv h
  have hfind : ∀ (es' : List EffectData) (evs : List EffectVars), List.Forall₂ (EvShape sys) es' evs → ∀ ev, objectiveOf evs = some ev →
      ∃ e, es'.find? (·.isObjective) = some e ∧ EvShape sys e ev := by
    intro es' evs hh
    induction hh with
    | nil => simp [objectiveOf]
    | cons hx _ ih =>
      rename_i e ev es' evs' _
      intro ev' hev'
      unfold objectiveOf at hev' ih
      rw [List.find?_cons] at hev'
      rw [List.find?_cons]
      rw [hx.data] at hev'
      by_cases hob : e.isObjective = true
      · simp only [hob, Option.some.injEq] at hev' ⊢
        subst hev'
        exact ⟨e, rfl, hx⟩
      · simp only [Bool.not_eq_true] at hob
        simp only [hob] at hev' ⊢
        exact ih ev' hev'
  unfold objectiveOps at h4
  cases hob : objectiveOf o.effects with
  | none => rw [hob] at h4; simp at h4
  | some ev =>
    rw [hob] at h4
    simp only [Except.ok.injEq] at h4
    obtain ⟨e, he, hx⟩ := hfind es o.effects hsh ev hob
    refine ⟨e, he, fun σ hs => ?_⟩
    rw [← h4] at ht
    rw [objective_value hx.opSum1 hx.invSum1 p2 ht σ, hx.opSum, hx.invSum, p1,
      C21_total hv hn h hf hw hs (List.mem_of_find?_eq_some he)]
    rw [← C21_penalty hv hn h hf hw hs]
    rfl

/-- There always is an objective that can be translated. -/
theorem C22_translatable {sys : Sys} (hv : sys.Valid) (hn : sys.n ≠ 0) {es : List EffectData} {calls : List ShareCall} {o : CollOut}
    (h : collectionModel sys es calls = .ok o) (hf : ∀ e ∈ es, e.Fits sys.n) (hw : ∀ c ∈ calls, c.WellFormed sys.n) :
    ∃ terms, objectiveTerms o.objective = .ok terms := by
  obtain ⟨hsh, ⟨p1, p2⟩, _⟩ := collection_iff hv hn h hf hw
  obtain ⟨_, _, _, _, _, _, _, h4, _⟩ := collection_inv h
  unfold objectiveOps at h4
  cases hob : objectiveOf o.effects with
  | none => rw [hob] at h4; simp at h4
  | some ev =>
    rw [hob] at h4
    simp only [Except.ok.injEq] at h4
    obtain ⟨e, he, hx⟩ := forall₂_mem_right hsh (List.mem_of_find?_eq_some hob)
    rw [← h4]
    have h1 := hx.opSum1
    have h2 := hx.invSum1
    refine ⟨[(1, ev.operation.sum.label, 0), (1, ev.invest.sum.label, 0), (1, o.penalty.sum.label, 0)], ?_⟩
    generalize ev.operation.sum = a at *
    generalize ev.invest.sum = b at *
    generalize o.penalty.sum = c at *
    obtain ⟨al, an, _⟩ := a
    obtain ⟨bl, bn, _⟩ := b
    obtain ⟨cl, cn, _⟩ := c
    simp only at h1 h2 p2
    subst h1 h2 p2
    rfl

/-! ## C23 -/

/-- **C23.**  In every solution all limits of an effect hold: on the operation, on the investment, on the total and, in every
time step, per hour times the width of the step. -/
theorem C23 {sys : Sys} (hv : sys.Valid) (hn : sys.n ≠ 0) {es : List EffectData} {calls : List ShareCall} {o : CollOut}
    (h : collectionModel sys es calls = .ok o) (hf : ∀ e ∈ es, e.Fits sys.n) (hw : ∀ c ∈ calls, c.WellFormed sys.n)
    {σ : Assignment} (hs : o.tree.Solves σ) {e : EffectData} (he : e ∈ es) :
    (∀ m, e.minOperation = some m → m ≤ σ (e.label ++ "__operation_operation_sum") 0) ∧
    (∀ m, e.maxOperation = some m → σ (e.label ++ "__operation_operation_sum") 0 ≤ m) ∧
    (∀ m, e.minInvest = some m → m ≤ σ (e.label ++ "__invest_invest_sum") 0) ∧
    (∀ m, e.maxInvest = some m → σ (e.label ++ "__invest_invest_sum") 0 ≤ m) ∧
    (∀ m, e.minTotal = some m → m ≤ σ (e.label ++ "__all_all_sum") 0) ∧
    (∀ m, e.maxTotal = some m → σ (e.label ++ "__all_all_sum") 0 ≤ m) ∧
    (∀ m, e.minOperationPerHour = some m → ∀ t < sys.n, m.at t * sys.width t ≤ σ (e.label ++ "__operation_operation_sum_TS") t) ∧
    (∀ m, e.maxOperationPerHour = some m → ∀ t < sys.n, σ (e.label ++ "__operation_operation_sum_TS") t ≤ m.at t * sys.width t) := by
  have r := ((collection_iff hv hn h hf hw).2.2.2.2 σ).1 hs
  have := r.effect e he
  exact ⟨this.opBounds.totalMin, this.opBounds.totalMax, this.invBounds.totalMin, this.invBounds.totalMax, this.allBounds.totalMin,
    this.allBounds.totalMax, this.opBounds.stepMin _ rfl, this.opBounds.stepMax _ rfl⟩

end Flix
