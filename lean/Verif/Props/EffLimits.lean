import Verif.Spec.EffLimits
import Verif.Props.Prices
import Verif.Props.Penalties
import Verif.Props.Bill

/-!
# C127: limits of effects cut off exactly what exceeds them
-/

namespace Flix

variable {sys : Sys} {s : System} {o o' : SysOut} {L L' : String → EffLimits}

theorem names_limit (es : List EffectData) (L : String → EffLimits) : names (es.map fun e => e.limit (L e.label)) = names es := by
  funext l k
  cases k with
  | some e => rfl
  | none =>
    unfold names
    rw [List.find?_map]
    have hc : ((fun x : EffectData => x.isStandard) ∘ fun e : EffectData => e.limit (L e.label)) = (fun x => x.isStandard) := rfl
    rw [hc]
    cases es.find? (·.isStandard) <;> rfl

/-- What the components contribute depends on the effects through their names only. -/
theorem same_contrib (s : System) {es : List EffectData} (hn : names es = names s.effects) :
    ({ s with effects := es } : System).opOf sys = s.opOf sys ∧ ({ s with effects := es } : System).invOf = s.invOf := by
  have hv : effVal es = effVal s.effects := by
    funext d l t
    unfold effVal
    rw [hn]
  constructor
  · funext σ l t
    unfold System.opOf
    refine congrArg List.sum (List.map_congr_left fun c _ => ?_)
    unfold Comp.operation
    have e1 : onOffOperation sys.width σ es = onOffOperation sys.width σ s.effects := by
      funext el q l t
      cases q with
      | none => rfl
      | some q => simp only [onOffOperation, hv]
    have e2 : flowOperation sys.width σ es = flowOperation sys.width σ s.effects := by
      funext c f l t
      simp only [flowOperation, hv, e1]
    simp only [e1, e2]
  · funext σ l
    unfold System.invOf
    refine congrArg List.sum (List.map_congr_left fun c _ => ?_)
    have e1 : investCost σ es = investCost σ s.effects := by
      funext el q l
      simp only [investCost, hv]
    have e2 : flowInvestment σ es = flowInvestment σ s.effects := by
      funext c f l
      simp only [flowInvestment, e1]
    have e3 : capacityInvestment σ es = capacityInvestment σ s.effects := by
      funext x l
      simp only [capacityInvestment, e1]
    cases c <;> simp only [Comp.investment, e2, e3]

theorem limit_contrib (L : String → EffLimits) (s : System) : (s.limit L).opOf sys = s.opOf sys ∧ (s.limit L).invOf = s.invOf := same_contrib s (names_limit s.effects L)

theorem kept_iff {l : String} {σ : Assignment} {e : EffectData} (he : e.label = l) (L : EffLimits) :
    (⟨fun l t => σ (opTSL l) t, fun l => σ (invSumL l) 0⟩ : Totals).Allowed sys (e.limit L) ↔ L.Kept sys l σ := by
  subst he
  constructor
  · intro h
    exact ⟨h.minOperation, h.maxOperation, h.minInvest, h.maxInvest, h.minPerHour, h.maxPerHour, h.minTotal, h.maxTotal⟩
  · intro h
    exact ⟨h.minOperation, h.maxOperation, h.minInvest, h.maxInvest, h.minTotal, h.maxTotal, h.minPerHour, h.maxPerHour⟩

/-- The components are modelled alike whatever the effects are. -/
theorem same_comps {s s' : System} (e : s'.comps = s.comps) (h : systemModel sys s = .ok o) (h' : systemModel sys s' = .ok o') : o'.comps = o.comps := by
  have a := (system_inv h).1
  have b := (system_inv h').1
  rw [e] at b
  have key : ∀ {cs : List Comp} {xs ys : List CompOut}, List.Forall₂ (fun c oc => c.model sys = .ok oc) cs xs → List.Forall₂ (fun c oc => c.model sys = .ok oc) cs ys → ys = xs := by
    intro cs
    induction cs with
    | nil => intro xs ys h1 h2; cases h1; cases h2; rfl
    | cons c cs ih =>
      intro xs ys h1 h2
      cases h1 with
      | cons a1 r1 =>
        cases h2 with
        | cons a2 r2 =>
          rw [a1] at a2
          cases a2
          rw [ih r1 r2]
  exact key a b

/-- **C127.**  A solution keeps the limits of the effects; and a solution under some limits that also keeps others is one under these, with the same operation, sizes and effects at the same
cost. -/
theorem C127 (r : Relimited sys s L L' o o') {σ : Assignment} (hs : o.solver.Solves σ) :
    s.Keeps sys L σ ∧ (s.Keeps sys L' σ → ∃ σ', o'.solver.Solves σ' ∧ (∀ l, l ∉ o'.coll.tree.labels → σ' l = σ l) ∧
      (∀ e ∈ s.effects, σ' (e.label ++ "__operation_operation_sum_TS") = σ (e.label ++ "__operation_operation_sum_TS") ∧ investmentOf e.label σ' = investmentOf e.label σ) ∧
      ∀ a, o.Costs σ a → o'.Costs σ' a) := by
  obtain ⟨hv, hn, hf, hf', h, h'⟩ := r
  obtain ⟨tb, ta⟩ := solution_totals hv hn hf h hs
  refine ⟨fun e he => (kept_iff rfl _).1 (ta _ (List.mem_map_of_mem he)), fun hk => ?_⟩
  obtain ⟨_, s2, s3⟩ := (system_solves h σ).1 hs
  have hbus := (buses_iff hv hf h σ).1 s3
  obtain ⟨σ', g1, g2, g3⟩ := solution_complete hv hn hf' h' (σ := σ) (by rw [same_comps (s := s.limit L) (s' := s.limit L') rfl h h']; exact s2) hbus (T := ⟨fun l t => σ (opTSL l) t, fun l => σ (invSumL l) 0⟩) (by
      rw [(limit_contrib (sys := sys) L' s).1, (limit_contrib (sys := sys) L' s).2]
      rw [(limit_contrib (sys := sys) L s).1, (limit_contrib (sys := sys) L s).2] at tb
      intro e he
      obtain ⟨x, hx, rfl⟩ := List.mem_map.1 he
      have := tb _ (List.mem_map_of_mem hx)
      simp only [System.limit, List.map_map] at this ⊢
      exact this) (by
      intro e he
      obtain ⟨x, hx, rfl⟩ := List.mem_map.1 he
      exact (kept_iff rfl _).2 (hk x hx))
  have tot : ∀ e ∈ s.effects, σ' (e.label ++ "__operation_operation_sum_TS") = σ (e.label ++ "__operation_operation_sum_TS") ∧ investmentOf e.label σ' = investmentOf e.label σ :=
    fun e he => by
      have := g3 (e.limit (L' e.label)) (List.mem_map_of_mem (f := fun e : EffectData => e.limit (L' e.label)) he)
      exact this
  refine ⟨σ', g1, g2, tot, fun a ha => ?_⟩
  obtain ⟨t₁, ht, rfl⟩ := ha
  obtain ⟨t, e₁, et, he₁, hc⟩ := solution_cost hv hn hf h
  rw [ht] at et
  cases et
  obtain ⟨t₂, e₂, ht₂, he₂, hc'⟩ := solution_cost hv hn hf' h'
  refine ⟨t₂, ht₂, ?_⟩
  have obj : ∀ M : String → EffLimits, (s.limit M).effects.find? (·.isObjective) = (s.effects.find? (·.isObjective)).map fun e => e.limit (M e.label) := by
    intro M
    unfold System.limit
    rw [List.find?_map]
    rfl
  rw [obj] at he₁ he₂
  obtain ⟨e, q1, rfl⟩ := Option.map_eq_some_iff.1 he₁
  rw [q1] at he₂
  cases he₂
  rw [hc' σ' g1, hc σ hs]
  unfold System.cost
  have pen := penalty_same hv hf' h' g2
  obtain ⟨u1, u2⟩ := tot e (List.mem_of_find?_eq_some q1)
  rw [pen]
  change ∑ t ∈ Finset.range sys.n, σ' (e.label ++ "__operation_operation_sum_TS") t + investmentOf e.label σ' + _ = ∑ t ∈ Finset.range sys.n, σ (e.label ++ "__operation_operation_sum_TS") t + investmentOf e.label σ + _
  rw [u1, u2]
  rfl

theorem Relimited.symm (r : Relimited sys s L L' o o') : Relimited sys s L' L o' o := ⟨r.valid, r.steps, r.fits', r.fits, r.model', r.model⟩

theorem EffLimits.Kept.mono (hv : sys.Valid) {K K' : EffLimits} {l : String} {σ : Assignment} (ht : K'.Tighter sys.n K) (h : K'.Kept sys l σ) : K.Kept sys l σ := by
  refine ⟨fun m hm => ?_, fun m hm => ?_, fun m hm => ?_, fun m hm => ?_, fun m hm t htn => ?_, fun m hm t htn => ?_, fun m hm => ?_, fun m hm => ?_⟩
  · obtain ⟨m', a, b⟩ := ht.minOperation m hm
    exact b.trans (h.minOperation m' a)
  · obtain ⟨m', a, b⟩ := ht.maxOperation m hm
    exact (h.maxOperation m' a).trans b
  · obtain ⟨m', a, b⟩ := ht.minInvest m hm
    exact b.trans (h.minInvest m' a)
  · obtain ⟨m', a, b⟩ := ht.maxInvest m hm
    exact (h.maxInvest m' a).trans b
  · obtain ⟨m', a, b⟩ := ht.minPerHour m hm
    exact (mul_le_mul_of_nonneg_right (b t htn) (hv.width_pos htn).le).trans (h.minPerHour m' a t htn)
  · obtain ⟨m', a, b⟩ := ht.maxPerHour m hm
    exact (h.maxPerHour m' a t htn).trans (mul_le_mul_of_nonneg_right (b t htn) (hv.width_pos htn).le)
  · obtain ⟨m', a, b⟩ := ht.minTotal m hm
    exact b.trans (h.minTotal m' a)
  · obtain ⟨m', a, b⟩ := ht.maxTotal m hm
    exact (h.maxTotal m' a).trans b

/-- **C127, tighter limits.**  They never lower the least cost. -/
theorem C127_tighter (r : Relimited sys s L L' o o') (ht : ∀ e ∈ s.effects, (L' e.label).Tighter sys.n (L e.label)) {σ σ' : Assignment} {a a' : ℚ} (ho : o.Optimal σ) (ho' : o'.solver.Solves σ')
    (ha : o.Costs σ a) (ha' : o'.Costs σ' a') : a ≤ a' := by
  obtain ⟨k, m⟩ := C127 r.symm ho'
  obtain ⟨τ, t1, -, -, t4⟩ := m fun e he => (k e he).mono r.valid (ht e he)
  obtain ⟨-, terms, q1, q2⟩ := ho
  obtain ⟨t₁, p1, rfl⟩ := ha
  obtain ⟨t₂, p2, p3⟩ := t4 a' ha'
  rw [q1] at p1 p2
  cases p1
  cases p2
  rw [← p3]
  exact q2 τ t1

/-- **C127, limits that do not bind.**  Where an optimum keeps the tighter limits anyway, its operation remains optimal under them, at the same cost. -/
theorem C127_slack (r : Relimited sys s L L' o o') (ht : ∀ e ∈ s.effects, (L' e.label).Tighter sys.n (L e.label)) {σ : Assignment} {a : ℚ} (ho : o.Optimal σ) (ha : o.Costs σ a)
    (hk : s.Keeps sys L' σ) : ∃ σ', o'.Optimal σ' ∧ (∀ l, l ∉ o'.coll.tree.labels → σ' l = σ l) ∧ o'.Costs σ' a := by
  obtain ⟨σ', t1, t2, -, t4⟩ := (C127 r ho.1).2 hk
  have hc := t4 a ha
  obtain ⟨terms, q1, q2⟩ := hc
  refine ⟨σ', ⟨t1, terms, q1, fun τ hτ => ?_⟩, t2, terms, q1, q2⟩
  rw [q2]
  exact C127_tighter r ht ho hτ ha ⟨terms, q1, rfl⟩

/-- **C127, limits that bind.**  Where the least cost under the tighter limits is another one, every optimum without them exceeds them. -/
theorem C127_binds (r : Relimited sys s L L' o o') (ht : ∀ e ∈ s.effects, (L' e.label).Tighter sys.n (L e.label)) {σ σ' : Assignment} {a a' : ℚ} (ho : o.Optimal σ) (ho' : o'.Optimal σ')
    (ha : o.Costs σ a) (ha' : o'.Costs σ' a') (hne : a ≠ a') : ¬ s.Keeps sys L' σ := by
  intro hk
  obtain ⟨τ, t1, -, t3⟩ := C127_slack r ht ho ha hk
  obtain ⟨hs', terms, q1, q2⟩ := ho'
  obtain ⟨_, p1, p3⟩ := t3
  obtain ⟨_, p1', p3'⟩ := ha'
  rw [q1] at p1 p1'
  cases p1
  cases p1'
  have := q2 τ t1.1
  rw [p3, p3'] at this
  exact hne (le_antisymm (C127_tighter r ht ho hs' ha ⟨terms, q1, p3'⟩) this)

/-- Only the effect `costs` of the example is limited. -/
theorem exBill_limit_fits (L : String → EffLimits) (h : (L "costs").minOperationPerHour = none ∧ (L "costs").maxOperationPerHour = none) : ((exBill 1 9).limit L).Fits exSys.n := by
  refine ⟨fun e he => ?_, (exBill_fits 1 9).comps, (exBill_fits 1 9).buses⟩
  simp only [System.limit, exBill, List.map_cons, List.map_nil, List.mem_singleton] at he
  subst he
  constructor <;> simp [EffectData.limit, h.1, h.2]

def exCap : String → EffLimits := fun _ => { maxTotal := some 20 }

/-- Reserve and generator share the first step. -/
def exDearSol : Assignment := tableSol
  [("Gen__Q_flow_rate", [1, 2, 2]), ("Gen__Q_sumFlowHours", [7]), ("Reserve__Q_flow_rate", [1, 0, 0]), ("Reserve__Q_sumFlowHours", [1]), ("Load__Q_flow_rate", [2, 2, 2]), ("Load__Q_sumFlowHours", [8]),
   ("costs__Gen__Q__effects_per_flow_hour", [1, 2, 4]), ("costs__Reserve__Q__effects_per_flow_hour", [9, 0, 0]), ("costs__Load__Q__effects_per_flow_hour", [2, 2, 4]),
   ("costs__operation_operation_sum_TS", [12, 4, 8]), ("costs__operation_operation_sum", [24]), ("costs__all_all_sum", [24]), ("costs__operation", [24])]

/-- The hypotheses of `C127` and `C127_slack` are met: the least cost is 16, and at most 20 are allowed. -/
example : ∃ o o' σ, Relimited exSys (exBill 1 9) (fun _ => {}) exCap o o' ∧ o.Optimal σ ∧ (exBill 1 9).Keeps exSys exCap σ ∧
    ∃ σ', o'.Optimal σ' ∧ (∀ l, l ∉ o'.coll.tree.labels → σ' l = σ l) ∧ o'.Costs σ' 16 := by
  obtain ⟨o, h, hs⟩ := builds_and_solves (σ := exBillSol 1) (r := systemModel exSys (exBill 1 9)) (f := fun o : SysOut => MTree.node o.solver.vars o.solver.cons []) (by decide +kernel)
  obtain ⟨o', h'⟩ := builds (r := systemModel exSys ((exBill 1 9).limit exCap)) (by decide +kernel)
  have no : ∀ t < exSys.n, exBillSol 1 "Reserve__Q_flow_rate" t = 0 := fun t _ => by simp [exBillSol, tableSol, List.lookup]
  have p := exBill_optimal h (by norm_num) ⟨hs.1, hs.2.1⟩ no
  have b : o.Costs (exBillSol 1) 16 := by have := exBill_bill h ⟨hs.1, hs.2.1⟩ no; norm_num at this; exact this
  have r : Relimited exSys (exBill 1 9) (fun _ => {}) exCap o o' := ⟨exSys_valid, by decide, exBill_limit_fits _ ⟨rfl, rfl⟩, exBill_limit_fits _ ⟨rfl, rfl⟩, h, h'⟩
  have k : (exBill 1 9).Keeps exSys exCap (exBillSol 1) := by
    intro e he
    simp only [exBill, List.mem_singleton] at he
    subst he
    constructor <;> simp [exCap]
    decide +kernel
  exact ⟨o, o', _, r, p, k, C127_slack r (fun e _ => by constructor <;> simp) p b k⟩

def exFloor : String → EffLimits := fun _ => { minTotal := some 24 }

/-- What a solution costs. -/
theorem exFloor_cost (h : systemModel exSys ((exBill 1 9).limit exFloor) = .ok o) : ∃ terms, objectiveTerms o.solver.objective = .ok terms ∧ ∀ τ, o.solver.Solves τ →
    termsVal τ terms = operationOf exSys "costs" τ + investmentOf "costs" τ := by
  obtain ⟨terms, e, ht, he, hc⟩ := solution_cost exSys_valid (by decide) (exBill_limit_fits exFloor ⟨rfl, rfl⟩) h
  have el : e = { label := "costs", isStandard := true, isObjective := true, minTotal := some 24 } := (Option.some.inj he).symm
  subst el
  refine ⟨terms, ht, fun τ hτ => ?_⟩
  rw [hc τ hτ]
  unfold System.cost
  rw [show (((exBill 1 9).limit exFloor).buses.map fun b => b.penaltyCost exSys τ).sum = 0 by simp [System.limit, exBill, BusData.penaltyCost], add_zero]
  rfl

/-- The hypotheses of `C127_tighter` and `C127_binds` are met: at least 24 have to be spent, the least cost rises from 16 to 24. -/
example : ∃ o o' σ σ', Relimited exSys (exBill 1 9) (fun _ => {}) exFloor o o' ∧ o.Optimal σ ∧ o'.Optimal σ' ∧ o.Costs σ 16 ∧ o'.Costs σ' 24 ∧ (16 : ℚ) ≤ 24 ∧
    ¬ (exBill 1 9).Keeps exSys exFloor σ := by
  obtain ⟨o, h, hs⟩ := builds_and_solves (σ := exBillSol 1) (r := systemModel exSys (exBill 1 9)) (f := fun o : SysOut => MTree.node o.solver.vars o.solver.cons []) (by decide +kernel)
  obtain ⟨o', h', hs'⟩ := builds_and_solves (σ := exDearSol) (r := systemModel exSys ((exBill 1 9).limit exFloor)) (f := fun o : SysOut => MTree.node o.solver.vars o.solver.cons []) (by decide +kernel)
  have no : ∀ t < exSys.n, exBillSol 1 "Reserve__Q_flow_rate" t = 0 := fun t _ => by simp [exBillSol, tableSol, List.lookup]
  have p := exBill_optimal h (by norm_num) ⟨hs.1, hs.2.1⟩ no
  have b : o.Costs (exBillSol 1) 16 := by have := exBill_bill h ⟨hs.1, hs.2.1⟩ no; norm_num at this; exact this
  have r : Relimited exSys (exBill 1 9) (fun _ => {}) exFloor o o' := ⟨exSys_valid, by decide, exBill_limit_fits _ ⟨rfl, rfl⟩, exBill_limit_fits _ ⟨rfl, rfl⟩, h, h'⟩
  have s' : o'.solver.Solves exDearSol := ⟨hs'.1, hs'.2.1⟩
  obtain ⟨terms, ht, cost⟩ := exFloor_cost h'
  have v : termsVal exDearSol terms = 24 := by
    rw [cost _ s']
    decide +kernel
  have p' : o'.Optimal exDearSol := by
    refine ⟨s', terms, ht, fun τ hτ => ?_⟩
    rw [v, cost τ hτ]
    exact ((C127 r.symm hτ).1 { label := "costs", isStandard := true, isObjective := true } (by simp [exBill])).minTotal 24 rfl
  have tight : ∀ e ∈ (exBill 1 9).effects, (exFloor e.label).Tighter exSys.n {} := fun e _ => by constructor <;> simp
  exact ⟨o, o', _, _, r, p, p', b, ⟨terms, ht, v⟩, C127_tighter r tight p s' b ⟨terms, ht, v⟩, C127_binds r tight p p' b ⟨terms, ht, v⟩ (by norm_num)⟩

end Flix
