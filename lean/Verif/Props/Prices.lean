import Verif.Lemmas.Prices
import Verif.Props.Cheapest

/-!
# C124: what gets dearer is not used more
-/

namespace Flix

variable {sys : Sys} {s s' : System} {o o' : SysOut}

/-- What the components cost more in `s'`. -/
def System.extra (sys : Sys) (s s' : System) (l : String) (σ : Assignment) : ℚ :=
  ∑ t ∈ Finset.range sys.n, (s'.opOf sys σ l t - s.opOf sys σ l t) + (s'.invOf σ l - s.invOf σ l)

theorem allowed_plain {T : Totals} {e : EffectData} (h : e.Plain) : T.Allowed sys e := by
  constructor
  · rw [h.minOperation]; exact fun _ hm => nomatch hm
  · rw [h.maxOperation]; exact fun _ hm => nomatch hm
  · rw [h.minInvest]; exact fun _ hm => nomatch hm
  · rw [h.maxInvest]; exact fun _ hm => nomatch hm
  · rw [h.minTotal]; exact fun _ hm => nomatch hm
  · rw [h.maxTotal]; exact fun _ hm => nomatch hm
  · rw [h.minPerHour]; exact fun _ hm => nomatch hm
  · rw [h.maxPerHour]; exact fun _ hm => nomatch hm

/-- Every solution is one under other prices for the objective, and costs more by what the components cost more. -/
theorem other_prices (hv : sys.Valid) (hpd : sys.prevDt.Nonneg) (hn : sys.n ≠ 0) (hf : s.Fits sys.n) (hf' : s'.Fits sys.n) (hp : ∀ c ∈ s.comps, c.Proper sys ∧ c.CapacityNonneg)
    (hp' : ∀ c ∈ s'.comps, c.Proper sys ∧ c.CapacityNonneg) (h : systemModel sys s = .ok o) (h' : systemModel sys s' = .ok o') (he : s'.effects = s.effects) (hb : s'.buses = s.buses)
    (hl : s.Freer sys.cfg.big sys.n s') {e : EffectData} (hobj : s.effects.find? (·.isObjective) = some e) (hpl : ∀ x ∈ s.effects, x.label = e.label → x.Plain)
    (hoth : ∀ l, l ≠ e.label → ∀ σ, (∀ t < sys.n, s'.opOf sys σ l t = s.opOf sys σ l t) ∧ s'.invOf σ l = s.invOf σ l) :
    ∃ t₁ t₂, objectiveTerms o.solver.objective = .ok t₁ ∧ objectiveTerms o'.solver.objective = .ok t₂ ∧
      ∀ σ, o.solver.Solves σ → ∃ σ', o'.solver.Solves σ' ∧ (∀ l, l ∉ o'.coll.tree.labels → σ' l = σ l) ∧ termsVal σ' t₂ = termsVal σ t₁ + s.extra sys s' e.label σ := by
  obtain ⟨t₁, e₁, ht, he₁, hc⟩ := solution_cost hv hn hf h
  obtain ⟨t₂, e₂, ht', he₂, hc'⟩ := solution_cost hv hn hf' h'
  rw [hobj] at he₁
  cases he₁
  rw [he, hobj] at he₂
  cases he₂
  refine ⟨t₁, t₂, ht, ht', fun σ hσ => ?_⟩
  obtain ⟨tb, ta⟩ := solution_totals hv hn hf h hσ
  obtain ⟨hcs, hbs⟩ := freer_parts hv hpd hn hf hp hp' h h' hl hb hσ
  let T : Totals := ⟨fun l t => if l = e.label then σ (opTSL l) t + (s'.opOf sys σ l t - s.opOf sys σ l t) else σ (opTSL l) t,
    fun l => if l = e.label then σ (invSumL l) 0 + (s'.invOf σ l - s.invOf σ l) else σ (invSumL l) 0⟩
  have sh1 : ∀ (l : String) (t : Nat), (s.effects.map fun x => ((x.shareOperation.filter fun q => q.1 = l).map fun q => q.2.at t * T.op x.label t).sum).sum =
      (s.effects.map fun x => ((x.shareOperation.filter fun q => q.1 = l).map fun q => q.2.at t * σ (opTSL x.label) t).sum).sum := by
    intro l t
    refine congrArg List.sum (List.map_congr_left fun x hx => ?_)
    by_cases hxe : x.label = e.label
    · rw [(hpl x hx hxe).operation]; rfl
    · simp only [T, if_neg hxe]
  have sh2 : ∀ (l : String), (s.effects.map fun x => ((x.shareInvest.filter fun q => q.1 = l).map fun q => q.2.at 0 * T.inv x.label).sum).sum =
      (s.effects.map fun x => ((x.shareInvest.filter fun q => q.1 = l).map fun q => q.2.at 0 * σ (invSumL x.label) 0).sum).sum := by
    intro l
    refine congrArg List.sum (List.map_congr_left fun x hx => ?_)
    by_cases hxe : x.label = e.label
    · rw [(hpl x hx hxe).invest]; rfl
    · simp only [T, if_neg hxe]
  obtain ⟨σ', g1, g2, g3⟩ := solution_complete hv hn hf' h' hcs hbs (T := T) (by
    intro x hx
    rw [he] at hx
    obtain ⟨u1, u2⟩ := tb x hx
    rw [he]
    refine ⟨fun t ht => ?_, ?_⟩
    · rw [sh1]
      have u := u1 t ht
      by_cases hxe : x.label = e.label
      · simp only [T, if_pos hxe]
        change σ (opTSL x.label) t = _ at u
        linarith
      · simp only [T, if_neg hxe]
        rw [(hoth _ hxe σ).1 t ht]
        exact u
    · rw [sh2]
      by_cases hxe : x.label = e.label
      · simp only [T, if_pos hxe]
        change σ (invSumL x.label) 0 = _ at u2
        linarith
      · simp only [T, if_neg hxe]
        rw [(hoth _ hxe σ).2]
        exact u2) (by
    intro x hx
    rw [he] at hx
    by_cases hxe : x.label = e.label
    · exact allowed_plain (hpl x hx hxe)
    · exact allowed_without (T := ⟨fun l t => σ (opTSL l) t, fun l => σ (invSumL l) 0⟩) (e := x) (fun t _ => by simp only [T, if_neg hxe]) (by simp only [T, if_neg hxe])
        rfl rfl rfl rfl rfl rfl rfl rfl rfl (ta x hx))
  refine ⟨σ', g1, g2, ?_⟩
  have hem := List.mem_of_find?_eq_some hobj
  obtain ⟨q1, q2⟩ := g3 e (by rw [he]; exact hem)
  have pen := penalty_same hv hf' h' g2
  rw [hc σ hσ, hc' σ' g1]
  unfold System.cost System.extra
  rw [show σ' (e.label ++ "__operation_operation_sum_TS") = T.op e.label from q1, show σ' (e.label ++ "__invest_invest_sum") 0 = T.inv e.label from q2, pen, hb]
  simp only [T, if_true]
  rw [Finset.sum_add_distrib]
  change ∑ t ∈ Finset.range sys.n, σ (opTSL e.label) t + _ + _ + _ = ∑ t ∈ Finset.range sys.n, σ (opTSL e.label) t + σ (invSumL e.label) 0 + _ + _
  ring

/-- Two cheapest solutions compared under both prices. -/
theorem extra_le (hv : sys.Valid) (hpd : sys.prevDt.Nonneg) (hn : sys.n ≠ 0) (hf : s.Fits sys.n) (hf' : s'.Fits sys.n) (hp : ∀ c ∈ s.comps, c.Proper sys ∧ c.CapacityNonneg)
    (hp' : ∀ c ∈ s'.comps, c.Proper sys ∧ c.CapacityNonneg) (h : systemModel sys s = .ok o) (h' : systemModel sys s' = .ok o') (he : s'.effects = s.effects) (hb : s'.buses = s.buses)
    (hl : s.Freer sys.cfg.big sys.n s') (hl' : s'.Freer sys.cfg.big sys.n s) {e : EffectData} (hobj : s.effects.find? (·.isObjective) = some e)
    (hpl : ∀ x ∈ s.effects, x.label = e.label → x.Plain)
    (hoth : ∀ l, l ≠ e.label → ∀ σ, (∀ t < sys.n, s'.opOf sys σ l t = s.opOf sys σ l t) ∧ s'.invOf σ l = s.invOf σ l) {σ σ' : Assignment} (ho : o.Optimal σ) (ho' : o'.Optimal σ') :
    s.extra sys s' e.label σ' ≤ s.extra sys s' e.label σ := by
  obtain ⟨t₁, t₂, e1, e2, move⟩ := other_prices hv hpd hn hf hf' hp hp' h h' he hb hl hobj hpl hoth
  obtain ⟨t₂', t₁', e2', e1', back⟩ := other_prices hv hpd hn hf' hf hp' hp h' h he.symm hb.symm hl' (by rw [he]; exact hobj) (by rw [he]; exact hpl)
    (fun l hne σ => ⟨fun t ht => ((hoth l hne σ).1 t ht).symm, (hoth l hne σ).2.symm⟩)
  rw [e1] at e1'
  cases e1'
  rw [e2] at e2'
  cases e2'
  obtain ⟨hs, t, et, hmin⟩ := ho
  rw [e1] at et
  cases et
  obtain ⟨hs', t, et, hmin'⟩ := ho'
  rw [e2] at et
  cases et
  obtain ⟨ρ, r1, _, r3⟩ := move σ hs
  obtain ⟨ρ', q1, _, q3⟩ := back σ' hs'
  have a := hmin' ρ r1
  have b := hmin ρ' q1
  have neg : s'.extra sys s e.label σ' = - s.extra sys s' e.label σ' := by
    unfold System.extra
    rw [neg_add, ← Finset.sum_neg_distrib]
    simp only [neg_sub]
  linarith

/-- How often the flow occurs. -/
def System.count (c f : String) (s : System) : ℚ := (s.comps.map fun k => if k.label = c then (k.flows.map fun x => if x.label = f then (1 : ℚ) else 0).sum else 0).sum

theorem mem_le_sum {xs : List ℚ} (h : ∀ x ∈ xs, 0 ≤ x) {a : ℚ} (ha : a ∈ xs) : a ≤ xs.sum := List.single_le_sum h a ha

theorem count_pos {c f : String} (h : s.HasFlow c f) : 0 < s.count c f := by
  obtain ⟨k, hk, hkc, x, hx, hxf⟩ := h
  have unit : ∀ y : FlowData, 0 ≤ (if y.label = f then (1 : ℚ) else 0) := fun y => by split <;> norm_num
  have inner : ∀ k : Comp, ∀ a ∈ k.flows.map (fun x => if x.label = f then (1 : ℚ) else 0), 0 ≤ a := by
    intro k a ha
    obtain ⟨y, _, e⟩ := List.mem_map.1 ha
    exact e ▸ unit y
  have one := mem_le_sum (inner k) (List.mem_map_of_mem hx)
  rw [if_pos hxf] at one
  have outer : ∀ a ∈ s.comps.map (fun k => if k.label = c then (k.flows.map fun x => if x.label = f then (1 : ℚ) else 0).sum else 0), 0 ≤ a := by
    intro a ha
    obtain ⟨y, _, e⟩ := List.mem_map.1 ha
    rw [← e]
    split
    · exact List.sum_nonneg (inner y)
    · exact le_rfl
  have two := mem_le_sum outer (List.mem_map_of_mem hk)
  rw [if_pos hkc] at two
  exact lt_of_lt_of_le one_pos (one.trans two)

theorem sum_more {α : Type} (xs : List α) (F G N : α → ℚ) (a : ℚ) (h : ∀ x ∈ xs, G x = F x + N x * a) : (xs.map G).sum = (xs.map F).sum + (xs.map N).sum * a := by
  rw [← List.sum_map_mul_right, ← List.sum_map_add]
  exact congrArg List.sum (List.map_congr_left h)

theorem flows_more {k : Comp} {f : String} {g : FlowData → FlowData} {F : FlowData → ℚ} {A : ℚ} (h : ∀ x ∈ k.flows, x.label = f → F (g x) = F x + A) :
    ((k.mapFlows fun x => if x.label = f then g x else x).flows.map F).sum = (k.flows.map F).sum + (k.flows.map fun x => if x.label = f then (1 : ℚ) else 0).sum * A := by
  rw [mapFlows_flows, List.map_map]
  refine sum_more _ _ _ _ _ fun x hx => ?_
  simp only [Function.comp_apply]
  by_cases hxf : x.label = f
  · rw [if_pos hxf, if_pos hxf, h x hx hxf, one_mul]
  · rw [if_neg hxf, if_neg hxf, zero_mul, add_zero]

/-- What operation costs if the operation of a flow costs more. -/
theorem mapFlow_op {c f : String} {g : FlowData → FlowData} {l : String} {σ : Assignment} {t : Nat} {A : ℚ}
    (ha : ∀ k ∈ s.comps, k.label = c → ∀ x ∈ k.flows, x.label = f → flowOperation sys.width σ s.effects c (g x) l t = flowOperation sys.width σ s.effects c x l t + A) :
    (s.mapFlow c f g).opOf sys σ l t = s.opOf sys σ l t + s.count c f * A := by
  unfold System.opOf System.mapFlow System.count
  rw [List.map_map]
  refine sum_more _ _ _ _ _ fun k hk => ?_
  simp only [Function.comp_apply]
  by_cases hkc : k.label = c
  · rw [if_pos hkc, if_pos hkc]
    unfold Comp.operation
    rw [(mapFlows_shape k).1, (mapFlows_shape k).2.2.2, flows_more (by rw [hkc]; exact ha k hk hkc)]
    ring
  · rw [if_neg hkc, if_neg hkc, zero_mul, add_zero]

/-- What investments cost if the investment in a flow costs more. -/
theorem mapFlow_inv {c f : String} {g : FlowData → FlowData} {l : String} {σ : Assignment} {B : ℚ}
    (hb : ∀ k ∈ s.comps, k.label = c → ∀ x ∈ k.flows, x.label = f → flowInvestment σ s.effects c (g x) l = flowInvestment σ s.effects c x l + B) :
    (s.mapFlow c f g).invOf σ l = s.invOf σ l + s.count c f * B := by
  unfold System.invOf System.mapFlow System.count
  rw [List.map_map]
  refine sum_more _ _ _ _ _ fun k hk => ?_
  simp only [Function.comp_apply]
  by_cases hkc : k.label = c
  · rw [if_pos hkc, if_pos hkc]
    have key := flows_more (F := fun x => flowInvestment σ s.effects k.label x l) (by rw [hkc]; exact hb k hk hkc)
    obtain ⟨r, r1, r2⟩ : ∃ r, (k.mapFlows fun x => if x.label = f then g x else x).investment σ s.effects l =
        ((k.mapFlows fun x => if x.label = f then g x else x).flows.map fun x => flowInvestment σ s.effects (k.mapFlows fun x => if x.label = f then g x else x).label x l).sum + r ∧
        k.investment σ s.effects l = (k.flows.map fun x => flowInvestment σ s.effects k.label x l).sum + r := by
      cases k with
      | storage t => exact ⟨capacityInvestment σ s.effects t l, rfl, rfl⟩
      | plain d => exact ⟨0, rfl, rfl⟩
      | converter d => exact ⟨0, rfl, rfl⟩
      | transmission d => exact ⟨0, rfl, rfl⟩
    rw [r1, r2, (mapFlows_shape k).1, key]
    ring
  · rw [if_neg hkc, if_neg hkc, zero_mul, add_zero]

/-- **C124 (all rises).**  If the prices of a flow change by `d t` in step `t`, the change adds at most as much to the bill of a cheapest solution afterwards as to that of a cheapest
solution before.  The objective must have neither limits nor shares in other effects; everything else stays as it is. -/
theorem C124_bill {c f : String} {new : EffDict} {e : EffectData} {d : Nat → ℚ} (hv : sys.Valid) (hpd : sys.prevDt.Nonneg) (hn : sys.n ≠ 0) (hf : s.Fits sys.n)
    (hf' : (s.mapFlow c f (FlowData.priced new)).Fits sys.n) (hp : ∀ k ∈ s.comps, k.Proper sys ∧ k.CapacityNonneg)
    (hp' : ∀ k ∈ (s.mapFlow c f (FlowData.priced new)).comps, k.Proper sys ∧ k.CapacityNonneg) (h : systemModel sys s = .ok o)
    (h' : systemModel sys (s.mapFlow c f (FlowData.priced new)) = .ok o') (hobj : s.effects.find? (·.isObjective) = some e) (hpl : ∀ x ∈ s.effects, x.label = e.label → x.Plain)
    (hfl : s.HasFlow c f) (hdear : ∀ k ∈ s.comps, k.label = c → ∀ x ∈ k.flows, x.label = f → DearerBy s.effects sys.n e.label d x.effectsPerFlowHour new)
    {σ σ' : Assignment} (ho : o.Optimal σ) (ho' : o'.Optimal σ') : addedBill sys c f d σ' ≤ addedBill sys c f d σ := by
  have op : ∀ l τ, ∀ t < sys.n, (s.mapFlow c f (FlowData.priced new)).opOf sys τ l t = s.opOf sys τ l t +
      s.count c f * ((if l = e.label then d t else 0) * (sys.width t * τ (rateL c f) t)) := by
    intro l τ t ht
    refine mapFlow_op fun k hk hkc x hx hxf => ?_
    have := hdear k hk hkc x hx hxf l t ht
    unfold flowOperation FlowData.priced
    simp only
    rw [this, hxf]
    ring
  have inv : ∀ l τ, (s.mapFlow c f (FlowData.priced new)).invOf τ l = s.invOf τ l := by
    intro l τ
    rw [mapFlow_inv (g := FlowData.priced new) (B := 0) fun k hk hkc x hx hxf => (add_zero _).symm, mul_zero, add_zero]
  have free := mapFlow_freer (s := s) (big := sys.cfg.big) (n := sys.n) (priced_same new) c f
  have key := extra_le hv hpd hn hf hf' hp hp' h h' rfl rfl free.1 free.2 hobj hpl (fun l hne τ => ⟨fun t ht => by rw [op l τ t ht, if_neg hne, zero_mul, mul_zero, add_zero], inv l τ⟩) ho ho'
  have val : ∀ τ, s.extra sys (s.mapFlow c f (FlowData.priced new)) e.label τ = s.count c f * addedBill sys c f d τ := by
    intro τ
    unfold System.extra addedBill
    rw [inv, sub_self, add_zero, Finset.mul_sum]
    refine Finset.sum_congr rfl fun t ht => ?_
    rw [op _ _ t (Finset.mem_range.1 ht), if_pos rfl]
    change _ = s.count c f * (d t * (sys.width t * τ (rateL c f) t))
    ring
  rw [val, val] at key
  exact le_of_mul_le_mul_left key (count_pos hfl)

/-- **C124.**  If the flow hours of a flow become dearer by the same amount in every step, the flow has at most as many flow hours in a cheapest solution as it had before. -/
theorem C124 {c f : String} {new : EffDict} {e : EffectData} {d : ℚ} (hv : sys.Valid) (hpd : sys.prevDt.Nonneg) (hn : sys.n ≠ 0) (hf : s.Fits sys.n)
    (hf' : (s.mapFlow c f (FlowData.priced new)).Fits sys.n) (hp : ∀ k ∈ s.comps, k.Proper sys ∧ k.CapacityNonneg)
    (hp' : ∀ k ∈ (s.mapFlow c f (FlowData.priced new)).comps, k.Proper sys ∧ k.CapacityNonneg) (h : systemModel sys s = .ok o)
    (h' : systemModel sys (s.mapFlow c f (FlowData.priced new)) = .ok o') (hobj : s.effects.find? (·.isObjective) = some e) (hpl : ∀ x ∈ s.effects, x.label = e.label → x.Plain)
    (hd : 0 < d) (hfl : s.HasFlow c f) (hdear : ∀ k ∈ s.comps, k.label = c → ∀ x ∈ k.flows, x.label = f → DearerBy s.effects sys.n e.label (fun _ => d) x.effectsPerFlowHour new)
    {σ σ' : Assignment} (ho : o.Optimal σ) (ho' : o'.Optimal σ') : hoursOf sys c f σ' ≤ hoursOf sys c f σ := by
  have key := C124_bill hv hpd hn hf hf' hp hp' h h' hobj hpl hfl hdear ho ho'
  unfold addedBill at key
  rw [← Finset.mul_sum, ← Finset.mul_sum] at key
  exact le_of_mul_le_mul_left key hd

/-- **C124 (one step).**  If flow hours of a flow become dearer in one step only, the flow rate of a cheapest solution in this step is at most what it was before. -/
theorem C124_step {c f : String} {new : EffDict} {e : EffectData} {d : ℚ} {i : Nat} (hv : sys.Valid) (hpd : sys.prevDt.Nonneg) (hi : i < sys.n) (hf : s.Fits sys.n)
    (hf' : (s.mapFlow c f (FlowData.priced new)).Fits sys.n) (hp : ∀ k ∈ s.comps, k.Proper sys ∧ k.CapacityNonneg)
    (hp' : ∀ k ∈ (s.mapFlow c f (FlowData.priced new)).comps, k.Proper sys ∧ k.CapacityNonneg) (h : systemModel sys s = .ok o)
    (h' : systemModel sys (s.mapFlow c f (FlowData.priced new)) = .ok o') (hobj : s.effects.find? (·.isObjective) = some e) (hpl : ∀ x ∈ s.effects, x.label = e.label → x.Plain)
    (hd : 0 < d) (hfl : s.HasFlow c f)
    (hdear : ∀ k ∈ s.comps, k.label = c → ∀ x ∈ k.flows, x.label = f → DearerBy s.effects sys.n e.label (fun t => if t = i then d else 0) x.effectsPerFlowHour new)
    {σ σ' : Assignment} (ho : o.Optimal σ) (ho' : o'.Optimal σ') : σ' (c ++ "__" ++ f ++ "_" ++ "flow_rate") i ≤ σ (c ++ "__" ++ f ++ "_" ++ "flow_rate") i := by
  have key := C124_bill hv hpd (by omega) hf hf' hp hp' h h' hobj hpl hfl hdear ho ho'
  unfold addedBill at key
  simp only [ite_mul, zero_mul, Finset.sum_ite_eq', Finset.mem_range, if_pos hi] at key
  exact le_of_mul_le_mul_left (le_of_mul_le_mul_left key hd) (hv.width_pos hi)

/-- **C124 (sizes).**  If the size of a flow becomes dearer by the same amount per unit, a cheapest solution has at most the size it had before. -/
theorem C124_size {c f : String} {new : EffDict} {e : EffectData} {d : ℚ} (hv : sys.Valid) (hpd : sys.prevDt.Nonneg) (hn : sys.n ≠ 0) (hf : s.Fits sys.n)
    (hf' : (s.mapFlow c f (FlowData.sized new)).Fits sys.n) (hp : ∀ k ∈ s.comps, k.Proper sys ∧ k.CapacityNonneg)
    (hp' : ∀ k ∈ (s.mapFlow c f (FlowData.sized new)).comps, k.Proper sys ∧ k.CapacityNonneg) (h : systemModel sys s = .ok o)
    (h' : systemModel sys (s.mapFlow c f (FlowData.sized new)) = .ok o') (hobj : s.effects.find? (·.isObjective) = some e) (hpl : ∀ x ∈ s.effects, x.label = e.label → x.Plain)
    (hd : 0 < d) (hfl : s.HasFlow c f)
    (hdear : ∀ k ∈ s.comps, k.label = c → ∀ x ∈ k.flows, x.label = f → ∃ q, x.size = .invest q ∧ DearerBy s.effects 1 e.label (fun _ => d) q.specificEffects new)
    {σ σ' : Assignment} (ho : o.Optimal σ) (ho' : o'.Optimal σ') : flowSize c f σ' ≤ flowSize c f σ := by
  have inv : ∀ l τ, (s.mapFlow c f (FlowData.sized new)).invOf τ l = s.invOf τ l + s.count c f * ((if l = e.label then d else 0) * flowSize c f τ) := by
    intro l τ
    refine mapFlow_inv fun k hk hkc x hx hxf => ?_
    obtain ⟨q, hq, hnew⟩ := hdear k hk hkc x hx hxf
    have := hnew l 0 one_pos
    unfold flowInvestment FlowData.sized
    simp only [hq]
    unfold investCost segmentedCost decision flowSize
    simp only
    rw [this, hxf]
    ring
  have op : ∀ l τ, ∀ t < sys.n, (s.mapFlow c f (FlowData.sized new)).opOf sys τ l t = s.opOf sys τ l t := by
    intro l τ t _
    rw [mapFlow_op (g := FlowData.sized new) (A := 0) fun k hk hkc x hx hxf => (add_zero _).symm, mul_zero, add_zero]
  have free := mapFlow_freer (s := s) (big := sys.cfg.big) (n := sys.n) (sized_same new) c f
  have key := extra_le hv hpd hn hf hf' hp hp' h h' rfl rfl free.1 free.2 hobj hpl (fun l hne τ => ⟨op l τ, by rw [inv l τ, if_neg hne, zero_mul, mul_zero, add_zero]⟩) ho ho'
  have val : ∀ τ, s.extra sys (s.mapFlow c f (FlowData.sized new)) e.label τ = s.count c f * d * flowSize c f τ := by
    intro τ
    unfold System.extra
    rw [inv, if_pos rfl, Finset.sum_eq_zero fun t ht => by rw [op _ _ t (Finset.mem_range.1 ht), sub_self]]
    ring
  rw [val, val] at key
  exact le_of_mul_le_mul_left key (mul_pos (count_pos hfl) hd)

/-- 1 for the storage `c`, else 0. -/
def Comp.isStore (c : String) : Comp → ℚ
  | .storage x => if x.label = c then 1 else 0
  | _ => 0

/-- How often the storage occurs. -/
def System.storages (c : String) (s : System) : ℚ := (s.comps.map (Comp.isStore c)).sum

theorem storages_pos {c : String} (h : s.HasStorage c) : 0 < s.storages c := by
  obtain ⟨x, hx, hxc⟩ := h
  have unit : ∀ a ∈ s.comps.map (Comp.isStore c), 0 ≤ a := by
    intro a ha
    obtain ⟨y, _, e⟩ := List.mem_map.1 ha
    rw [← e]
    cases y with
    | storage z => unfold Comp.isStore; simp only; split <;> norm_num
    | plain d => exact le_rfl
    | converter d => exact le_rfl
    | transmission d => exact le_rfl
  have one := mem_le_sum unit (List.mem_map_of_mem hx)
  simp only [Comp.isStore, if_pos hxc] at one
  exact lt_of_lt_of_le one_pos one

/-- **C124 (capacities).**  If the capacity of a storage becomes dearer by the same amount per unit, a cheapest solution has at most the capacity it had before. -/
theorem C124_capacity {c : String} {new : EffDict} {e : EffectData} {d : ℚ} (hv : sys.Valid) (hpd : sys.prevDt.Nonneg) (hn : sys.n ≠ 0) (hf : s.Fits sys.n)
    (hf' : (s.mapCapacity c new).Fits sys.n) (hp : ∀ k ∈ s.comps, k.Proper sys ∧ k.CapacityNonneg) (hp' : ∀ k ∈ (s.mapCapacity c new).comps, k.Proper sys ∧ k.CapacityNonneg)
    (h : systemModel sys s = .ok o) (h' : systemModel sys (s.mapCapacity c new) = .ok o') (hobj : s.effects.find? (·.isObjective) = some e)
    (hpl : ∀ x ∈ s.effects, x.label = e.label → x.Plain) (hd : 0 < d) (hst : s.HasStorage c)
    (hdear : ∀ x, Comp.storage x ∈ s.comps → x.label = c → ∃ q, x.capacity = .invest q ∧ DearerBy s.effects 1 e.label (fun _ => d) q.specificEffects new)
    {σ σ' : Assignment} (ho : o.Optimal σ) (ho' : o'.Optimal σ') : capacityOf c σ' ≤ capacityOf c σ := by
  have inv : ∀ l τ, (s.mapCapacity c new).invOf τ l = s.invOf τ l + s.storages c * ((if l = e.label then d else 0) * capacityOf c τ) := by
    intro l τ
    unfold System.invOf System.mapCapacity System.storages
    rw [List.map_map]
    refine sum_more _ _ _ _ _ fun k hk => ?_
    simp only [Function.comp_apply]
    cases k with
    | plain _ => simp [Comp.sized, Comp.isStore]
    | converter _ => simp [Comp.sized, Comp.isStore]
    | transmission _ => simp [Comp.sized, Comp.isStore]
    | storage x =>
      by_cases hx : x.label = c
      · obtain ⟨q, hq, hnew⟩ := hdear x hk hx
        have := hnew l 0 one_pos
        simp only [Comp.sized, Comp.isStore, if_pos hx]
        unfold Comp.investment capacityInvestment StorageData.sized
        simp only [hq, Comp.flows, Comp.inputs, Comp.outputs, Comp.label]
        unfold investCost segmentedCost decision capacityOf
        simp only
        rw [this, hx]
        ring
      · simp only [Comp.sized, Comp.isStore, if_neg hx, zero_mul, add_zero]
  have op : ∀ l τ, ∀ t < sys.n, (s.mapCapacity c new).opOf sys τ l t = s.opOf sys τ l t := by
    intro l τ t _
    unfold System.opOf System.mapCapacity
    rw [List.map_map]
    refine congrArg List.sum (List.map_congr_left fun k _ => ?_)
    simp only [Function.comp_apply]
    cases k with
    | plain _ => rfl
    | converter _ => rfl
    | transmission _ => rfl
    | storage x =>
      by_cases hx : x.label = c
      · simp only [Comp.sized, if_pos hx]; rfl
      · simp only [Comp.sized, if_neg hx]
  have free := mapCapacity_freer (s := s) (big := sys.cfg.big) (n := sys.n) c new
  have key := extra_le hv hpd hn hf hf' hp hp' h h' rfl rfl free.1 free.2 hobj hpl (fun l hne τ => ⟨op l τ, by rw [inv l τ, if_neg hne, zero_mul, mul_zero, add_zero]⟩) ho ho'
  have val : ∀ τ, s.extra sys (s.mapCapacity c new) e.label τ = s.storages c * d * capacityOf c τ := by
    intro τ
    unfold System.extra
    rw [inv, if_pos rfl, Finset.sum_eq_zero fun t ht => by rw [op _ _ t (Finset.mem_range.1 ht), sub_self]]
    ring
  rw [val, val] at key
  exact le_of_mul_le_mul_left key (mul_pos (storages_pos hst) hd)

/-! ## Examples -/

/-- A generator whose flow hours cost `p` and whose size, to be found, costs `r` per unit. -/
def exBuyFlow (p : Num) (r : ℚ) : FlowData :=
  { label := "Q", bus := "heat", size := .invest { minimumSize := 1, maximumSize := some 10, optional := false, specificEffects := [(some "costs", .s r)] },
    effectsPerFlowHour := [(some "costs", p)] }

def exBuyLoad : FlowData := { label := "Q", bus := "heat", size := .num 2, relMin := .s 1 }

def exBuySide (l : String) : FlowData := { label := l, bus := "heat", size := .num 5 }

/-- A storage whose capacity, to be found, costs `z` per unit. -/
def exBuyTank (z : ℚ) : StorageData :=
  { label := "Tank", charging := exBuySide "in", discharging := exBuySide "out", preventSimultaneous := false,
    capacity := .invest { minimumSize := 1, maximumSize := some 10, optional := false, specificEffects := [(some "costs", .s z)] } }

/-- The generator, the storage and a load of 2; what is missing costs 100 per flow hour. -/
def exBuy (p : Num) (r z : ℚ) : System :=
  { effects := [{ label := "costs", isStandard := true, isObjective := true }]
    comps := [.plain { label := "Gen", inputs := [], outputs := [exBuyFlow p r] }, .plain { label := "Load", inputs := [exBuyLoad], outputs := [] }, .storage (exBuyTank z)]
    buses := [{ label := "heat", excessPenalty := some (.s 100) }] }

/-- Everything is missing, generator and storage have their smallest sizes. -/
def exBuyNothing (r z : ℚ) : Assignment := tableSol
  [("heat_excess_input", [2, 2, 2]), ("Effects__penalty_penalty_sum", [800]), ("Effects__heat__excess_input", [800]),
   ("costs__invest_invest_sum", [r + z]), ("costs__all_all_sum", [r + z]), ("costs__Gen__Q__specific_effects", [r]), ("costs__Tank__specific_effects", [z]), ("costs__invest", [r + z]),
   ("Load__Q_flow_rate", [2, 2, 2]), ("Load__Q_sumFlowHours", [8]), ("Gen__Q__Investment_size", [1]), ("Tank__Investment_size", [1])]

theorem exBuy_flow (p : Num) (r : ℚ) : (exBuyFlow p r).Fits exSys.n ∧ (exBuyFlow p r).Sensible exSys.cfg exSys.n ∧ (exBuyFlow p r).Proper exSys.n := by
  refine ⟨⟨Or.inl rfl, Or.inl rfl, ?_, ?_⟩, ⟨⟨?_, ?_⟩, ?_, ?_⟩, ?_, ?_⟩
  all_goals first
    | (simp [exBuyFlow, exSys, exCfg, Num.Fits, Num.len]; done)
    | (intro t ht; simp [exBuyFlow, FlowData.lowRel, FlowData.highRel, Num.at]; done)
    | skip
  · intro q hq
    cases hq
    norm_num [InvestParams.NoZero, InvestParams.NonnegSizes, exSys, exCfg]
    simp
  · intro q hq
    cases hq
    simp [InvestParams.segEffects]

theorem exBuy_load : exBuyLoad.Fits exSys.n ∧ exBuyLoad.Sensible exSys.cfg exSys.n ∧ exBuyLoad.Proper exSys.n := by
  refine ⟨⟨Or.inl rfl, Or.inl rfl, ?_, ?_⟩, ⟨⟨?_, ?_⟩, ?_, ?_⟩, ?_, ?_⟩
  all_goals first
    | (simp [exBuyLoad, exSys, exCfg, Num.Fits, Num.len]; done)
    | (intro t ht; simp [exBuyLoad, FlowData.lowRel, FlowData.highRel, Num.at]; done)

theorem exBuy_side (l : String) : (exBuySide l).Fits exSys.n ∧ (exBuySide l).Sensible exSys.cfg exSys.n ∧ (exBuySide l).Proper exSys.n := by
  refine ⟨⟨Or.inl rfl, Or.inl rfl, ?_, ?_⟩, ⟨⟨?_, ?_⟩, ?_, ?_⟩, ?_, ?_⟩
  all_goals first
    | (simp [exBuySide, exSys, exCfg, Num.Fits, Num.len]; done)
    | (intro t ht; simp [exBuySide, FlowData.lowRel, FlowData.highRel, Num.at]; done)

theorem exBuy_proper (p : Num) (r z : ℚ) : ∀ c ∈ (exBuy p r z).comps, c.Proper exSys ∧ c.CapacityNonneg := by
  have g := exBuy_flow p r
  have d := exBuy_load
  have i := exBuy_side "in"
  have u := exBuy_side "out"
  intro c hc
  simp only [exBuy, List.mem_cons, List.not_mem_nil, or_false] at hc
  rcases hc with rfl | rfl | rfl
  · exact ⟨⟨by simp, by simpa using g.1, by simpa using g.2.1, by simpa using g.2.2, by simp⟩, trivial⟩
  · exact ⟨⟨by simp, by simpa using d.1, by simpa using d.2.1, by simpa using d.2.2, by simp⟩, trivial⟩
  · refine ⟨⟨⟨by simp [StorageData.comp, exBuyTank, exBuySide], ?_, ?_, ?_, by simp [StorageData.comp, exBuyTank]⟩, ?_, ?_, ?_⟩, ?_⟩
    · simpa [StorageData.comp, exBuyTank] using ⟨i.1, u.1⟩
    · simpa [StorageData.comp, exBuyTank] using ⟨i.2.1, u.2.1⟩
    · simpa [StorageData.comp, exBuyTank] using ⟨i.2.2, u.2.2⟩
    · constructor <;> exact Or.inl rfl
    · intro t _
      simp [exBuyTank, Num.at]
    · intro q hq
      cases hq
      refine ⟨?_, ?_, by simp [InvestParams.segEffects]⟩
      · simp [InvestParams.NoZero]
      · norm_num [InvestParams.NonnegSizes, exSys, exCfg]
        try simp
    · intro q hq
      cases hq
      norm_num

theorem exBuy_fits {p : Num} (hp : p.Fits 3) (r z : ℚ) : (exBuy p r z).Fits exSys.n := by
  refine ⟨?_, ?_, ?_⟩
  · simp only [exBuy, List.forall_mem_cons, List.not_mem_nil, false_imp_iff, implies_true, and_true]
    constructor <;> simp
  · simp only [exBuy, List.forall_mem_cons, List.not_mem_nil, false_imp_iff, implies_true, and_true]
    refine ⟨⟨?_, by simp [Comp.onOff], by simp⟩, ⟨?_, by simp [Comp.onOff], by simp⟩, ⟨?_, by simp [Comp.onOff], ?_⟩⟩
    rotate_right
    · intro s q hs hq
      cases hs
      cases hq
      simp [InvestParams.EffFits, EffDict.Scalars, Num.isScalar]
    all_goals
      simp only [Comp.flows, Comp.inputs, Comp.outputs, exBuyTank, List.nil_append, List.append_nil, List.cons_append, List.forall_mem_cons, List.not_mem_nil, false_imp_iff, implies_true, and_true]
    · refine ⟨by simpa [exBuyFlow, EffDict.Series, Num.Fits, exSys] using hp, by simp [exBuyFlow], ?_⟩
      intro q hq
      cases hq
      simp [InvestParams.EffFits, EffDict.Scalars, Num.isScalar]
    · exact ⟨by simp [exBuyLoad, EffDict.Series], by simp [exBuyLoad], by simp [exBuyLoad]⟩
    · exact ⟨⟨by simp [exBuySide, EffDict.Series], by simp [exBuySide], by simp [exBuySide]⟩, ⟨by simp [exBuySide, EffDict.Series], by simp [exBuySide], by simp [exBuySide]⟩⟩
  · simp only [exBuy, List.forall_mem_cons, List.not_mem_nil, false_imp_iff, implies_true, and_true]
    intro pen hp
    cases hp
    exact Or.inl rfl

theorem exBuy_optimum {p : Num} (hp : p.Fits 3) {r z : ℚ} {o : SysOut} (h : systemModel exSys (exBuy p r z) = .ok o) (hs : ∃ σ, o.solver.Solves σ) : ∃ σ, o.Optimal σ :=
  C95 exSys_valid (by decide) (exBuy_fits hp r z) (by
      simp only [exBuy, List.forall_mem_cons, List.not_mem_nil, false_imp_iff, implies_true, and_true, Comp.flows, Comp.inputs, Comp.outputs, exBuyTank, List.nil_append, List.append_nil,
        List.cons_append]
      exact ⟨(exBuy_flow p r).1, exBuy_load.1, (exBuy_side "in").1, (exBuy_side "out").1⟩) h (rank := fun _ => 0) (by simp [Ranked, exBuy]) (by simp [Ranked, exBuy]) (by
      simp only [exBuy, List.forall_mem_cons, List.not_mem_nil, false_imp_iff, implies_true, and_true]
      intro pen hpen t _
      cases hpen
      norm_num [Num.at]) hs

theorem exBuy_plain (p : Num) (r z : ℚ) : ∀ x ∈ (exBuy p r z).effects, x.label = "costs" → x.Plain := by
  simp only [exBuy, List.forall_mem_cons, List.not_mem_nil, false_imp_iff, implies_true, and_true]
  exact fun _ => ⟨rfl, rfl, rfl, rfl, rfl, rfl, rfl, rfl, rfl, rfl⟩

theorem exBuy_gen {p : Num} {r z : ℚ} {P : FlowData → Prop} (h : P (exBuyFlow p r)) : ∀ k ∈ (exBuy p r z).comps, k.label = "Gen" → ∀ x ∈ k.flows, x.label = "Q" → P x := by
  intro k hk hl x hx _
  simp only [exBuy, List.mem_cons, List.not_mem_nil, or_false] at hk
  rcases hk with rfl | rfl | rfl
  · simp only [Comp.flows, Comp.inputs, Comp.outputs, List.nil_append, List.mem_singleton] at hx
    exact hx ▸ h
  · simp [Comp.label] at hl
  · simp [Comp.label, exBuyTank] at hl

theorem exBuy_has (p : Num) (r z : ℚ) : (exBuy p r z).HasFlow "Gen" "Q" := ⟨_, List.mem_cons_self, rfl, exBuyFlow p r, by simp [Comp.flows, Comp.inputs, Comp.outputs], rfl⟩

theorem exBuy_priced (p p' : Num) (r z : ℚ) : (exBuy p r z).mapFlow "Gen" "Q" (FlowData.priced [(some "costs", p')]) = exBuy p' r z := by
  unfold System.mapFlow exBuy
  simp [Comp.label, Comp.mapFlows, FlowData.priced, exBuyFlow, exBuyTank]

/-- The hypotheses of `C124`, `C124_size` and `C124_capacity` are met: flow hours at 3, sizes at 2, or capacities at 4 instead of 1. -/
example : ∃ o o₁ o₂ o₃ σ σ₁ σ₂ σ₃, systemModel exSys (exBuy (.s 1) 1 1) = .ok o ∧ o.Optimal σ ∧ systemModel exSys (exBuy (.s 3) 1 1) = .ok o₁ ∧ o₁.Optimal σ₁ ∧
    systemModel exSys (exBuy (.s 1) 2 1) = .ok o₂ ∧ o₂.Optimal σ₂ ∧ systemModel exSys (exBuy (.s 1) 1 4) = .ok o₃ ∧ o₃.Optimal σ₃ ∧
    hoursOf exSys "Gen" "Q" σ₁ ≤ hoursOf exSys "Gen" "Q" σ ∧ flowSize "Gen" "Q" σ₂ ≤ flowSize "Gen" "Q" σ ∧ capacityOf "Tank" σ₃ ≤ capacityOf "Tank" σ := by
  have fit : ∀ x, (Num.s x).Fits 3 := fun _ => Or.inl rfl
  obtain ⟨o, h, hs⟩ := builds_and_solves (σ := exBuyNothing 1 1) (r := systemModel exSys (exBuy (.s 1) 1 1)) (f := fun o : SysOut => MTree.node o.solver.vars o.solver.cons []) (by decide +kernel)
  obtain ⟨o₁, h₁, hs₁⟩ := builds_and_solves (σ := exBuyNothing 1 1) (r := systemModel exSys (exBuy (.s 3) 1 1)) (f := fun o : SysOut => MTree.node o.solver.vars o.solver.cons []) (by decide +kernel)
  obtain ⟨o₂, h₂, hs₂⟩ := builds_and_solves (σ := exBuyNothing 2 1) (r := systemModel exSys (exBuy (.s 1) 2 1)) (f := fun o : SysOut => MTree.node o.solver.vars o.solver.cons []) (by decide +kernel)
  obtain ⟨o₃, h₃, hs₃⟩ := builds_and_solves (σ := exBuyNothing 1 4) (r := systemModel exSys (exBuy (.s 1) 1 4)) (f := fun o : SysOut => MTree.node o.solver.vars o.solver.cons []) (by decide +kernel)
  obtain ⟨σ, q⟩ := exBuy_optimum (fit 1) h ⟨_, hs.1, hs.2.1⟩
  obtain ⟨σ₁, q₁⟩ := exBuy_optimum (fit 3) h₁ ⟨_, hs₁.1, hs₁.2.1⟩
  obtain ⟨σ₂, q₂⟩ := exBuy_optimum (fit 1) h₂ ⟨_, hs₂.1, hs₂.2.1⟩
  obtain ⟨σ₃, q₃⟩ := exBuy_optimum (fit 1) h₃ ⟨_, hs₃.1, hs₃.2.1⟩
  refine ⟨o, o₁, o₂, o₃, σ, σ₁, σ₂, σ₃, h, q, h₁, q₁, h₂, q₂, h₃, q₃, ?_, ?_, ?_⟩
  · have e := exBuy_priced (.s 1) (.s 3) 1 1
    exact C124 (d := 2) exSys_valid (by simp [exSys, Num.Nonneg]) (by decide) (exBuy_fits (fit 1) 1 1) (by rw [e]; exact exBuy_fits (fit 3) 1 1) (exBuy_proper (.s 1) 1 1)
      (by rw [e]; exact exBuy_proper (.s 3) 1 1) h (by rw [e]; exact h₁) (by simp [exBuy]; rfl) (exBuy_plain (.s 1) 1 1) (by norm_num) (exBuy_has (.s 1) 1 1) (exBuy_gen fun l t _ => by
        by_cases hl : l = "costs"
        · subst hl; norm_num [effVal, exBuyFlow, names, Num.at]
        · simp [effVal, exBuyFlow, names, hl, Ne.symm hl]) q q₁
  · have e : (exBuy (.s 1) 1 1).mapFlow "Gen" "Q" (FlowData.sized [(some "costs", .s 2)]) = exBuy (.s 1) 2 1 := by
      unfold System.mapFlow exBuy
      simp [Comp.label, Comp.mapFlows, FlowData.sized, exBuyFlow, exBuyTank]
    exact C124_size (d := 1) exSys_valid (by simp [exSys, Num.Nonneg]) (by decide) (exBuy_fits (fit 1) 1 1) (by rw [e]; exact exBuy_fits (fit 1) 2 1) (exBuy_proper (.s 1) 1 1)
      (by rw [e]; exact exBuy_proper (.s 1) 2 1) h (by rw [e]; exact h₂) (by simp [exBuy]; rfl) (exBuy_plain (.s 1) 1 1) (by norm_num) (exBuy_has (.s 1) 1 1) (exBuy_gen ⟨_, rfl, fun l t _ => by
        by_cases hl : l = "costs"
        · subst hl; norm_num [effVal, names, Num.at]
        · simp [effVal, names, hl, Ne.symm hl]⟩) q q₂
  · have e : (exBuy (.s 1) 1 1).mapCapacity "Tank" [(some "costs", .s 4)] = exBuy (.s 1) 1 4 := by
      unfold System.mapCapacity exBuy
      simp [Comp.sized, StorageData.sized, exBuyTank]
    refine C124_capacity (c := "Tank") (new := [(some "costs", .s 4)]) (d := 3) exSys_valid (by simp [exSys, Num.Nonneg]) (by decide) (exBuy_fits (fit 1) 1 1) (by rw [e]; exact exBuy_fits (fit 1) 1 4) (exBuy_proper (.s 1) 1 1)
      (by rw [e]; exact exBuy_proper (.s 1) 1 4) h (by rw [e]; exact h₃) (by simp [exBuy]; rfl) (exBuy_plain (.s 1) 1 1) (by norm_num) ⟨exBuyTank 1, by simp [exBuy], rfl⟩ (fun x hx _ => ?_) q q₃
    have : x = exBuyTank 1 := by simpa [exBuy] using hx
    subst this
    refine ⟨_, rfl, fun l t _ => ?_⟩
    by_cases hl : l = "costs"
    · subst hl; norm_num [effVal, names, Num.at]
    · simp [effVal, names, hl, Ne.symm hl]

/-- The hypotheses of `C124_bill` and `C124_step` are met: only the second step becomes dearer. -/
example : ∃ o o' σ σ', systemModel exSys (exBuy (.v [1, 1, 2]) 1 1) = .ok o ∧ o.Optimal σ ∧ systemModel exSys (exBuy (.v [1, 4, 2]) 1 1) = .ok o' ∧ o'.Optimal σ' ∧
    σ' "Gen__Q_flow_rate" 1 ≤ σ "Gen__Q_flow_rate" 1 := by
  have fit : ∀ x, (Num.v [1, x, 2]).Fits 3 := fun _ => Or.inr rfl
  obtain ⟨o, h, hs⟩ := builds_and_solves (σ := exBuyNothing 1 1) (r := systemModel exSys (exBuy (.v [1, 1, 2]) 1 1)) (f := fun o : SysOut => MTree.node o.solver.vars o.solver.cons []) (by decide +kernel)
  obtain ⟨o', h', hs'⟩ := builds_and_solves (σ := exBuyNothing 1 1) (r := systemModel exSys (exBuy (.v [1, 4, 2]) 1 1)) (f := fun o : SysOut => MTree.node o.solver.vars o.solver.cons []) (by decide +kernel)
  obtain ⟨σ, q⟩ := exBuy_optimum (fit 1) h ⟨_, hs.1, hs.2.1⟩
  obtain ⟨σ', q'⟩ := exBuy_optimum (fit 4) h' ⟨_, hs'.1, hs'.2.1⟩
  refine ⟨o, o', σ, σ', h, q, h', q', ?_⟩
  have e := exBuy_priced (.v [1, 1, 2]) (.v [1, 4, 2]) 1 1
  refine C124_step (c := "Gen") (f := "Q") (d := 3) (i := 1) exSys_valid (by simp [exSys, Num.Nonneg]) (by decide) (exBuy_fits (fit 1) 1 1) (by rw [e]; exact exBuy_fits (fit 4) 1 1) (exBuy_proper _ 1 1)
    (by rw [e]; exact exBuy_proper _ 1 1) h (by rw [e]; exact h') (by simp [exBuy]; rfl) (exBuy_plain _ 1 1) (by norm_num) (exBuy_has _ 1 1) (exBuy_gen fun l t ht => ?_) q q'
  by_cases hl : l = "costs"
  · subst hl
    have : t = 0 ∨ t = 1 ∨ t = 2 := by simp only [exSys] at ht; omega
    rcases this with rfl | rfl | rfl <;> norm_num [effVal, exBuyFlow, names, Num.at]
  · simp [effVal, exBuyFlow, names, hl, Ne.symm hl]

end Flix
