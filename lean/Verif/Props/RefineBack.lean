import Verif.Props.Refine
import Verif.Lemmas.RefineMean

/-! # C110: the time grid, and back -/

namespace Flix

variable {φ s : Nat → Nat} {sys fine : Sys} {y : System} {o of : SysOut}

theorem mem_block {t : Nat} {j : Nat} (hj : j ∈ Finset.Ico (s t) (s (t + 1))) : s t ≤ j ∧ j < s (t + 1) := Finset.mem_Ico.1 hj

theorem list_sum_swap {α : Type} (l : List α) (I : Finset Nat) (g : α → Nat → ℚ) : ∑ j ∈ I, (l.map fun a => g a j).sum = (l.map fun a => ∑ j ∈ I, g a j).sum := by
  induction l with
  | nil => simp
  | cons a l ih => simp only [List.map_cons, List.sum_cons]; rw [Finset.sum_add_distrib, ih]

theorem convex_onOff {c : Comp} (h : c.Convex) : (∀ f ∈ c.flows, f.onOff = none) ∧ c.onOff = none := by
  cases c with
  | plain c => exact ⟨h.1, h.2.1⟩
  | converter c => exact ⟨h.1, h.2.1⟩
  | storage x =>
    refine ⟨fun f hf => ?_, rfl⟩
    simp only [Comp.flows, Comp.inputs, Comp.outputs, List.cons_append, List.nil_append, List.mem_cons, List.not_mem_nil, or_false] at hf
    rcases hf with rfl | rfl
    · exact h.1
    · exact h.2.1
  | transmission t =>
    refine ⟨fun f hf => h.1 f ?_, h.2.1⟩
    simp only [Comp.flows, Comp.inputs, Comp.outputs, List.mem_append, List.mem_cons] at hf
    simp only [List.mem_append, List.mem_cons]
    tauto

/-- What the parts of a step cause together. -/
theorem operation_mean (h : Finer φ s sys fine) (hv : sys.Valid) {es : List EffectData} {c : Comp} {l : String} {σ τ : Assignment} (hf : c.EffFits sys.n) (hcv : c.Convex)
    (ha : c.Averages s sys fine σ τ) {t : Nat} (ht : t < sys.n) :
    ∑ j ∈ Finset.Ico (s t) (s (t + 1)), (c.spread fine.n φ).operation fine.width τ (es.map (·.spread fine.n φ)) l j = c.operation sys.width σ es l t := by
  obtain ⟨v1, _, _, v4, v5⟩ := comp_spread_views (φ := φ) fine.n c
  obtain ⟨c1, c2⟩ := convex_onOff hcv
  have e0 : c.operation sys.width σ es l t = (c.flows.map fun f => effVal es f.effectsPerFlowHour l t * (sys.width t * σ (rateL c.label f.label) t)).sum := by
    unfold Comp.operation
    rw [c2]
    simp only [onOffOperation, add_zero]
    refine congrArg List.sum (List.map_congr_left fun f hfm => ?_)
    unfold flowOperation
    rw [c1 f hfm]
    simp only [onOffOperation]
    ring
  have e1 : ∀ j ∈ Finset.Ico (s t) (s (t + 1)), (c.spread fine.n φ).operation fine.width τ (es.map (·.spread fine.n φ)) l j =
      (c.flows.map fun f => effVal es f.effectsPerFlowHour l t * (fine.width j * τ (rateL c.label f.label) j)).sum := by
    intro j hj
    obtain ⟨h1, h2⟩ := mem_block hj
    unfold Comp.operation
    rw [v5, v1, v4, c2, List.map_map]
    simp only [Option.map_none, onOffOperation, add_zero]
    refine congrArg List.sum (List.map_congr_left fun f hfm => ?_)
    show flowOperation _ _ _ _ (f.spread _ _) _ _ = _
    unfold flowOperation
    have := effVal_spread h (es := es) (l := l) (hf.flows f hfm).op (h.inside ht h2)
    rw [h.part t ht j h1 h2] at this
    rw [show (f.spread fine.n φ).onOff = f.onOff.map (·.spread fine.n φ) from rfl, c1 f hfm, show (f.spread fine.n φ).label = f.label from rfl,
      show (f.spread fine.n φ).effectsPerFlowHour = f.effectsPerFlowHour.spread fine.n φ from rfl, this]
    simp only [Option.map_none, onOffOperation]
    ring
  rw [Finset.sum_congr rfl e1, list_sum_swap, e0]
  refine congrArg List.sum (List.map_congr_left fun f hfm => ?_)
  rw [← Finset.mul_sum, ha.rate f hfm t ht, mean_mul hv _ ht]

theorem averages_spread {c : Comp} {σ τ : Assignment} (ha : c.Averages s sys fine σ τ) :
    (∀ f ∈ c.flows, ∀ q, f.size = .invest q → SameInvest (flowFull c.label f.label) q σ τ) ∧
    ∀ x, c = .storage x → ∀ q, x.capacity = .invest q → SameInvest x.label q σ τ :=
  ⟨fun f hf q hq => (ha.size f hf q hq).symm, fun x hx q hq => (ha.capacity x hx q hq).symm⟩

theorem fed_mean {ρ : Comp → Assignment} {τ : Assignment} (N : Nat) {b : String} {t : Nat} (ht : t < sys.n) (hr : ∀ c ∈ y.comps, c.Averages s sys fine (ρ c) τ) :
    y.sends ρ b t = meanOver s sys fine (fedInto τ (y.spread N φ) b) t ∧ y.receives ρ b t = meanOver s sys fine (takenFrom τ (y.spread N φ) b) t := by
  have nest : ∀ {α : Type} (l : List α) (g : α → Nat → ℚ), (l.map fun a => meanOver s sys fine (g a) t).sum = meanOver s sys fine (fun j => (l.map fun a => g a j).sum) t := by
    intro α l g
    have := mean_sum (s := s) (sys := sys) (fine := fine) l (fun _ => 1) g t
    simpa using this
  have key : ∀ c ∈ y.comps, ∀ l : List FlowData, (∀ f ∈ l, f ∈ c.flows) →
      ((l.filter fun f => f.bus = b).map fun f => ρ c (rateL c.label f.label) t).sum =
      meanOver s sys fine (fun j => (((l.map fun f => f.spread N φ).filter fun f => f.bus = b).map fun f => τ (rateL c.label f.label) j).sum) t := by
    intro c hc l hl
    rw [← nest, List.filter_map, List.map_map]
    refine congrArg List.sum (List.map_congr_left fun f hf => ?_)
    exact (hr c hc).rate f (hl f (List.mem_filter.1 hf).1) t ht
  constructor
  · unfold System.sends fedInto System.spread
    rw [← nest, List.map_map]
    refine congrArg List.sum (List.map_congr_left fun c hc => ?_)
    obtain ⟨v1, v2, v3, _⟩ := comp_spread_views (φ := φ) N c
    simp only [Function.comp, v1, v3]
    exact key c hc _ fun f hf => List.mem_append_right _ hf
  · unfold System.receives takenFrom System.spread
    rw [← nest, List.map_map]
    refine congrArg List.sum (List.map_congr_left fun c hc => ?_)
    obtain ⟨v1, v2, v3, _⟩ := comp_spread_views (φ := φ) N c
    simp only [Function.comp, v1, v2]
    exact key c hc _ fun f hf => List.mem_append_left _ hf

/-- **C110 (from a finer grid).**  If nothing is decided per step, every solution on the finer grid gives a solution on the given grid: all flow rates are
the means over the parts of a step, the contents of storages and all sizes are kept, and so are the total of every effect and the penalty of
every bus. -/
theorem C110_coarser_partial (h : Finer φ s sys fine) (hv : sys.Valid) (hvf : fine.Valid) (hn : sys.n ≠ 0) (hpd : sys.prevDt.Nonneg) (hf : y.Fits sys.n) (hp : ∀ c ∈ y.comps, c.Proper sys)
    (hl : ∀ c ∈ y.comps, c.Gridless sys.n) (hcv : ∀ c ∈ y.comps, c.Convex) (hm : systemModel sys y = .ok o) (hmf : systemModel fine (y.spread fine.n φ) = .ok of)
    {τ : Assignment} (hs : of.solver.Solves τ) :
    ∃ σ, o.solver.Solves σ ∧ (∀ c ∈ y.comps, c.Averages s sys fine σ τ) ∧
      (∀ b ∈ y.buses, b.excessPenalty ≠ none → ∀ t, σ (b.label ++ "_" ++ "excess_input") t = meanOver s sys fine (τ (b.label ++ "_" ++ "excess_input")) t ∧
        σ (b.label ++ "_" ++ "excess_output") t = meanOver s sys fine (τ (b.label ++ "_" ++ "excess_output")) t) ∧
      (∀ e ∈ y.effects, (∀ t, σ (opTSL e.label) t = ∑ j ∈ Finset.Ico (s t) (s (t + 1)), τ (opTSL e.label) j) ∧ σ (invSumL e.label) 0 = τ (invSumL e.label) 0) ∧
      ∀ e ∈ y.effects, y.cost sys e σ = (y.spread fine.n φ).cost fine (e.spread fine.n φ) τ := by
  have hn0 : 0 < sys.n := Nat.pos_of_ne_zero hn
  have hff : (y.spread fine.n φ).Fits fine.n := spread_fits hf fine.n
  have hlab := (List.nodup_append.1 (system_labels hm)).2.1
  obtain ⟨s1, s2, s3⟩ := (system_solves hmf τ).1 hs
  have each : ∀ c, ∃ ρ : Assignment, c ∈ y.comps → ∀ oc, c.model sys = .ok oc → oc.tree.Solves ρ ∧
      ∀ σ' : Assignment, (∀ l ∈ oc.tree.labels, σ' l = ρ l) → c.Averages s sys fine σ' τ := by
    intro c
    by_cases hcm : c ∈ y.comps
    · obtain ⟨oc, hoc, hmc⟩ := forall₂_mem_left (system_inv hm).1 hcm
      have hnd : oc.tree.labels.Nodup := by
        rw [List.flatMap_append] at hlab
        exact (List.nodup_flatMap.1 (List.nodup_append.1 hlab).1).1 _ (List.mem_map_of_mem hoc)
      obtain ⟨oc', hoc', hmc'⟩ := forall₂_mem_left (system_inv hmf).1 (a := c.spread fine.n φ) (List.mem_map.2 ⟨c, hcm, rfl⟩)
      obtain ⟨σ, t1, t2⟩ := model_mean h hn0 hv hvf hpd (hp c hcm) (hl c hcm) (hcv c hcm) hmc hnd hmc' (s2 oc' hoc')
      refine ⟨σ, fun _ oc'' hm'' => ?_⟩
      rw [hmc] at hm''
      cases hm''
      exact ⟨t1, t2⟩
    · exact ⟨fun _ _ => 0, fun h => absurd h hcm⟩
  choose ρ hρ using each
  have sp : ∀ c ∈ y.comps, c.Averages s sys fine (ρ c) τ := by
    intro c hcm
    obtain ⟨oc, _, hmc⟩ := forall₂_mem_left (system_inv hm).1 hcm
    exact (hρ _ hcm oc hmc).2 _ fun _ _ => rfl
  obtain ⟨b1, b2⟩ := solution_totals hvf (h.pos hn0).ne' hff hmf hs
  have bus := (buses_iff hvf hff hmf τ).1 s3
  have tot : ∀ g : Nat → ℚ, ∑ t ∈ Finset.range sys.n, ∑ j ∈ Finset.Ico (s t) (s (t + 1)), g j = ∑ j ∈ Finset.range fine.n, g j := fun g => (h.sum_all g).symm
  obtain ⟨σ, t1, t2, t3, t4⟩ := C82_system hv hn hf hm (ρ := ρ) (ε := fun l t => meanOver s sys fine (τ l) t) (fun c hcm oc hmc => (hρ c hcm oc hmc).1) (by
    intro b hb2
    have hb' : b.spread fine.n φ ∈ (y.spread fine.n φ).buses := List.mem_map.2 ⟨b, hb2, rfl⟩
    refine ⟨fun h0 t ht => ?_, fun h0 t ht => ?_⟩
    · rw [(fed_mean (φ := φ) fine.n ht sp).1, (fed_mean (φ := φ) fine.n ht sp).2]
      exact mean_congr fun j h1 h2 => (bus _ hb').1 (by simpa [BusData.spread] using h0) j (h.inside ht h2)
    · have bs := (bus _ hb').2 (by simpa [BusData.spread] using h0)
      have nonneg : ∀ g : Nat → ℚ, (∀ j < fine.n, 0 ≤ g j) → 0 ≤ meanOver s sys fine g t := by
        intro g hg
        refine div_nonneg (Finset.sum_nonneg fun j hj => ?_) (hv.width_pos ht).le
        have hj := h.inside ht (mem_block hj).2
        exact mul_nonneg (hvf.width_pos hj).le (hg j hj)
      refine ⟨nonneg _ fun j hj => (bs j hj).1, nonneg _ fun j hj => (bs j hj).2.1, ?_⟩
      rw [(fed_mean (φ := φ) fine.n ht sp).1, (fed_mean (φ := φ) fine.n ht sp).2, ← mean_add, ← mean_add]
      exact mean_congr fun j h1 h2 => (bs j (h.inside ht h2)).2.2)
    (T := ⟨fun l t => ∑ j ∈ Finset.Ico (s t) (s (t + 1)), τ (opTSL l) j, fun l => τ (invSumL l) 0⟩) (by
    intro e he2
    have he' : e.spread fine.n φ ∈ (y.spread fine.n φ).effects := List.mem_map.2 ⟨e, he2, rfl⟩
    constructor
    · intro t ht
      have each : ∀ j ∈ Finset.Ico (s t) (s (t + 1)), τ (opTSL e.label) j = (y.spread fine.n φ).opOf fine τ e.label j +
          (y.effects.map fun o => ((o.shareOperation.filter fun q => q.1 = e.label).map fun q => q.2.at t * τ (opTSL o.label) j).sum).sum := by
        intro j hj
        obtain ⟨h1, h2⟩ := mem_block hj
        have := (b1 _ he').1 j (h.inside ht h2)
        simp only at this
        rw [show (EffectData.spread fine.n φ e).label = e.label from rfl] at this
        rw [this]
        congr 1
        unfold System.spread
        rw [List.map_map]
        refine congrArg List.sum (List.map_congr_left fun e' he' => ?_)
        show (((e'.shareOperation.map fun q => (q.1, q.2.spread fine.n φ)).filter fun q => q.1 = e.label).map fun q => q.2.at j * τ (opTSL e'.label) j).sum = _
        rw [List.filter_map, List.map_map]
        refine congrArg List.sum (List.map_congr_left fun q hq => ?_)
        have := at_spread h ((hf.effects e' he').op q (List.mem_filter.1 hq).1) (h.inside ht h2)
        rw [h.part t ht j h1 h2] at this
        simp only [Function.comp, this]
      show ∑ j ∈ Finset.Ico (s t) (s (t + 1)), τ (opTSL e.label) j = _
      rw [Finset.sum_congr rfl each, Finset.sum_add_distrib]
      congr 1
      · unfold System.opOf System.spread
        simp only [List.map_map]
        rw [list_sum_swap]
        refine congrArg List.sum (List.map_congr_left fun c hcm => ?_)
        exact operation_mean h hv (hf.comps c hcm) (hcv c hcm) (sp c hcm) ht
      · rw [list_sum_swap]
        refine congrArg List.sum (List.map_congr_left fun e' he' => ?_)
        rw [list_sum_swap]
        refine congrArg List.sum (List.map_congr_left fun q hq => ?_)
        rw [Finset.mul_sum]
    · have := (b1 _ he').2
      simp only at this ⊢
      rw [show (EffectData.spread fine.n φ e).label = e.label from rfl] at this
      rw [this]
      congr 1
      · unfold System.invOf System.spread
        rw [List.map_map]
        refine congrArg List.sum (List.map_congr_left fun c hcm => ?_)
        have a := averages_spread (sp c hcm)
        exact investment_spread a.1 a.2
      · unfold System.spread
        rw [List.map_map]
        rfl) (by
    intro e he2
    have he' : e.spread fine.n φ ∈ (y.spread fine.n φ).effects := List.mem_map.2 ⟨e, he2, rfl⟩
    have al := b2 _ he'
    have es : (⟨fun l t => ∑ j ∈ Finset.Ico (s t) (s (t + 1)), τ (opTSL l) j, fun l => τ (invSumL l) 0⟩ : Totals).opSum sys.n e.label =
        (⟨fun l j => τ (opTSL l) j, fun l => τ (invSumL l) 0⟩ : Totals).opSum fine.n (e.spread fine.n φ).label := tot fun j => τ (opTSL e.label) j
    refine ⟨fun m hm => ?_, fun m hm => ?_, al.minInvest, al.maxInvest, fun m hm => ?_, fun m hm => ?_, fun x hx t ht => ?_, fun x hx t ht => ?_⟩
    · rw [es]; exact al.minOperation m hm
    · rw [es]; exact al.maxOperation m hm
    · rw [es]; exact al.minTotal m hm
    · rw [es]; exact al.maxTotal m hm
    · show x.at t * sys.width t ≤ ∑ j ∈ Finset.Ico (s t) (s (t + 1)), τ (opTSL e.label) j
      rw [mul_comm, ← sum_parts h _ ht]
      refine Finset.sum_le_sum fun j hj => ?_
      obtain ⟨h1, h2⟩ := mem_block hj
      have := al.minPerHour (x.spread fine.n φ) (by simp [EffectData.spread, hx]) j (h.inside ht h2)
      rw [at_spread h ((hf.effects e he2).minH x hx) (h.inside ht h2), h.part t ht j h1 h2] at this
      rw [mul_comm]
      exact this
    · show ∑ j ∈ Finset.Ico (s t) (s (t + 1)), τ (opTSL e.label) j ≤ x.at t * sys.width t
      rw [mul_comm, ← sum_parts h _ ht]
      refine Finset.sum_le_sum fun j hj => ?_
      obtain ⟨h1, h2⟩ := mem_block hj
      have := al.maxPerHour (x.spread fine.n φ) (by simp [EffectData.spread, hx]) j (h.inside ht h2)
      rw [at_spread h ((hf.effects e he2).maxH x hx) (h.inside ht h2), h.part t ht j h1 h2] at this
      rw [mul_comm (fine.width j)]
      exact this)
  have x3 : ∀ b ∈ y.buses, b.excessPenalty ≠ none → ∀ t, σ (b.label ++ "_" ++ "excess_input") t = meanOver s sys fine (τ (b.label ++ "_" ++ "excess_input")) t ∧
        σ (b.label ++ "_" ++ "excess_output") t = meanOver s sys fine (τ (b.label ++ "_" ++ "excess_output")) t := by
    intro b hb2 h0 t
    have := t3 b hb2 h0
    exact ⟨congrFun this.1 t, congrFun this.2 t⟩
  have x4 : ∀ e ∈ y.effects, (∀ t, σ (opTSL e.label) t = ∑ j ∈ Finset.Ico (s t) (s (t + 1)), τ (opTSL e.label) j) ∧ σ (invSumL e.label) 0 = τ (invSumL e.label) 0 := fun e he2 =>
    ⟨fun t => congrFun (t4 e he2).1 t, (t4 e he2).2⟩
  refine ⟨σ, t1, fun c hcm => ?_, x3, x4, fun e he2 => ?_⟩
  · obtain ⟨oc, hoc, hmc⟩ := forall₂_mem_left (system_inv hm).1 hcm
    exact (hρ _ hcm oc hmc).2 _ (t2 _ hcm oc hmc)
  · unfold System.cost
    congr 1
    · congr 1
      · refine Eq.trans ?_ (tot fun j => τ (opTSL e.label) j)
        exact Finset.sum_congr rfl fun t _ => (x4 e he2).1 t
      · exact (x4 e he2).2
    · unfold System.spread
      rw [List.map_map]
      refine congrArg List.sum (List.map_congr_left fun b hb2 => ?_)
      show b.penaltyCost sys σ = (b.spread fine.n φ).penaltyCost fine τ
      unfold BusData.penaltyCost
      rw [show (b.spread fine.n φ).excessPenalty = b.excessPenalty.map (·.spread fine.n φ) from rfl]
      cases hpen : b.excessPenalty with
      | none => rfl
      | some pen =>
        have hx := x3 b hb2 (by rw [hpen]; simp)
        have := mean_total h hv pen.at fun j => τ (b.label ++ "_" ++ "excess_input") j + τ (b.label ++ "_" ++ "excess_output") j
        simp only [Option.map_some]
        refine (Finset.sum_congr rfl fun t ht => ?_).trans (this.trans (Finset.sum_congr rfl fun j hj => ?_))
        · rw [(hx t).1, (hx t).2, mean_add]
          unfold Sys.width
          ring
        · have hj := Finset.mem_range.1 hj
          rw [at_spread h (hf.buses b hb2 pen hpen) hj, show (b.spread fine.n φ).label = b.label from rfl]
          unfold Sys.width
          ring

theorem find_spread (es : List EffectData) (N : Nat) : (es.map (·.spread N φ)).find? (·.isObjective) = (es.find? (·.isObjective)).map (·.spread N φ) := by
  rw [List.find?_map]
  rfl

/-- **C110.**  If nothing is decided per step, the smallest value of the objective does not depend on how the steps are divided. -/
theorem C110_optimum_partial (h : Finer φ s sys fine) (hv : sys.Valid) (hvf : fine.Valid) (hn : sys.n ≠ 0) (hpd : sys.prevDt.Nonneg) (hf : y.Fits sys.n) (hp : ∀ c ∈ y.comps, c.Proper sys)
    (hl : ∀ c ∈ y.comps, c.Gridless sys.n) (hcv : ∀ c ∈ y.comps, c.Convex) (hm : systemModel sys y = .ok o) (hmf : systemModel fine (y.spread fine.n φ) = .ok of) :
    ((∃ σ, o.solver.Solves σ) ↔ ∃ τ, of.solver.Solves τ) ∧
    ∃ terms terms', objectiveTerms o.solver.objective = .ok terms ∧ objectiveTerms of.solver.objective = .ok terms' ∧
      ∀ σ τ, o.Optimal σ → of.Optimal τ → termsVal σ terms = termsVal τ terms' := by
  have hfree : y.FreeStarts := by
    intro c hc
    obtain ⟨c1, c2⟩ := convex_onOff (hcv c hc)
    refine ⟨fun f hf q hq => ?_, fun q hq => ?_⟩
    · rw [c1 f hf] at hq; cases hq
    · rw [c2] at hq; cases hq
  have fwd := fun σ hs => C110_finer_partial h hv hvf hn hpd hf hp hl hfree hm hmf (σ := σ) hs
  have bwd := fun τ hs => C110_coarser_partial h hv hvf hn hpd hf hp hl hcv hm hmf (τ := τ) hs
  refine ⟨⟨fun ⟨σ, hs⟩ => ?_, fun ⟨τ, hs⟩ => ?_⟩, ?_⟩
  · obtain ⟨τ, ht, _⟩ := fwd σ hs
    exact ⟨τ, ht⟩
  · obtain ⟨σ, ht, _⟩ := bwd τ hs
    exact ⟨σ, ht⟩
  · obtain ⟨terms, e, a1, a2, a3⟩ := solution_cost hv hn hf hm
    obtain ⟨terms', e', b1, b2, b3⟩ := solution_cost hvf (h.pos (Nat.pos_of_ne_zero hn)).ne' (spread_fits hf fine.n) hmf
    have he := List.mem_of_find?_eq_some a2
    have b2 : (y.effects.map (·.spread fine.n φ)).find? (·.isObjective) = some e' := b2
    rw [find_spread, a2] at b2
    cases b2
    refine ⟨terms, terms', a1, b1, fun σ τ ho ht => ?_⟩
    have c1 := a3 σ ho.1
    have c2 := b3 τ ht.1
    obtain ⟨τ', t1, _, _, _, t5⟩ := fwd σ ho.1
    obtain ⟨σ', u1, _, _, _, u5⟩ := bwd τ ht.1
    obtain ⟨ts, k1, k2⟩ := ho.2
    obtain ⟨ts', k3, k4⟩ := ht.2
    rw [a1] at k1
    rw [b1] at k3
    cases k1
    cases k3
    have d1 := k4 τ' t1
    have d2 := k2 σ' u1
    rw [b3 τ' t1, t5 e he, ← c1] at d1
    rw [a3 σ' u1, u5 e he, ← c2] at d2
    exact le_antisymm d2 d1

end Flix
