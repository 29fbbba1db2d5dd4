import Verif.Lemmas.RefineComp
import Verif.Props.Cut

/-! # C110: the time grid -/

namespace Flix

variable {φ s : Nat → Nat} {sys fine : Sys} {y : System} {o of : SysOut}

theorem names_spread (es : List EffectData) (N : Nat) (l : String) (k : Option String) : names (es.map (·.spread N φ)) l k = names es l k := by
  cases k with
  | some k => rfl
  | none =>
    simp only [names, List.find?_map]
    have : (fun e : EffectData => e.isStandard) ∘ (fun e : EffectData => e.spread N φ) = fun e => e.isStandard := rfl
    rw [this]
    cases es.find? (fun e => e.isStandard) <;> rfl

theorem effVal_spread (h : Finer φ s sys fine) {es : List EffectData} {d : EffDict} {l : String} (hd : d.Series sys.n) {j : Nat} (hj : j < fine.n) :
    effVal (es.map (·.spread fine.n φ)) (d.spread fine.n φ) l j = effVal es d l (φ j) := by
  unfold effVal EffDict.spread
  rw [List.filter_map, List.map_map]
  have : ((fun q : Option String × Num => names (es.map (·.spread fine.n φ)) l q.1) ∘ fun q : Option String × Num => (q.1, q.2.spread fine.n φ)) = fun q => names es l q.1 := by
    funext q
    exact names_spread es fine.n l q.1
  rw [this]
  refine congrArg List.sum (List.map_congr_left fun q hq => ?_)
  exact at_spread h (hd q (List.mem_filter.1 hq).1) hj

theorem effVal_spread' {es : List EffectData} {d : EffDict} {l : String} (N t : Nat) : effVal (es.map (·.spread N φ)) d l t = effVal es d l t := by
  unfold effVal
  have : (fun q : Option String × Num => names (es.map (·.spread N φ)) l q.1) = fun q => names es l q.1 := by
    funext q
    exact names_spread es N l q.1
  rw [this]

theorem comp_spread_views (N : Nat) (c : Comp) : (c.spread N φ).label = c.label ∧ (c.spread N φ).inputs = c.inputs.map (·.spread N φ) ∧
    (c.spread N φ).outputs = c.outputs.map (·.spread N φ) ∧ (c.spread N φ).onOff = c.onOff.map (·.spread N φ) ∧ (c.spread N φ).flows = c.flows.map (·.spread N φ) := by
  have key : (c.spread N φ).label = c.label ∧ (c.spread N φ).inputs = c.inputs.map (·.spread N φ) ∧
    (c.spread N φ).outputs = c.outputs.map (·.spread N φ) ∧ (c.spread N φ).onOff = c.onOff.map (·.spread N φ) := by
    cases c with
    | plain c => exact ⟨rfl, rfl, rfl, rfl⟩
    | converter c => exact ⟨rfl, rfl, rfl, rfl⟩
    | storage x => exact ⟨rfl, rfl, rfl, rfl⟩
    | transmission t =>
      refine ⟨rfl, ?_, ?_, rfl⟩
      · cases hi : t.in2 <;> simp [Comp.spread, Comp.inputs, TransData.spread, hi]
      · cases hi : t.out2 <;> simp [Comp.spread, Comp.outputs, TransData.spread, hi]
  obtain ⟨v1, v2, v3, v4⟩ := key
  refine ⟨v1, v2, v3, v4, ?_⟩
  unfold Comp.flows
  rw [v2, v3, List.map_append]

theorem onOff_spread_op (h : Finer φ s sys fine) (hv : sys.Valid) {es : List EffectData} {l el : String} {q : Option OnOffParams} {σ τ : Assignment}
    (hf : ∀ q', q = some q' → q'.EffFits sys.n) (h0 : ∀ q', q = some q' → q'.effectsPerSwitchOn = []) {j : Nat} (hj : j < fine.n)
    (hst : q ≠ none → τ (stateL el) j = σ (stateL el) (φ j)) :
    onOffOperation fine.width τ (es.map (·.spread fine.n φ)) el (q.map (·.spread fine.n φ)) l j =
      onOffOperation sys.width σ es el q l (φ j) * (fine.width j / sys.width (φ j)) := by
  cases q with
  | none => simp [onOffOperation]
  | some q =>
    have e3 : effVal (es.map (·.spread fine.n φ)) (q.spread fine.n φ).effectsPerRunningHour l j = effVal es q.effectsPerRunningHour l (φ j) :=
      effVal_spread h (hf q rfl).2 hj
    have z1 : effVal (es.map (·.spread fine.n φ)) (q.spread fine.n φ).effectsPerSwitchOn l j = 0 := by
      show effVal _ (q.effectsPerSwitchOn.spread _ _) l j = 0
      rw [h0 q rfl]
      rfl
    have z2 : effVal es q.effectsPerSwitchOn l (φ j) = 0 := by
      rw [h0 q rfl]
      rfl
    have hw := hv.width_pos (h.owner hj).1
    show effVal _ (q.spread fine.n φ).effectsPerSwitchOn l j * τ (startL el) j + effVal _ (q.spread fine.n φ).effectsPerRunningHour l j * _ * τ (stateL el) j =
      (effVal _ q.effectsPerSwitchOn l (φ j) * σ (startL el) (φ j) + effVal _ q.effectsPerRunningHour l (φ j) * _ * σ (stateL el) (φ j)) * _
    rw [z1, z2, e3, hst (by simp)]
    field_simp
    ring

/-- What happens in a part of a step is the part of what happens in the step. -/
theorem operation_spread (h : Finer φ s sys fine) (hv : sys.Valid) {es : List EffectData} {c : Comp} {l : String} {σ τ : Assignment} (hf : c.EffFits sys.n)
    (hfree : (∀ f ∈ c.flows, ∀ q, f.onOff = some q → q.effectsPerSwitchOn = []) ∧ ∀ q, c.onOff = some q → q.effectsPerSwitchOn = [])
    (hsp : c.Spreads φ s sys.n fine.n σ τ) {j : Nat} (hj : j < fine.n) :
    (c.spread fine.n φ).operation fine.width τ (es.map (·.spread fine.n φ)) l j = c.operation sys.width σ es l (φ j) * (fine.width j / sys.width (φ j)) := by
  obtain ⟨v1, _, _, v4, v5⟩ := comp_spread_views (φ := φ) fine.n c
  have hw := hv.width_pos (h.owner hj).1
  unfold Comp.operation
  rw [v5, v1, v4, List.map_map, add_mul]
  congr 1
  · rw [← List.sum_map_mul_right]
    refine congrArg List.sum (List.map_congr_left fun f hfm => ?_)
    show flowOperation _ _ _ _ (f.spread _ _) _ _ = _
    unfold flowOperation
    have e1 : effVal (es.map (·.spread fine.n φ)) (f.spread fine.n φ).effectsPerFlowHour l j = effVal es f.effectsPerFlowHour l (φ j) :=
      effVal_spread h (hf.flows f hfm).op hj
    have e2 := onOff_spread_op h hv (es := es) (l := l) (σ := σ) (τ := τ) (el := c.label ++ "__" ++ f.label) (hf.flows f hfm).onOff (hfree.1 f hfm) hj
      fun ho => hsp.flowOn f hfm ho j hj
    have e3 := hsp.rate f hfm j hj
    rw [e1, show (f.spread fine.n φ).onOff = f.onOff.map (·.spread fine.n φ) from rfl, show (f.spread fine.n φ).label = f.label from rfl, e2, e3]
    field_simp
  · exact onOff_spread_op h hv hf.onOff hfree.2 hj fun ho => hsp.on ho j hj

theorem invest_spread {es : List EffectData} {el l : String} {q : InvestParams} {σ τ : Assignment} (N : Nat) (hs : SameInvest el q σ τ) :
    investCost τ (es.map (·.spread N φ)) el q l = investCost σ es el q l := by
  unfold investCost
  simp only [effVal_spread']
  have e1 : decision τ el q = decision σ el q := by
    unfold decision
    by_cases ho : q.optional = true
    · rw [if_pos ho, if_pos ho]; exact hs.built ho
    · rw [if_neg ho, if_neg ho]
  have e2 : segmentedCost τ el q l = segmentedCost σ el q l := by
    have key := hs.shares
    unfold segmentedCost
    unfold InvestParams.segEffects at key
    cases hq : q.effectsInSegments with
    | none => rfl
    | some p =>
      rw [hq] at key
      refine congrArg List.sum (List.map_congr_left fun e he => ?_)
      exact key e.1 (List.mem_map_of_mem (List.mem_filter.1 he).1)
  have e3 : τ (el ++ "__" ++ "Investment" ++ "_" ++ "size") 0 = σ (el ++ "__" ++ "Investment" ++ "_" ++ "size") 0 := hs.size
  rw [e1, e2, e3]

theorem investment_spread {es : List EffectData} {c : Comp} {N : Nat} {l : String} {σ τ : Assignment}
    (hsz : ∀ f ∈ c.flows, ∀ q, f.size = .invest q → SameInvest (flowFull c.label f.label) q σ τ)
    (hcap : ∀ x, c = .storage x → ∀ q, x.capacity = .invest q → SameInvest x.label q σ τ) :
    (c.spread N φ).investment τ (es.map (·.spread N φ)) l = c.investment σ es l := by
  obtain ⟨v1, _, _, _, v5⟩ := comp_spread_views (φ := φ) N c
  have fl : ((c.spread N φ).flows.map fun f => flowInvestment τ (es.map (·.spread N φ)) (c.spread N φ).label f l).sum = (c.flows.map fun f => flowInvestment σ es c.label f l).sum := by
    rw [v5, v1, List.map_map]
    refine congrArg List.sum (List.map_congr_left fun f hf => ?_)
    show flowInvestment τ _ _ (f.spread N φ) l = _
    unfold flowInvestment
    rw [show (f.spread N φ).size = f.size from rfl]
    cases hs : f.size with
    | unset => rfl
    | num x => rfl
    | invest q => exact invest_spread N (hsz f hf q hs)
  unfold Comp.investment
  rw [fl]
  congr 1
  cases c with
  | plain c => rfl
  | converter c => rfl
  | transmission t => rfl
  | storage x =>
    show capacityInvestment τ _ (x.spread N φ) l = capacityInvestment σ es x l
    unfold capacityInvestment
    rw [show (x.spread N φ).capacity = x.capacity from rfl]
    cases hs : x.capacity with
    | num v => rfl
    | invest q => exact invest_spread N (hcap x rfl q hs)

theorem sends_spread {ρ : Comp → Assignment} {σ : Assignment} (N : Nat) {b : String} {j t : Nat}
    (hr : ∀ c ∈ y.comps, ∀ f ∈ c.flows, ρ (c.spread N φ) (rateL c.label f.label) j = σ (rateL c.label f.label) t) :
    (y.spread N φ).sends ρ b j = fedInto σ y b t ∧ (y.spread N φ).receives ρ b j = takenFrom σ y b t := by
  have key : ∀ c ∈ y.comps, ∀ l : List FlowData, (∀ f ∈ l, f ∈ c.flows) →
      (((l.map fun f => f.spread N φ).filter fun f => f.bus = b).map fun f => ρ (c.spread N φ) (rateL c.label f.label) j).sum =
      ((l.filter fun f => f.bus = b).map fun f => σ (rateL c.label f.label) t).sum := by
    intro c hc l hl
    rw [List.filter_map, List.map_map]
    refine congrArg List.sum (List.map_congr_left fun f hf => ?_)
    exact hr c hc f (hl f (List.mem_filter.1 hf).1)
  constructor
  · unfold System.sends fedInto System.spread
    rw [List.map_map]
    refine congrArg List.sum (List.map_congr_left fun c hc => ?_)
    obtain ⟨v1, v2, v3, _⟩ := comp_spread_views (φ := φ) N c
    simp only [Function.comp, v1, v3]
    exact key c hc _ fun f hf => List.mem_append_right _ hf
  · unfold System.receives takenFrom System.spread
    rw [List.map_map]
    refine congrArg List.sum (List.map_congr_left fun c hc => ?_)
    obtain ⟨v1, v2, v3, _⟩ := comp_spread_views (φ := φ) N c
    simp only [Function.comp, v1, v2]
    exact key c hc _ fun f hf => List.mem_append_left _ hf

theorem spreads_iff {c : Comp} {n N M : Nat} {σ τ : Assignment} : (c.spread M φ).Spreads φ s n N σ τ ↔ c.Spreads φ s n N σ τ := by
  obtain ⟨v1, _, _, v4, vf⟩ := comp_spread_views (φ := φ) M c
  have on0 : (c.spread M φ).onOff ≠ none ↔ c.onOff ≠ none := by rw [v4]; simp
  have mem : ∀ f ∈ c.flows, f.spread M φ ∈ (c.spread M φ).flows := fun f hf => by rw [vf]; exact List.mem_map.2 ⟨f, hf, rfl⟩
  have fon : ∀ f : FlowData, (f.spread M φ).onOff ≠ none ↔ f.onOff ≠ none := fun f => by simp [FlowData.spread]
  constructor
  · intro h
    refine ⟨fun f hf j hj => ?_, fun f hf ho j hj => ?_, fun ho j hj => ?_, fun x hx => ?_, fun f hf q hq => ?_, fun x hx => ?_⟩
    · have := h.rate _ (mem f hf) j hj
      rwa [v1] at this
    · have := h.flowOn _ (mem f hf) ((fon f).2 ho) j hj
      rwa [v1] at this
    · have := h.on (on0.2 ho) j hj
      rwa [v1] at this
    · subst hx
      exact h.charge (x.spread M φ) rfl
    · have := h.size _ (mem f hf) q hq
      rwa [v1] at this
    · subst hx
      exact h.capacity (x.spread M φ) rfl
  · intro h
    refine ⟨fun f hf j hj => ?_, fun f hf ho j hj => ?_, fun ho j hj => ?_, fun x hx => ?_, fun f hf q hq => ?_, fun x hx => ?_⟩
    · rw [vf] at hf
      obtain ⟨g, hg, rfl⟩ := List.mem_map.1 hf
      rw [v1]
      exact h.rate g hg j hj
    · rw [vf] at hf
      obtain ⟨g, hg, rfl⟩ := List.mem_map.1 hf
      rw [v1]
      exact h.flowOn g hg ((fon g).1 ho) j hj
    · rw [v1]
      exact h.on (on0.1 ho) j hj
    · cases c with
      | storage y => cases hx; exact h.charge y rfl
      | plain c => cases hx
      | converter c => cases hx
      | transmission t => cases hx
    · rw [vf] at hf
      obtain ⟨g, hg, rfl⟩ := List.mem_map.1 hf
      rw [v1]
      exact h.size g hg q hq
    · cases c with
      | storage y => cases hx; exact h.capacity y rfl
      | plain c => cases hx
      | converter c => cases hx
      | transmission t => cases hx

theorem spread_fits (hf : y.Fits sys.n) (N : Nat) : (y.spread N φ).Fits N where
  effects := by
    intro e he
    obtain ⟨e', he', rfl⟩ := List.mem_map.1 he
    have h := hf.effects e' he'
    refine ⟨fun q hq => ?_, h.inv, fun x hx => ?_, fun x hx => ?_⟩
    · obtain ⟨q', hq', rfl⟩ := List.mem_map.1 hq
      exact fits_spread _ _ _
    · obtain ⟨x', h1, rfl⟩ := Option.map_eq_some_iff.1 hx
      exact fits_spread _ _ _
    · obtain ⟨x', h1, rfl⟩ := Option.map_eq_some_iff.1 hx
      exact fits_spread _ _ _
  comps := by
    have dict : ∀ d : EffDict, (d.spread N φ).Series N := by
      intro d q hq
      obtain ⟨q', hq', rfl⟩ := List.mem_map.1 hq
      exact fits_spread _ _ _
    intro c hc
    obtain ⟨c', hc', rfl⟩ := List.mem_map.1 hc
    have h := hf.comps c' hc'
    obtain ⟨v1, _, _, v4, vf⟩ := comp_spread_views (φ := φ) N c'
    refine ⟨fun f hfm => ?_, fun q hq => ?_, fun s' q hs hq => ?_⟩
    · rw [vf] at hfm
      obtain ⟨g, hg, rfl⟩ := List.mem_map.1 hfm
      refine ⟨dict _, fun q hq => ?_, (h.flows g hg).invest⟩
      obtain ⟨q', h1, rfl⟩ := Option.map_eq_some_iff.1 hq
      exact ⟨dict _, dict _⟩
    · rw [v4] at hq
      obtain ⟨q', h1, rfl⟩ := Option.map_eq_some_iff.1 hq
      exact ⟨dict _, dict _⟩
    · cases c' with
      | storage s0 => cases hs; exact h.invest s0 q rfl hq
      | plain c => cases hs
      | converter c => cases hs
      | transmission t => cases hs
  buses := by
    intro b hb pen hp
    obtain ⟨b', hb', rfl⟩ := List.mem_map.1 hb
    obtain ⟨x', h1, rfl⟩ := Option.map_eq_some_iff.1 hp
    exact fits_spread _ _ _

/-- Totals on the finer grid: every part of a step causes its part. -/
theorem totals_spread (h : Finer φ s sys fine) (hv : sys.Valid) (g : Nat → ℚ) :
    ∑ j ∈ Finset.range fine.n, g (φ j) * (fine.width j / sys.width (φ j)) = ∑ t ∈ Finset.range sys.n, g t := by
  have e := h.sum_const fun t => g t / sys.width t
  have e1 : ∀ j ∈ Finset.range fine.n, g (φ j) * (fine.width j / sys.width (φ j)) = fine.width j * (g (φ j) / sys.width (φ j)) := fun j _ => by ring
  rw [Finset.sum_congr rfl e1, e]
  refine Finset.sum_congr rfl fun t ht => ?_
  have hw := hv.width_pos (Finset.mem_range.1 ht)
  field_simp

/-- **C110 (to a finer grid).**  Every step is divided into parts.  Every solution of the model is a solution of the model on the finer grid: all flow rates
and states are kept in every part of a step, the contents of storages at the beginning of every step, all sizes, and the total of every effect
and the penalty of every bus. -/
theorem C110_finer_partial (h : Finer φ s sys fine) (hv : sys.Valid) (hvf : fine.Valid) (hn : sys.n ≠ 0) (hpd : sys.prevDt.Nonneg) (hf : y.Fits sys.n) (hp : ∀ c ∈ y.comps, c.Proper sys)
    (hl : ∀ c ∈ y.comps, c.Gridless sys.n) (hfree : y.FreeStarts) (hm : systemModel sys y = .ok o) (hmf : systemModel fine (y.spread fine.n φ) = .ok of)
    {σ : Assignment} (hs : o.solver.Solves σ) :
    ∃ τ, of.solver.Solves τ ∧ (∀ c ∈ y.comps, c.Spreads φ s sys.n fine.n σ τ) ∧
      (∀ b ∈ y.buses, b.excessPenalty ≠ none → ∀ j, τ (b.label ++ "_" ++ "excess_input") j = σ (b.label ++ "_" ++ "excess_input") (φ j) ∧
        τ (b.label ++ "_" ++ "excess_output") j = σ (b.label ++ "_" ++ "excess_output") (φ j)) ∧
      (∀ e ∈ y.effects, (∀ j, τ (opTSL e.label) j = σ (opTSL e.label) (φ j) * (fine.width j / sys.width (φ j))) ∧ τ (invSumL e.label) 0 = σ (invSumL e.label) 0) ∧
      ∀ e ∈ y.effects, (y.spread fine.n φ).cost fine (e.spread fine.n φ) τ = y.cost sys e σ := by
  have hn0 : 0 < sys.n := Nat.pos_of_ne_zero hn
  have hff : (y.spread fine.n φ).Fits fine.n := spread_fits hf fine.n
  have hlab := (List.nodup_append.1 (system_labels hmf)).2.1
  obtain ⟨s1, s2, s3⟩ := (system_solves hm σ).1 hs
  have each : ∀ c, ∃ ρ : Assignment, c ∈ (y.spread fine.n φ).comps → ∀ oc, c.model fine = .ok oc → oc.tree.Solves ρ ∧
      ∀ τ' : Assignment, (∀ l ∈ oc.tree.labels, τ' l = ρ l) → c.Spreads φ s sys.n fine.n σ τ' := by
    intro c
    by_cases hcm : c ∈ (y.spread fine.n φ).comps
    · obtain ⟨oc, hoc, hmc⟩ := forall₂_mem_left (system_inv hmf).1 hcm
      have hnd : oc.tree.labels.Nodup := by
        rw [List.flatMap_append] at hlab
        exact (List.nodup_flatMap.1 (List.nodup_append.1 hlab).1).1 _ (List.mem_map_of_mem hoc)
      obtain ⟨c', hc', rfl⟩ := List.mem_map.1 hcm
      obtain ⟨oc', hoc', hmc'⟩ := forall₂_mem_left (system_inv hm).1 hc'
      obtain ⟨τ, t1, t2⟩ := model_spread h hn0 hv hvf hpd (hp c' hc') (hl c' hc') hmc' (s2 oc' hoc') hmc hnd
      refine ⟨τ, fun _ oc'' hm'' => ?_⟩
      rw [hmc] at hm''
      cases hm''
      exact ⟨t1, fun τ' hag => spreads_iff.2 (t2 τ' hag)⟩
    · exact ⟨fun _ _ => 0, fun h => absurd h hcm⟩
  choose ρ hρ using each
  have sp : ∀ c ∈ y.comps, c.Spreads φ s sys.n fine.n σ (ρ (c.spread fine.n φ)) := by
    intro c hcm
    have hw : c.spread fine.n φ ∈ (y.spread fine.n φ).comps := List.mem_map.2 ⟨c, hcm, rfl⟩
    obtain ⟨oc, _, hmc⟩ := forall₂_mem_left (system_inv hmf).1 hw
    exact spreads_iff.1 ((hρ _ hw oc hmc).2 _ fun _ _ => rfl)
  obtain ⟨b1, b2⟩ := solution_totals hv hn hf hm hs
  have bus := (buses_iff hv hf hm σ).1 s3
  have snd : ∀ b : String, ∀ j < fine.n, (y.spread fine.n φ).sends ρ b j = fedInto σ y b (φ j) ∧ (y.spread fine.n φ).receives ρ b j = takenFrom σ y b (φ j) :=
    fun b j hj => sends_spread fine.n fun c hc f hfm => (sp c hc).rate f hfm j hj
  have pos : ∀ j < fine.n, 0 < fine.width j / sys.width (φ j) := fun j hj => div_pos (hvf.width_pos hj) (hv.width_pos (h.owner hj).1)
  have tot := totals_spread h hv
  obtain ⟨τ, t1, t2, t3, t4⟩ := C82_system hvf (h.pos hn0).ne' hff hmf (ρ := ρ) (ε := fun l j => σ l (φ j)) (fun c hcm oc hmc => (hρ c hcm oc hmc).1) (by
    intro b' hb'
    obtain ⟨b, hb2, rfl⟩ := List.mem_map.1 hb'
    refine ⟨fun h0 j hj => ?_, fun h0 j hj => ?_⟩
    · rw [(snd _ j hj).1, (snd _ j hj).2]
      exact (bus b hb2).1 (by simpa [BusData.spread] using h0) (φ j) (h.owner hj).1
    · rw [(snd _ j hj).1, (snd _ j hj).2]
      exact (bus b hb2).2 (by simpa [BusData.spread] using h0) (φ j) (h.owner hj).1)
    (T := ⟨fun l j => σ (opTSL l) (φ j) * (fine.width j / sys.width (φ j)), fun l => σ (invSumL l) 0⟩) (by
    intro e' he'
    obtain ⟨e, he2, rfl⟩ := List.mem_map.1 he'
    constructor
    · intro j hj
      have := (b1 e he2).1 (φ j) (h.owner hj).1
      simp only at this ⊢
      rw [show (EffectData.spread fine.n φ e).label = e.label from rfl, this, add_mul]
      congr 1
      · unfold System.opOf System.spread
        rw [List.map_map, ← List.sum_map_mul_right]
        refine congrArg List.sum (List.map_congr_left fun c hcm => ?_)
        exact (operation_spread h hv (hf.comps c hcm) (hfree c hcm) (sp c hcm) hj).symm
      · unfold System.spread
        rw [List.map_map, ← List.sum_map_mul_right]
        refine congrArg List.sum (List.map_congr_left fun e' he' => ?_)
        show _ = (((e'.shareOperation.map fun q => (q.1, q.2.spread fine.n φ)).filter fun q => q.1 = e.label).map
          fun q => q.2.at j * (σ (opTSL e'.label) (φ j) * (fine.width j / sys.width (φ j)))).sum
        rw [List.filter_map, List.map_map, ← List.sum_map_mul_right]
        refine congrArg List.sum (List.map_congr_left fun q hq => ?_)
        have := at_spread h ((hf.effects e' he').op q (List.mem_filter.1 hq).1) hj
        simp only [Function.comp, this]
        ring
    · have := (b1 e he2).2
      simp only at this ⊢
      rw [show (EffectData.spread fine.n φ e).label = e.label from rfl, this]
      congr 1
      · unfold System.invOf System.spread
        rw [List.map_map]
        refine congrArg List.sum (List.map_congr_left fun c hcm => ?_)
        exact (investment_spread (sp c hcm).size (sp c hcm).capacity).symm
      · unfold System.spread
        rw [List.map_map]
        rfl) (by
    intro e' he'
    obtain ⟨e, he2, rfl⟩ := List.mem_map.1 he'
    have al := b2 e he2
    have es : (⟨fun l j => σ (opTSL l) (φ j) * (fine.width j / sys.width (φ j)), fun l => σ (invSumL l) 0⟩ : Totals).opSum fine.n (e.spread fine.n φ).label =
        (⟨fun l t => σ (opTSL l) t, fun l => σ (invSumL l) 0⟩ : Totals).opSum sys.n e.label := tot fun t => σ (opTSL e.label) t
    refine ⟨fun m hm => ?_, fun m hm => ?_, al.minInvest, al.maxInvest, fun m hm => ?_, fun m hm => ?_, fun x hx j hj => ?_, fun x hx j hj => ?_⟩
    · rw [es]; exact al.minOperation m hm
    · rw [es]; exact al.maxOperation m hm
    · rw [es]; exact al.minTotal m hm
    · rw [es]; exact al.maxTotal m hm
    · obtain ⟨x', hx', rfl⟩ := Option.map_eq_some_iff.1 hx
      rw [at_spread h ((hf.effects e he2).minH x' hx') hj]
      have w := al.minPerHour x' hx' (φ j) (h.owner hj).1
      have w0 := hv.width_pos (h.owner hj).1
      have := mul_le_mul_of_nonneg_right w (pos j hj).le
      refine le_trans (le_of_eq ?_) this
      show x'.at (φ j) * fine.width j = x'.at (φ j) * sys.width (φ j) * _
      field_simp
    · obtain ⟨x', hx', rfl⟩ := Option.map_eq_some_iff.1 hx
      rw [at_spread h ((hf.effects e he2).maxH x' hx') hj]
      have w := al.maxPerHour x' hx' (φ j) (h.owner hj).1
      have w0 := hv.width_pos (h.owner hj).1
      have := mul_le_mul_of_nonneg_right w (pos j hj).le
      refine le_trans this (le_of_eq ?_)
      show x'.at (φ j) * sys.width (φ j) * _ = x'.at (φ j) * fine.width j
      field_simp)
  have x3 : ∀ b ∈ y.buses, b.excessPenalty ≠ none → ∀ j, τ (b.label ++ "_" ++ "excess_input") j = σ (b.label ++ "_" ++ "excess_input") (φ j) ∧
        τ (b.label ++ "_" ++ "excess_output") j = σ (b.label ++ "_" ++ "excess_output") (φ j) := by
    intro b hb2 h0 j
    have := t3 (b.spread fine.n φ) (List.mem_map.2 ⟨b, hb2, rfl⟩) (by simpa [BusData.spread] using h0)
    exact ⟨congrFun this.1 j, congrFun this.2 j⟩
  have x4 : ∀ e ∈ y.effects, (∀ j, τ (opTSL e.label) j = σ (opTSL e.label) (φ j) * (fine.width j / sys.width (φ j))) ∧ τ (invSumL e.label) 0 = σ (invSumL e.label) 0 := fun e he2 =>
    ⟨fun j => congrFun (t4 (e.spread fine.n φ) (List.mem_map.2 ⟨e, he2, rfl⟩)).1 j, (t4 (e.spread fine.n φ) (List.mem_map.2 ⟨e, he2, rfl⟩)).2⟩
  refine ⟨τ, t1, fun c hcm => ?_, x3, x4, fun e he2 => ?_⟩
  · have hw : c.spread fine.n φ ∈ (y.spread fine.n φ).comps := List.mem_map.2 ⟨c, hcm, rfl⟩
    obtain ⟨oc, hoc, hmc⟩ := forall₂_mem_left (system_inv hmf).1 hw
    exact spreads_iff.1 ((hρ _ hw oc hmc).2 _ (t2 _ hw oc hmc))
  · unfold System.cost
    congr 1
    · congr 1
      · rw [← tot]
        exact Finset.sum_congr rfl fun j _ => (x4 e he2).1 j
      · exact (x4 e he2).2
    · unfold System.spread
      rw [List.map_map]
      refine congrArg List.sum (List.map_congr_left fun b hb2 => ?_)
      show (b.spread fine.n φ).penaltyCost fine τ = b.penaltyCost sys σ
      unfold BusData.penaltyCost
      rw [show (b.spread fine.n φ).excessPenalty = b.excessPenalty.map (·.spread fine.n φ) from rfl]
      cases hpen : b.excessPenalty with
      | none => rfl
      | some pen =>
        have hx := x3 b hb2 (by rw [hpen]; simp)
        have := h.sum_const fun t => pen.at t * (σ (b.label ++ "_" ++ "excess_input") t + σ (b.label ++ "_" ++ "excess_output") t)
        simp only [Option.map_some]
        refine (Finset.sum_congr rfl fun j hj => ?_).trans (this.trans (Finset.sum_congr rfl fun t _ => ?_))
        · have hj := Finset.mem_range.1 hj
          rw [at_spread h (hf.buses b hb2 pen hpen) hj, show (b.spread fine.n φ).label = b.label from rfl, (hx j).1, (hx j).2]
          unfold Sys.width
          ring
        · unfold Sys.width
          ring

end Flix
