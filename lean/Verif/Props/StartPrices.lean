import Verif.Spec.StartPrices
import Verif.Props.Prices

/-!
# C126: dearer starts, running hours and decisions to invest
-/

namespace Flix

variable {sys : Sys} {s s' : System} {o o' : SysOut} {n : Nat} {big : ℚ}

/-- Neither of two states restricts more if only prices differ. -/
theorem startsAt_same (new : EffDict) (q : OnOffParams) : q.Looser n (q.startsAt new) ∧ (q.startsAt new).Looser n q :=
  ⟨⟨looserMin_refl _, looserMax_refl _, looserMinTS_refl _, looserMaxTS_refl _, looserMinTS_refl _, looserMaxTS_refl _, looserMax_refl _⟩,
    ⟨looserMin_refl _, looserMax_refl _, looserMinTS_refl _, looserMaxTS_refl _, looserMinTS_refl _, looserMaxTS_refl _, looserMax_refl _⟩⟩

theorem hoursAt_same (new : EffDict) (q : OnOffParams) : q.Looser n (q.hoursAt new) ∧ (q.hoursAt new).Looser n q :=
  ⟨⟨looserMin_refl _, looserMax_refl _, looserMinTS_refl _, looserMaxTS_refl _, looserMinTS_refl _, looserMaxTS_refl _, looserMax_refl _⟩,
    ⟨looserMin_refl _, looserMax_refl _, looserMinTS_refl _, looserMaxTS_refl _, looserMinTS_refl _, looserMaxTS_refl _, looserMax_refl _⟩⟩

theorem option_restate {g : OnOffParams → OnOffParams} (hg : ∀ q, q.Looser n (g q) ∧ (g q).Looser n q) (a : Option OnOffParams) : LooserStates n a (a.map g) ∧ LooserStates n (a.map g) a := by
  cases a with
  | none => exact ⟨trivial, trivial⟩
  | some q => exact hg q

theorem restate_same {g : OnOffParams → OnOffParams} (hg : ∀ q, q.Looser n (g q) ∧ (g q).Looser n q) (f : FlowData) :
    f.Looser big n (f.restate g) ∧ (f.restate g).Looser big n f := by
  have same := (reflow_same (big := big) (n := n) (f := f) ⟨f.size, f.effectsPerFlowHour, rfl, .inl rfl⟩).1
  have st := option_restate hg f.onOff
  exact ⟨⟨rfl, rfl, rfl, .inr rfl, same.low, same.high, st.1, same.hoursMin, same.hoursMax, same.loadMin, same.loadMax, same.size⟩,
    ⟨rfl, rfl, rfl, .inr rfl, same.low, same.high, st.2, same.hoursMin, same.hoursMax, same.loadMin, same.loadMax, same.size⟩⟩

theorem decidedAt_same (new : EffDict) (f : FlowData) : f.Looser big n (f.decidedAt new) ∧ (f.decidedAt new).Looser big n f := by
  refine reflow_same ⟨(f.decidedAt new).size, f.effectsPerFlowHour, rfl, ?_⟩
  unfold FlowData.decidedAt
  cases hs : f.size with
  | unset => exact .inl rfl
  | num x => exact .inl rfl
  | invest q => exact .inr ⟨q, _, rfl, rfl, ⟨rfl, rfl, rfl, le_rfl, le_rfl⟩, ⟨rfl, rfl, rfl, le_rfl, le_rfl⟩⟩

theorem flow_more {c f : String} {g : FlowData → FlowData} {e : EffectData} (h : OtherPrices sys s (s.mapFlow c f g) e o o')
    (hg : ∀ x, x.Looser sys.cfg.big sys.n (g x) ∧ (g x).Looser sys.cfg.big sys.n x) (hfl : s.HasFlow c f) {A : Assignment → Nat → ℚ} {B : Assignment → ℚ}
    (hop : ∀ k ∈ s.comps, k.label = c → ∀ x ∈ k.flows, x.label = f → ∀ l τ, ∀ t < sys.n, flowOperation sys.width τ s.effects c (g x) l t =
      flowOperation sys.width τ s.effects c x l t + if l = e.label then A τ t else 0)
    (hin : ∀ k ∈ s.comps, k.label = c → ∀ x ∈ k.flows, x.label = f → ∀ l τ, flowInvestment τ s.effects c (g x) l = flowInvestment τ s.effects c x l + if l = e.label then B τ else 0)
    {σ σ' : Assignment} (ho : o.Optimal σ) (ho' : o'.Optimal σ') : ∑ t ∈ Finset.range sys.n, A σ' t + B σ' ≤ ∑ t ∈ Finset.range sys.n, A σ t + B σ := by
  have op : ∀ l τ, ∀ t < sys.n, (s.mapFlow c f g).opOf sys τ l t = s.opOf sys τ l t + s.count c f * (if l = e.label then A τ t else 0) :=
    fun l τ t ht => mapFlow_op fun k hk hkc x hx hxf => hop k hk hkc x hx hxf l τ t ht
  have inv : ∀ l τ, (s.mapFlow c f g).invOf τ l = s.invOf τ l + s.count c f * (if l = e.label then B τ else 0) :=
    fun l τ => mapFlow_inv fun k hk hkc x hx hxf => hin k hk hkc x hx hxf l τ
  have free := mapFlow_freer (s := s) hg c f
  have key := extra_le h.valid h.before h.steps h.fits h.fits' h.proper h.proper' h.model h.model' rfl rfl free.1 free.2 h.objective h.plain
    (fun l hne τ => ⟨fun t ht => by rw [op l τ t ht, if_neg hne, mul_zero, add_zero], by rw [inv l τ, if_neg hne, mul_zero, add_zero]⟩) ho ho'
  have val : ∀ τ, s.extra sys (s.mapFlow c f g) e.label τ = s.count c f * (∑ t ∈ Finset.range sys.n, A τ t + B τ) := by
    intro τ
    unfold System.extra
    rw [inv, if_pos rfl, mul_add, Finset.mul_sum]
    congr 1
    · refine Finset.sum_congr rfl fun t ht => ?_
      rw [op _ _ t (Finset.mem_range.1 ht), if_pos rfl]
      ring
    · ring
  rw [val, val] at key
  exact le_of_mul_le_mul_left key (count_pos hfl)

/-- **C126.**  If each start of a flow becomes dearer by the same amount, the flow has at most as many starts in a cheapest solution as it had before. -/
theorem C126 {c f : String} {new : EffDict} {d : ℚ} {e : EffectData} (h : OtherPrices sys s (s.mapFlow c f (FlowData.restate (OnOffParams.startsAt new))) e o o') (hd : 0 < d)
    (hfl : s.HasFlow c f)
    (hdear : ∀ k ∈ s.comps, k.label = c → ∀ x ∈ k.flows, x.label = f → ∃ q, x.onOff = some q ∧ DearerBy s.effects sys.n e.label (fun _ => d) q.effectsPerSwitchOn new)
    {σ σ' : Assignment} (ho : o.Optimal σ) (ho' : o'.Optimal σ') : startsOf sys (c ++ "__" ++ f) σ' ≤ startsOf sys (c ++ "__" ++ f) σ := by
  have key := flow_more h (restate_same (startsAt_same new)) hfl (A := fun τ t => d * τ (c ++ "__" ++ f ++ "__OnOff" ++ "_" ++ "switchOn") t) (B := fun _ => 0)
    (fun k hk hkc x hx hxf l τ t ht => by
      obtain ⟨q, hq, hnew⟩ := hdear k hk hkc x hx hxf
      have := hnew l t ht
      unfold flowOperation FlowData.restate
      simp only [hq, Option.map_some]
      unfold onOffOperation OnOffParams.startsAt
      simp only
      rw [this, hxf]
      split <;> ring)
    (fun k hk hkc x hx hxf l τ => by
      rw [ite_self, add_zero]
      rfl) ho ho'
  rw [add_zero, add_zero, ← Finset.mul_sum, ← Finset.mul_sum] at key
  exact le_of_mul_le_mul_left key hd

/-- **C126 (running hours).**  If each running hour of a flow becomes dearer by the same amount, the flow has at most as many running hours in a cheapest solution as it had before. -/
theorem C126_running {c f : String} {new : EffDict} {d : ℚ} {e : EffectData} (h : OtherPrices sys s (s.mapFlow c f (FlowData.restate (OnOffParams.hoursAt new))) e o o') (hd : 0 < d)
    (hfl : s.HasFlow c f)
    (hdear : ∀ k ∈ s.comps, k.label = c → ∀ x ∈ k.flows, x.label = f → ∃ q, x.onOff = some q ∧ DearerBy s.effects sys.n e.label (fun _ => d) q.effectsPerRunningHour new)
    {σ σ' : Assignment} (ho : o.Optimal σ) (ho' : o'.Optimal σ') : runningOf sys (c ++ "__" ++ f) σ' ≤ runningOf sys (c ++ "__" ++ f) σ := by
  have key := flow_more h (restate_same (hoursAt_same new)) hfl (A := fun τ t => d * (sys.width t * τ (c ++ "__" ++ f ++ "__OnOff" ++ "_" ++ "on") t)) (B := fun _ => 0)
    (fun k hk hkc x hx hxf l τ t ht => by
      obtain ⟨q, hq, hnew⟩ := hdear k hk hkc x hx hxf
      have := hnew l t ht
      unfold flowOperation FlowData.restate
      simp only [hq, Option.map_some]
      unfold onOffOperation OnOffParams.hoursAt
      simp only
      rw [this, hxf]
      split <;> ring)
    (fun k hk hkc x hx hxf l τ => by
      rw [ite_self, add_zero]
      rfl) ho ho'
  rw [add_zero, add_zero, ← Finset.mul_sum, ← Finset.mul_sum] at key
  exact le_of_mul_le_mul_left key hd

/-- **C126 (decisions).**  If an optional investment in a flow becomes dearer by a fixed amount, a cheapest solution afterwards invests only if one before did. -/
theorem C126_decision {c f : String} {new : EffDict} {d : ℚ} {e : EffectData} (h : OtherPrices sys s (s.mapFlow c f (FlowData.decidedAt new)) e o o') (hd : 0 < d) (hfl : s.HasFlow c f)
    (hdear : ∀ k ∈ s.comps, k.label = c → ∀ x ∈ k.flows, x.label = f → ∃ q, x.size = .invest q ∧ q.optional = true ∧ DearerBy s.effects 1 e.label (fun _ => d) q.fixEffects new)
    {σ σ' : Assignment} (ho : o.Optimal σ) (ho' : o'.Optimal σ') : investedIn c f σ' ≤ investedIn c f σ := by
  have key := flow_more h (decidedAt_same new) hfl (A := fun _ _ => 0) (B := fun τ => d * investedIn c f τ)
    (fun k hk hkc x hx hxf l τ t ht => by
      rw [ite_self, add_zero]
      rfl)
    (fun k hk hkc x hx hxf l τ => by
      obtain ⟨q, hq, hopt, hnew⟩ := hdear k hk hkc x hx hxf
      have := hnew l 0 one_pos
      unfold flowInvestment FlowData.decidedAt
      simp only [hq]
      unfold investCost segmentedCost decision investedIn
      simp only [hopt, if_true]
      rw [this, hxf]
      split <;> ring) ho ho'
  rw [Finset.sum_const_zero, zero_add, zero_add] at key
  exact le_of_mul_le_mul_left key hd

theorem restate_shape (g : OnOffParams → OnOffParams) (k : Comp) : (k.restate g).label = k.label ∧ (k.restate g).flows = k.flows ∧ (k.restate g).onOff = k.onOff.map g ∧
    ∀ σ es l, (k.restate g).investment σ es l = k.investment σ es l := by
  cases k <;> exact ⟨rfl, rfl, rfl, fun _ _ _ => rfl⟩

theorem comp_restate {g : OnOffParams → OnOffParams} (hg : ∀ q, q.Looser n (g q) ∧ (g q).Looser n q) (k : Comp) : k.Looser big n (k.restate g) ∧ (k.restate g).Looser big n k := by
  have same := recomp_same (big := big) (n := n) k
  cases k with
  | plain c =>
    have st := option_restate hg c.onOff
    exact ⟨⟨rfl, same.inputs, same.outputs, st.1, rfl⟩, ⟨rfl, same.inputs, same.outputs, st.2, rfl⟩⟩
  | converter c =>
    have st := option_restate hg c.comp.onOff
    exact ⟨⟨⟨rfl, same.1.inputs, same.1.outputs, st.1, rfl⟩, rfl, rfl⟩, ⟨⟨rfl, same.1.inputs, same.1.outputs, st.2, rfl⟩, rfl, rfl⟩⟩
  | storage x => exact ⟨same, same⟩
  | transmission t =>
    have st := option_restate hg t.onOff
    exact ⟨⟨rfl, same.in1, same.out1, same.in2, same.out2, rfl, rfl, st.1, rfl⟩, ⟨rfl, same.in1, same.out1, same.in2, same.out2, rfl, rfl, st.2, rfl⟩⟩

theorem restate_freer {g : OnOffParams → OnOffParams} (hg : ∀ q, q.Looser n (g q) ∧ (g q).Looser n q) (c : String) : s.Freer big n (s.restate c g) ∧ (s.restate c g).Freer big n s := by
  have each : ∀ k : Comp, k.Looser big n (if k.label = c then k.restate g else k) ∧ (if k.label = c then k.restate g else k).Looser big n k := by
    intro k
    split
    · exact comp_restate hg k
    · exact ⟨recomp_same _, recomp_same _⟩
  have b : List.Forall₂ BusData.Freer s.buses s.buses := List.forall₂_same.2 fun b _ => ⟨rfl, id⟩
  exact ⟨⟨List.forall₂_map_right_iff.2 (List.forall₂_same.2 fun k _ => (each k).1), b⟩, ⟨List.forall₂_map_left_iff.2 (List.forall₂_same.2 fun k _ => (each k).2), b⟩⟩

/-- How often the component occurs. -/
def System.compCount (c : String) (s : System) : ℚ := (s.comps.map fun k => if k.label = c then (1 : ℚ) else 0).sum

theorem compCount_pos {c : String} (h : s.HasComp c) : 0 < s.compCount c := by
  obtain ⟨k, hk, hkc⟩ := h
  have one := mem_le_sum (xs := s.comps.map fun k => if k.label = c then (1 : ℚ) else 0) (fun a ha => by
    obtain ⟨y, _, e⟩ := List.mem_map.1 ha
    rw [← e]
    split <;> norm_num) (List.mem_map_of_mem hk)
  rw [if_pos hkc] at one
  exact lt_of_lt_of_le one_pos one

theorem comp_more {c : String} {g : OnOffParams → OnOffParams} {e : EffectData} (h : OtherPrices sys s (s.restate c g) e o o')
    (hg : ∀ q, q.Looser sys.n (g q) ∧ (g q).Looser sys.n q) (hc : s.HasComp c) {A : Assignment → Nat → ℚ}
    (hop : ∀ k ∈ s.comps, k.label = c → ∀ l τ, ∀ t < sys.n, onOffOperation sys.width τ s.effects c (k.onOff.map g) l t =
      onOffOperation sys.width τ s.effects c k.onOff l t + if l = e.label then A τ t else 0)
    {σ σ' : Assignment} (ho : o.Optimal σ) (ho' : o'.Optimal σ') : ∑ t ∈ Finset.range sys.n, A σ' t ≤ ∑ t ∈ Finset.range sys.n, A σ t := by
  have op : ∀ l τ, ∀ t < sys.n, (s.restate c g).opOf sys τ l t = s.opOf sys τ l t + s.compCount c * (if l = e.label then A τ t else 0) := by
    intro l τ t ht
    unfold System.opOf System.restate System.compCount
    rw [List.map_map]
    refine sum_more _ _ _ _ _ fun k hk => ?_
    simp only [Function.comp_apply]
    by_cases hkc : k.label = c
    · rw [if_pos hkc, if_pos hkc]
      obtain ⟨q1, q2, q3, _⟩ := restate_shape g k
      unfold Comp.operation
      rw [q1, q2, q3, hkc, hop k hk hkc l τ t ht]
      ring
    · rw [if_neg hkc, if_neg hkc, zero_mul, add_zero]
  have inv : ∀ l τ, (s.restate c g).invOf τ l = s.invOf τ l := by
    intro l τ
    unfold System.invOf System.restate
    rw [List.map_map]
    refine congrArg List.sum (List.map_congr_left fun k _ => ?_)
    simp only [Function.comp_apply]
    split
    · exact (restate_shape g k).2.2.2 _ _ _
    · rfl
  have free := restate_freer (s := s) (big := sys.cfg.big) hg c
  have key := extra_le h.valid h.before h.steps h.fits h.fits' h.proper h.proper' h.model h.model' rfl rfl free.1 free.2 h.objective h.plain
    (fun l hne τ => ⟨fun t ht => by rw [op l τ t ht, if_neg hne, mul_zero, add_zero], inv l τ⟩) ho ho'
  have val : ∀ τ, s.extra sys (s.restate c g) e.label τ = s.compCount c * ∑ t ∈ Finset.range sys.n, A τ t := by
    intro τ
    unfold System.extra
    rw [inv, sub_self, add_zero, Finset.mul_sum]
    refine Finset.sum_congr rfl fun t ht => ?_
    rw [op _ _ t (Finset.mem_range.1 ht), if_pos rfl]
    ring
  rw [val, val] at key
  exact le_of_mul_le_mul_left key (compCount_pos hc)

/-- **C126 (starts of a component).**  The same for the starts of a component with states of its own. -/
theorem C126_component {c : String} {new : EffDict} {d : ℚ} {e : EffectData} (h : OtherPrices sys s (s.restate c (OnOffParams.startsAt new)) e o o') (hd : 0 < d) (hc : s.HasComp c)
    (hdear : ∀ k ∈ s.comps, k.label = c → ∃ q, k.onOff = some q ∧ DearerBy s.effects sys.n e.label (fun _ => d) q.effectsPerSwitchOn new)
    {σ σ' : Assignment} (ho : o.Optimal σ) (ho' : o'.Optimal σ') : startsOf sys c σ' ≤ startsOf sys c σ := by
  have key := comp_more h (startsAt_same new) hc (A := fun τ t => d * τ (c ++ "__OnOff" ++ "_" ++ "switchOn") t) (fun k hk hkc l τ t ht => by
    obtain ⟨q, hq, hnew⟩ := hdear k hk hkc
    have := hnew l t ht
    simp only [hq, Option.map_some]
    unfold onOffOperation OnOffParams.startsAt
    simp only
    rw [this]
    split <;> ring) ho ho'
  rw [← Finset.mul_sum, ← Finset.mul_sum] at key
  exact le_of_mul_le_mul_left key hd

/-- **C126 (running hours of a component).** -/
theorem C126_component_running {c : String} {new : EffDict} {d : ℚ} {e : EffectData} (h : OtherPrices sys s (s.restate c (OnOffParams.hoursAt new)) e o o') (hd : 0 < d) (hc : s.HasComp c)
    (hdear : ∀ k ∈ s.comps, k.label = c → ∃ q, k.onOff = some q ∧ DearerBy s.effects sys.n e.label (fun _ => d) q.effectsPerRunningHour new)
    {σ σ' : Assignment} (ho : o.Optimal σ) (ho' : o'.Optimal σ') : runningOf sys c σ' ≤ runningOf sys c σ := by
  have key := comp_more h (hoursAt_same new) hc (A := fun τ t => d * (sys.width t * τ (c ++ "__OnOff" ++ "_" ++ "on") t)) (fun k hk hkc l τ t ht => by
    obtain ⟨q, hq, hnew⟩ := hdear k hk hkc
    have := hnew l t ht
    simp only [hq, Option.map_some]
    unfold onOffOperation OnOffParams.hoursAt
    simp only
    rw [this]
    split <;> ring) ho ho'
  rw [← Finset.mul_sum, ← Finset.mul_sum] at key
  exact le_of_mul_le_mul_left key hd

/-! ## Examples -/

/-- States whose starts cost `p` and whose running hours cost `r`. -/
def exStartStates (p r : ℚ) : OnOffParams := { effectsPerSwitchOn := [(some "costs", .s p)], effectsPerRunningHour := [(some "costs", .s r)] }

def exStartFlow (p r : ℚ) : FlowData :=
  { label := "Q", bus := "heat", size := .num 10, relMin := .s (1 / 5), effectsPerFlowHour := [(some "costs", .s 1)], onOff := some (exStartStates p r) }

/-- A flow that may be invested in for `z`. -/
def exStartOpt (z : ℚ) : FlowData :=
  { label := "Q", bus := "heat", size := .invest { minimumSize := 1, maximumSize := some 10, optional := true, fixEffects := [(some "costs", .s z)] } }

/-- A unit with states, whose flow has states as well, an optional investment and a load of 2; what is missing costs 100 per flow hour. -/
def exStart (p r w y z : ℚ) : System :=
  { effects := [{ label := "costs", isStandard := true, isObjective := true }]
    comps := [.plain { label := "Gen", inputs := [], outputs := [exStartFlow p r], onOff := some (exStartStates w y) }, .plain { label := "Opt", inputs := [], outputs := [exStartOpt z] },
      .plain { label := "Load", inputs := [exBuyLoad], outputs := [] }]
    buses := [{ label := "heat", excessPenalty := some (.s 100) }] }

/-- Everything is missing. -/
def exStartNothing : Assignment := tableSol
  [("heat_excess_input", [2, 2, 2]), ("Effects__penalty_penalty_sum", [800]), ("Effects__heat__excess_input", [800]), ("Load__Q_flow_rate", [2, 2, 2]), ("Load__Q_sumFlowHours", [8])]

theorem exStartStates_nonneg (p r : ℚ) : (exStartStates p r).NonnegLimits exSys.n := by
  simp [OnOffParams.NonnegLimits, exStartStates]

theorem exStart_flow (p r : ℚ) : (exStartFlow p r).Fits exSys.n ∧ (exStartFlow p r).Sensible exSys.cfg exSys.n ∧ (exStartFlow p r).Proper exSys.n := by
  refine ⟨⟨Or.inl rfl, Or.inl rfl, ?_, ?_⟩, ⟨⟨?_, ?_⟩, ?_, ?_⟩, ?_, ?_⟩
  all_goals first
    | (simp [exStartFlow, exSys, exCfg, Num.Fits, Num.len]; done)
    | (intro t ht; norm_num [exStartFlow, FlowData.lowRel, FlowData.highRel, Num.at]; done)
    | skip
  · intro q hq
    cases hq
    constructor <;> simp [exStartStates]
  · intro q hq
    cases hq
    exact exStartStates_nonneg p r

theorem exStart_opt (z : ℚ) : (exStartOpt z).Fits exSys.n ∧ (exStartOpt z).Sensible exSys.cfg exSys.n ∧ (exStartOpt z).Proper exSys.n := by
  refine ⟨⟨Or.inl rfl, Or.inl rfl, ?_, ?_⟩, ⟨⟨?_, ?_⟩, ?_, ?_⟩, ?_, ?_⟩
  all_goals first
    | (simp [exStartOpt, exSys, exCfg, Num.Fits, Num.len]; done)
    | (intro t ht; simp [exStartOpt, FlowData.lowRel, FlowData.highRel, Num.at]; done)
    | skip
  · intro q hq
    cases hq
    norm_num [InvestParams.NoZero, InvestParams.NonnegSizes, exSys, exCfg]
    simp
  · intro q hq
    cases hq
    simp [InvestParams.segEffects]

theorem exStart_proper (p r w y z : ℚ) : ∀ c ∈ (exStart p r w y z).comps, c.Proper exSys ∧ c.CapacityNonneg := by
  intro c hc
  simp only [exStart, List.mem_cons, List.not_mem_nil, or_false] at hc
  rcases hc with rfl | rfl | rfl
  · have g := exStart_flow p r
    refine ⟨⟨by simp, by simpa using g.1, by simpa using g.2.1, by simpa using g.2.2, ?_⟩, trivial⟩
    intro q hq
    cases hq
    exact ⟨by constructor <;> simp [exStartStates], exStartStates_nonneg w y⟩
  · have g := exStart_opt z
    exact ⟨⟨by simp, by simpa using g.1, by simpa using g.2.1, by simpa using g.2.2, by simp⟩, trivial⟩
  · have g := exBuy_load
    exact ⟨⟨by simp, by simpa using g.1, by simpa using g.2.1, by simpa using g.2.2, by simp⟩, trivial⟩

theorem exStartStates_fits (p r : ℚ) : (exStartStates p r).EffFits exSys.n := by
  constructor <;> simp [exStartStates, EffDict.Series, Num.isScalar]

theorem exStart_fits (p r w y z : ℚ) : (exStart p r w y z).Fits exSys.n := by
  refine ⟨?_, ?_, ?_⟩
  · simp only [exStart, List.forall_mem_cons, List.not_mem_nil, false_imp_iff, implies_true, and_true]
    constructor <;> simp
  · simp only [exStart, List.forall_mem_cons, List.not_mem_nil, false_imp_iff, implies_true, and_true]
    refine ⟨⟨?_, fun q hq => ?_, by simp⟩, ⟨?_, by simp [Comp.onOff], by simp⟩, ⟨?_, by simp [Comp.onOff], by simp⟩⟩
    rotate_left
    · cases hq
      exact exStartStates_fits w y
    all_goals
      simp only [Comp.flows, Comp.inputs, Comp.outputs, List.nil_append, List.append_nil, List.forall_mem_cons, List.not_mem_nil, false_imp_iff, implies_true, and_true]
    · refine ⟨by simp [exStartOpt, EffDict.Series], by simp [exStartOpt], ?_⟩
      intro q hq
      cases hq
      simp [InvestParams.EffFits, EffDict.Scalars, Num.isScalar]
    · exact ⟨by simp [exBuyLoad, EffDict.Series], by simp [exBuyLoad], by simp [exBuyLoad]⟩
    · refine ⟨by simp [exStartFlow, EffDict.Series, Num.isScalar], ?_, by simp [exStartFlow]⟩
      intro q hq
      cases hq
      exact exStartStates_fits p r
  · simp only [exStart, List.forall_mem_cons, List.not_mem_nil, false_imp_iff, implies_true, and_true]
    intro pen hp
    cases hp
    exact Or.inl rfl

theorem exStart_optimum {p r w y z : ℚ} {o : SysOut} (h : systemModel exSys (exStart p r w y z) = .ok o) (hs : ∃ σ, o.solver.Solves σ) : ∃ σ, o.Optimal σ :=
  C95 exSys_valid (by decide) (exStart_fits p r w y z) (by
      simp only [exStart, List.forall_mem_cons, List.not_mem_nil, false_imp_iff, implies_true, and_true, Comp.flows, Comp.inputs, Comp.outputs, List.nil_append, List.append_nil]
      exact ⟨(exStart_flow p r).1, (exStart_opt z).1, exBuy_load.1⟩) h (rank := fun _ => 0) (by simp [Ranked, exStart]) (by simp [Ranked, exStart]) (by
      simp only [exStart, List.forall_mem_cons, List.not_mem_nil, false_imp_iff, implies_true, and_true]
      intro pen hpen t _
      cases hpen
      norm_num [Num.at]) hs

theorem exStart_other {p r w y z p' r' w' y' z' : ℚ} {o o' : SysOut} {s' : System} (e : s' = exStart p' r' w' y' z') (h : systemModel exSys (exStart p r w y z) = .ok o)
    (h' : systemModel exSys (exStart p' r' w' y' z') = .ok o') :
    OtherPrices exSys (exStart p r w y z) s' { label := "costs", isStandard := true, isObjective := true } o o' := by
  subst e
  refine ⟨exSys_valid, by simp [exSys, Num.Nonneg], by decide, exStart_fits .., exStart_fits .., exStart_proper p r w y z, exStart_proper p' r' w' y' z', h, h', by simp [exStart], ?_⟩
  simp only [exStart, List.forall_mem_cons, List.not_mem_nil, false_imp_iff, implies_true, and_true]
  exact fun _ => ⟨rfl, rfl, rfl, rfl, rfl, rfl, rfl, rfl, rfl, rfl⟩

/-- One price for the objective, dearer by 2. -/
theorem exStart_dearer {p r w y z : ℚ} {n : Nat} (a : ℚ) : DearerBy (exStart p r w y z).effects n "costs" (fun _ => 2) [(some "costs", .s a)] [(some "costs", .s (a + 2))] := by
  intro l t _
  by_cases hl : l = "costs"
  · subst hl; norm_num [effVal, names, Num.at]
  · simp [effVal, names, hl, Ne.symm hl]

/-- The hypotheses of all parts of `C126` are met: starts and running hours of the flow and of the unit, and the decision to invest, each cost 3 instead of 1. -/
example : ∃ o σ, systemModel exSys (exStart 1 1 1 1 1) = .ok o ∧ o.Optimal σ ∧
    (∃ o' σ', systemModel exSys (exStart 3 1 1 1 1) = .ok o' ∧ o'.Optimal σ' ∧ startsOf exSys ("Gen" ++ "__" ++ "Q") σ' ≤ startsOf exSys ("Gen" ++ "__" ++ "Q") σ) ∧
    (∃ o' σ', systemModel exSys (exStart 1 3 1 1 1) = .ok o' ∧ o'.Optimal σ' ∧ runningOf exSys ("Gen" ++ "__" ++ "Q") σ' ≤ runningOf exSys ("Gen" ++ "__" ++ "Q") σ) ∧
    (∃ o' σ', systemModel exSys (exStart 1 1 3 1 1) = .ok o' ∧ o'.Optimal σ' ∧ startsOf exSys "Gen" σ' ≤ startsOf exSys "Gen" σ) ∧
    (∃ o' σ', systemModel exSys (exStart 1 1 1 3 1) = .ok o' ∧ o'.Optimal σ' ∧ runningOf exSys "Gen" σ' ≤ runningOf exSys "Gen" σ) ∧
    ∃ o' σ', systemModel exSys (exStart 1 1 1 1 3) = .ok o' ∧ o'.Optimal σ' ∧ investedIn "Opt" "Q" σ' ≤ investedIn "Opt" "Q" σ := by
  obtain ⟨o, h, hs⟩ := builds_and_solves (σ := exStartNothing) (r := systemModel exSys (exStart 1 1 1 1 1)) (f := fun o : SysOut => MTree.node o.solver.vars o.solver.cons []) (by decide +kernel)
  obtain ⟨o₁, h₁, hs₁⟩ := builds_and_solves (σ := exStartNothing) (r := systemModel exSys (exStart 3 1 1 1 1)) (f := fun o : SysOut => MTree.node o.solver.vars o.solver.cons []) (by decide +kernel)
  obtain ⟨o₂, h₂, hs₂⟩ := builds_and_solves (σ := exStartNothing) (r := systemModel exSys (exStart 1 3 1 1 1)) (f := fun o : SysOut => MTree.node o.solver.vars o.solver.cons []) (by decide +kernel)
  obtain ⟨o₃, h₃, hs₃⟩ := builds_and_solves (σ := exStartNothing) (r := systemModel exSys (exStart 1 1 3 1 1)) (f := fun o : SysOut => MTree.node o.solver.vars o.solver.cons []) (by decide +kernel)
  obtain ⟨o₄, h₄, hs₄⟩ := builds_and_solves (σ := exStartNothing) (r := systemModel exSys (exStart 1 1 1 3 1)) (f := fun o : SysOut => MTree.node o.solver.vars o.solver.cons []) (by decide +kernel)
  obtain ⟨o₅, h₅, hs₅⟩ := builds_and_solves (σ := exStartNothing) (r := systemModel exSys (exStart 1 1 1 1 3)) (f := fun o : SysOut => MTree.node o.solver.vars o.solver.cons []) (by decide +kernel)
  obtain ⟨σ, q⟩ := exStart_optimum h ⟨_, hs.1, hs.2.1⟩
  obtain ⟨σ₁, q₁⟩ := exStart_optimum h₁ ⟨_, hs₁.1, hs₁.2.1⟩
  obtain ⟨σ₂, q₂⟩ := exStart_optimum h₂ ⟨_, hs₂.1, hs₂.2.1⟩
  obtain ⟨σ₃, q₃⟩ := exStart_optimum h₃ ⟨_, hs₃.1, hs₃.2.1⟩
  obtain ⟨σ₄, q₄⟩ := exStart_optimum h₄ ⟨_, hs₄.1, hs₄.2.1⟩
  obtain ⟨σ₅, q₅⟩ := exStart_optimum h₅ ⟨_, hs₅.1, hs₅.2.1⟩
  have gen : ∀ k ∈ (exStart 1 1 1 1 1).comps, k.label = "Gen" → k = .plain { label := "Gen", inputs := [], outputs := [exStartFlow 1 1], onOff := some (exStartStates 1 1) } := by
    intro k hk hl
    simp only [exStart, List.mem_cons, List.not_mem_nil, or_false] at hk
    rcases hk with rfl | rfl | rfl
    · rfl
    · simp [Comp.label] at hl
    · simp [Comp.label] at hl
  have opt : ∀ k ∈ (exStart 1 1 1 1 1).comps, k.label = "Opt" → k = .plain { label := "Opt", inputs := [], outputs := [exStartOpt 1] } := by
    intro k hk hl
    simp only [exStart, List.mem_cons, List.not_mem_nil, or_false] at hk
    rcases hk with rfl | rfl | rfl
    · simp [Comp.label] at hl
    · rfl
    · simp [Comp.label] at hl
  have has : (exStart 1 1 1 1 1).HasFlow "Gen" "Q" := ⟨_, List.mem_cons_self, rfl, exStartFlow 1 1, by simp [Comp.flows, Comp.inputs, Comp.outputs], rfl⟩
  have price : ((3 : ℚ)) = 1 + 2 := by norm_num
  refine ⟨o, σ, h, q, ⟨o₁, σ₁, h₁, q₁, ?_⟩, ⟨o₂, σ₂, h₂, q₂, ?_⟩, ⟨o₃, σ₃, h₃, q₃, ?_⟩, ⟨o₄, σ₄, h₄, q₄, ?_⟩, o₅, σ₅, h₅, q₅, ?_⟩
  · refine C126 (new := [(some "costs", .s (1 + 2))]) (d := 2) (exStart_other (by
      rw [← price]
      simp [System.mapFlow, exStart, Comp.label, Comp.mapFlows, FlowData.restate, exStartFlow, OnOffParams.startsAt, exStartStates]) h h₁) (by norm_num) has (fun k hk hl x hx _ => ?_) q q₁
    rw [gen k hk hl] at hx
    simp only [Comp.flows, Comp.inputs, Comp.outputs, List.nil_append, List.mem_singleton] at hx
    subst hx
    exact ⟨_, rfl, exStart_dearer 1⟩
  · refine C126_running (new := [(some "costs", .s (1 + 2))]) (d := 2) (exStart_other (by
      rw [← price]
      simp [System.mapFlow, exStart, Comp.label, Comp.mapFlows, FlowData.restate, exStartFlow, OnOffParams.hoursAt, exStartStates]) h h₂) (by norm_num) has (fun k hk hl x hx _ => ?_) q q₂
    rw [gen k hk hl] at hx
    simp only [Comp.flows, Comp.inputs, Comp.outputs, List.nil_append, List.mem_singleton] at hx
    subst hx
    exact ⟨_, rfl, exStart_dearer 1⟩
  · refine C126_component (new := [(some "costs", .s (1 + 2))]) (d := 2) (exStart_other (by
      rw [← price]
      simp [System.restate, exStart, Comp.label, Comp.restate, OnOffParams.startsAt, exStartStates]) h h₃) (by norm_num) ⟨_, List.mem_cons_self, rfl⟩ (fun k hk hl => ?_) q q₃
    rw [gen k hk hl]
    exact ⟨_, rfl, exStart_dearer 1⟩
  · refine C126_component_running (new := [(some "costs", .s (1 + 2))]) (d := 2) (exStart_other (by
      rw [← price]
      simp [System.restate, exStart, Comp.label, Comp.restate, OnOffParams.hoursAt, exStartStates]) h h₄) (by norm_num) ⟨_, List.mem_cons_self, rfl⟩ (fun k hk hl => ?_) q q₄
    rw [gen k hk hl]
    exact ⟨_, rfl, exStart_dearer 1⟩
  · refine C126_decision (new := [(some "costs", .s (1 + 2))]) (d := 2) (exStart_other (by
      rw [← price]
      simp [System.mapFlow, exStart, Comp.label, Comp.mapFlows, FlowData.decidedAt, exStartOpt]) h h₅) (by norm_num)
      ⟨_, List.mem_cons_of_mem _ List.mem_cons_self, rfl, exStartOpt 1, by simp [Comp.flows, Comp.inputs, Comp.outputs], rfl⟩ (fun k hk hl x hx _ => ?_) q q₅
    rw [opt k hk hl] at hx
    simp only [Comp.flows, Comp.inputs, Comp.outputs, List.nil_append, List.mem_singleton] at hx
    subst hx
    exact ⟨_, rfl, rfl, exStart_dearer 1⟩

end Flix
