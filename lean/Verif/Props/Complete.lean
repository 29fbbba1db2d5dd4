import Verif.Lemmas.Plan
import Verif.Lemmas.Whole
import Verif.Props.Transmission
import Verif.Props.Converters
import Verif.Props.Closed

/-!
# C82: what the declarations allow is a solution

The other theorems about components say what every solution satisfies.  Here the converse: values for the flow rates, sizes and states
that respect the declarations (`Allows`, stated without the model) are taken over by a solution of the component's model, and values for
all components that fit together at the buses by a solution of the whole model.
-/

namespace Flix

variable {sys : Sys}

/-- The state of the component and the exclusion of flows respect the declarations.  (The history of the component is the one that the
code computes, see C14.) -/
structure CompPlan.Runs (sys : Sys) (c : CompData) (p : CompPlan) : Prop where
  schedule : ∀ q, c.onOff = some q → q.Fits sys.n ∧ q.NonnegLimits sys.n ∧
    ∃ hist last, prevOnOfList sys.cfg.eps ((c.inputs ++ c.outputs).filterMap (·.previousFlowRate)) = .ok hist ∧ hist.getLast? = some last ∧
      ScheduleOk sys q hist last p.on
  state : c.onOff ≠ none → ∀ t < sys.n, (p.on t = 0 ∧ ∀ f ∈ c.inputs ++ c.outputs, (p.flow f.label).r t = 0) ∨
    (p.on t = 1 ∧ sys.cfg.eps ≤ ((c.inputs ++ c.outputs).map fun f => (p.flow f.label).r t).sum)
  exclusive : ∀ t < sys.n, c.prevent.Pairwise fun a b => (p.flow a).r t = 0 ∨ (p.flow b).r t = 0

/-- The plan respects everything declared for the component and its flows. -/
structure CompPlan.Allows (sys : Sys) (c : CompData) (p : CompPlan) : Prop where
  flows : ∀ f ∈ c.inputs ++ c.outputs, (p.flow f.label).Allows sys (c.declared f)
  runs : p.Runs sys c

theorem cap_nonneg {f : FlowData} (h : f.Sensible sys.cfg sys.n) : ∀ t < sys.n, 0 ≤ (f.absBounds sys.cfg).2.at t := by
  intro t ht
  have h0 : 0 ≤ f.highRel t := le_trans (h.low t ht).1 (h.low t ht).2
  cases hs : f.size with
  | invest q =>
    rw [(absBounds_invest (sys := sys) hs t).2]
    obtain ⟨hz, hn, _⟩ := h.invest q hs
    refine mul_nonneg h0 ?_
    cases hf : q.fixedSize with
    | some v => exact hn.2.1 v hf
    | none => exact maxSize_nonneg hn
  | unset =>
    simp only [FlowData.absBounds, FlowData.effSize, hs, at_mulr, (relBounds_at (f := f) t).2]
    exact mul_nonneg h0 h.size.2
  | num x =>
    have hx := h.size.1 x hs
    simp only [FlowData.absBounds, FlowData.effSize, hs, at_mulr, (relBounds_at (f := f) t).2, pyOr, hx.ne', if_false]
    exact mul_nonneg h0 hx.le

theorem allows_ok (hv : sys.Valid) {c : CompData} {p : CompPlan} (h : p.Allows sys c) : p.Ok sys c := by
  refine ⟨fun f hf => plan_ok hv (h.flows f hf), h.runs.schedule, h.runs.state, fun _ f hf t ht => ?_, h.runs.exclusive⟩
  have := cap_nonneg (h.flows f hf).sensible t ht
  rw [← declared_eq, fillOnOff_absBounds] at this
  exact this

theorem comp_has_flow {c : CompData} {o : CompOut} (h : compModel sys c = .ok o) {q : FlowData × FlowOut} (hq : q ∈ o.flows) {x : Var}
    (hx : q.2.tree.HasVar x) : o.tree.HasVar x := by
  obtain ⟨_, _, _, prev, _, _, _, e3, _⟩ := comp_inv h
  obtain ⟨m, hm, hxm⟩ := hx
  refine ⟨m, .sub (s := q.2.tree) ?_ hm, hxm⟩
  rw [e3]
  simp only [List.mem_append, List.mem_map]
  exact .inl (.inl ⟨q, hq, rfl⟩)

/-- Solutions of a component and what they realize depend on the component's variables only. -/
theorem comp_agree {c : CompData} {o : CompOut} (h : compModel sys c = .ok o) {σ τ : Assignment} (hag : ∀ l ∈ o.tree.labels, τ l = σ l) :
    (o.tree.Solves σ → o.tree.Solves τ) ∧ ∀ p : CompPlan, p.Realized c σ → p.Realized c τ := by
  obtain ⟨a, b, _, hfl, hon⟩ := comp_refs h (vars_hasVar o.tree)
  have hr : o.tree.Refs o.tree.HasVar := by rw [CompOut.tree, refs_node]; exact ⟨a, b⟩
  obtain ⟨r1, r2, hoo, _⟩ := comp_inv h
  have hall := List.rel_append r1 r2
  refine ⟨solves_congr (vars_hasVar _) hr fun x hx => (hag _ (hasVar_labels hx)).symm, fun p hp => ?_⟩
  have each : ∀ f ∈ c.inputs ++ c.outputs, ∃ q ∈ o.flows, flowModel sys (flowFull c.label f.label) (c.declared f) = .ok q.2 ∧ FlowRefs o.tree.HasVar q.2 := by
    intro f hf
    obtain ⟨q, hq, _, hm⟩ := forall₂_mem_left hall hf
    rw [declared_eq] at hm
    exact ⟨q, hq, hm, hfl q hq⟩
  have inside : ∀ q ∈ o.flows, ∀ x, q.2.tree.HasVar x → τ x.label = σ x.label := fun q hq x hx =>
    hag _ (hasVar_labels (comp_has_flow h hq hx))
  refine ⟨fun f hf => ?_, fun f hf r hr => ?_, fun f hf ho => ?_, fun ho => ?_, fun f hf r hr hopt => ?_, fun f hf r hr e he => ?_⟩
  · obtain ⟨q, _, hm, k1, _⟩ := each f hf
    have hl : q.2.flowRate.label = rateL c.label f.label := (flowRate_ok (flow_inv hm).1).1
    rw [← hp.rate f hf, ← hl]
    exact hag _ (hasVar_labels k1)
  · obtain ⟨q, _, hm, _, _, k3⟩ := each f hf
    obtain ⟨i, hi, him⟩ := flow_has_invest hm (q := r) hr
    obtain ⟨_, _, _, _, hs, _⟩ := invest_inv him
    have hil : i.size.label = sizeL (flowFull c.label f.label) := (sizeVar_iff hs).1
    rw [← hp.size f hf r hr, ← hil, hag _ (hasVar_labels (k3 i hi))]
  · obtain ⟨q, _, hm, _, k2, _⟩ := each f hf
    have w2 := (flow_inv hm).2.1
    cases hoo : q.2.onOff with
    | none => rw [hoo] at w2; exact absurd (flowOnOff_none w2) ho
    | some oo =>
      rw [hoo] at w2
      obtain ⟨qq, _, hm'⟩ := flowOnOff_some w2
      have hll : oo.on.label = stateL (flowFull c.label f.label) := (onOff_on_length hm').2.1
      rw [← hp.flowOn f hf ho, ← hll, hag _ (hasVar_labels (k2 oo hoo))]
  · unfold compOnOff at hoo
    obtain ⟨q, hq⟩ := Option.ne_none_iff_exists'.1 ho
    rw [hq] at hoo
    obtain ⟨oo, hm, he⟩ := map_ok.1 hoo
    have hll : oo.on.label = stateL c.label := (onOff_on_length hm).2.1
    rw [← hp.on ho, ← hll, hag _ (hasVar_labels (hon oo he.symm))]
  · obtain ⟨q, hq, hm, _⟩ := each f hf
    obtain ⟨i, hi, him⟩ := flow_has_invest hm (q := r) hr
    obtain ⟨iv, _, j2, j3⟩ := (invest_decision_labels him).1 hopt
    rw [← hp.built f hf r hr hopt, ← j2, inside q hq iv (flow_has_sub hm hi j3)]
  · obtain ⟨q, hq, hm, _⟩ := each f hf
    obtain ⟨i, hi, him⟩ := flow_has_invest hm (q := r) hr
    rw [← hp.shares f hf r hr e he]
    exact congrFun (inside q hq _ (flow_has_sub hm hi ((invest_decision_labels him).2 e he))) 0

/-- **C82 (components without equations of their own).** -/
theorem C82_plain_partial (hv : sys.Valid) {c : CompData} {o : CompOut} (hfit : ∀ f ∈ c.inputs ++ c.outputs, f.Fits sys.n)
    (h : compModel sys c = .ok o) (hpd : sys.prevDt.Nonneg) (hnd : o.tree.labels.Nodup) {p : CompPlan} (hp : p.Allows sys c) :
    ∃ τ : Assignment, o.tree.Solves τ ∧ p.Realized c τ := by
  obtain ⟨τ, h1, h2, _⟩ := comp_complete hv hfit h hpd hnd (allows_ok hv hp) (fun _ _ => 0)
  exact ⟨τ, h1, h2⟩

/-! ### The cases that the examples use -/

theorem schedule_free {hist : List ℚ} {last : ℚ} {b : Nat → ℚ} (hb : ∀ t < sys.n, b t = 0 ∨ b t = 1) : ScheduleOk sys {} hist last b where
  bin := hb
  totalMin := by simp
  totalMax := by simp
  starts := by simp
  runsOn := fun _ _ => ⟨by simp, by simp, by simp⟩
  runsOff := fun _ _ => ⟨by simp, by simp, by simp⟩

/-- A plan for a flow from its rates: it is on when its rate is not zero. -/
def ratesPlan (rs : List ℚ) (s d : ℚ := 0) : FlowPlan :=
  { r := fun t => rs.getD t 0, b := fun t => if rs.getD t 0 = 0 then 0 else 1, s := s, d := d, val := fun _ => 0 }

theorem ratesPlan_bin (rs : List ℚ) (s d : ℚ) (t : Nat) : (ratesPlan rs s d).b t = 0 ∨ (ratesPlan rs s d).b t = 1 := by
  show (if rs.getD t 0 = 0 then (0 : ℚ) else 1) = 0 ∨ (if rs.getD t 0 = 0 then (0 : ℚ) else 1) = 1
  by_cases h : rs.getD t 0 = 0
  · rw [if_pos h]; exact .inl rfl
  · rw [if_neg h]; exact .inr rfl

/-- A flow that may be run from 0 to its size, with or without states. -/
structure FlowData.Easy (f : FlowData) : Prop where
  low : f.relMin = .s 0
  high : f.relMax = .s 1
  profile : f.fixedProfile = none
  limits : f.flowHoursTotalMax = none ∧ f.flowHoursTotalMin = none ∧ f.loadFactorMin = none ∧ f.loadFactorMax = none
  before : f.previousFlowRate = none
  state : f.onOff = none ∨ f.onOff = some {}

theorem follows_easy {f : FlowData} {S : ℚ} {rs : List ℚ} {s d : ℚ} (hf : f.Easy)
    (hr : ∀ t < sys.n, rs.getD t 0 = 0 ∨ (sys.cfg.eps ≤ rs.getD t 0 ∧ 0 ≤ rs.getD t 0 ∧ rs.getD t 0 ≤ S)) (hS : 0 ≤ S) : (ratesPlan rs s d).Follows sys f S where
  always := fun _ t ht => by
    simp only [FlowData.lowRel, FlowData.highRel, hf.low, hf.high, hf.profile, Num.at, ratesPlan, zero_mul, one_mul]
    rcases hr t ht with h | ⟨_, h', h''⟩
    · rw [h]; exact ⟨le_rfl, hS⟩
    · exact ⟨h', h''⟩
  running := fun _ t ht => by
    simp only [FlowData.lowRel, FlowData.highRel, hf.low, hf.high, hf.profile, Num.at, ratesPlan, zero_mul, one_mul]
    rcases hr t ht with h | ⟨h, h', h''⟩
    · rw [if_pos h]; exact .inl ⟨rfl, h⟩
    · by_cases hz : rs.getD t 0 = 0
      · rw [if_pos hz]; exact .inl ⟨rfl, hz⟩
      · rw [if_neg hz]; exact .inr ⟨rfl, h, h', h''⟩
  schedule := fun q hq => by
    rcases hf.state with h | h
    · rw [h] at hq; cases hq
    · rw [h] at hq; cases hq
      exact ⟨fun m hm => by simp at hm, 0, by simp [hf.before, flowHistory], schedule_free fun t _ => ratesPlan_bin _ _ _ _⟩
  hmin := by simp [hf.limits.2.1]
  hmax := by simp [hf.limits.1]
  lmin := by simp [hf.limits.2.2.1]
  lmax := by simp [hf.limits.2.2.2]

theorem allows_easy {f : FlowData} {x : ℚ} {rs : List ℚ} {s d : ℚ} (hf : f.Easy) (hx : f.size = .num x) (h0 : 0 < x) (hb : 0 ≤ sys.cfg.big)
    (hr : ∀ t < sys.n, rs.getD t 0 = 0 ∨ (sys.cfg.eps ≤ rs.getD t 0 ∧ 0 ≤ rs.getD t 0 ∧ rs.getD t 0 ≤ x)) : (ratesPlan rs s d).Allows sys f where
  sensible := ⟨⟨fun y hy => by rw [hx] at hy; cases hy; exact h0, hb⟩, fun t _ => by simp [FlowData.lowRel, FlowData.highRel, hf.low, hf.high, hf.profile, Num.at],
    fun q hq => by rw [hx] at hq; cases hq⟩
  follows := by
    unfold FlowPlan.capacity
    rw [hx]
    exact follows_easy hf hr h0.le
  invests := fun q hq => by rw [hx] at hq; cases hq

/-- A flow whose size is to be decided, without effects in segments; it is built with size `s`. -/
theorem allows_built {f : FlowData} {q : InvestParams} {rs : List ℚ} {s : ℚ} (hf : f.Easy) (hq : f.size = .invest q) (hb : 0 ≤ sys.cfg.big)
    (hz : q.NoZero) (hn : q.NonnegSizes sys.cfg) (hm : 0 ≤ q.minimumSize) (hseg : q.effectsInSegments = none) (hd : Decided sys.cfg q s 1) (hs : 0 ≤ s)
    (hr : ∀ t < sys.n, rs.getD t 0 = 0 ∨ (sys.cfg.eps ≤ rs.getD t 0 ∧ 0 ≤ rs.getD t 0 ∧ rs.getD t 0 ≤ s)) : (ratesPlan rs s 1).Allows sys f where
  sensible := ⟨⟨fun y hy => by (rw [hq] at hy; cases hy), hb⟩, fun t _ => by simp [FlowData.lowRel, FlowData.highRel, hf.low, hf.high, hf.profile, Num.at],
    fun r hr => by rw [hq] at hr; cases hr; exact ⟨hz, hn, hm⟩⟩
  follows := by
    unfold FlowPlan.capacity
    rw [hq]
    exact follows_easy hf hr hs
  invests := fun r hr => by
    rw [hq] at hr; cases hr
    refine ⟨hd, fun _ => rfl, ⟨by simp [InvestParams.segEffects, hseg], fun xs es h => by rw [hseg] at h; cases h⟩, fun _ h => by simp [ratesPlan] at h,
      fun g hg => by rw [hf.profile] at hg; cases hg⟩

theorem exSys_rates {rs : List ℚ} {S : ℚ} (h : ((List.range 3).all fun t => decide (rs.getD t 0 = 0 ∨ (exCfg.eps ≤ rs.getD t 0 ∧ 0 ≤ rs.getD t 0 ∧ rs.getD t 0 ≤ S))) = true) :
    ∀ t < exSys.n, rs.getD t 0 = 0 ∨ (exSys.cfg.eps ≤ rs.getD t 0 ∧ 0 ≤ rs.getD t 0 ∧ rs.getD t 0 ≤ S) := fun t ht =>
  of_decide_eq_true (List.all_eq_true.1 h t (List.mem_range.2 ht))

theorem exSys_big : 0 < exSys.cfg.big ∧ exSys.prevDt.Nonneg := ⟨by simp [exSys, exCfg], by simp [exSys, Num.Nonneg]⟩

/-- Runs in the first and the third step. -/
def exCompPlan : CompPlan :=
  { flow := fun l => if l = "in" then ratesPlan [10, 0, 5] else ratesPlan [4, 0, 0], on := fun t => if t = 1 then 0 else 1 }

theorem exCompPlan_allows : exCompPlan.Allows exSys exComp where
  flows := by
    intro f hf
    simp only [exComp, List.cons_append, List.nil_append, List.mem_cons, List.not_mem_nil, or_false] at hf
    rcases hf with rfl | rfl
    · exact allows_easy (x := 10) ⟨rfl, rfl, rfl, ⟨rfl, rfl, rfl, rfl⟩, rfl, .inr rfl⟩ rfl (by norm_num) exSys_big.1.le (exSys_rates (by decide +kernel))
    · exact allows_easy (x := 8) ⟨rfl, rfl, rfl, ⟨rfl, rfl, rfl, rfl⟩, rfl, .inr rfl⟩ rfl (by norm_num) exSys_big.1.le (exSys_rates (by decide +kernel))
  runs := {
    schedule := by
      rintro q hq
      have hq : { onHoursTotalMin := some 2 } = q := Option.some.inj hq
      subst hq
      refine ⟨?_, ?_, [0], 0, rfl, rfl, ?_⟩
      · constructor <;> simp
      · intro m hm; simp at hm
      · refine ⟨?_, ?_, by simp, by simp, fun _ _ => ⟨by simp, by simp, by simp⟩, fun _ _ => ⟨by simp, by simp, by simp⟩⟩
        · intro t _; simp only [exCompPlan]; split <;> simp
        · intro m hm
          cases hm
          rw [← sum_onSteps (fun t _ => by simp only [exCompPlan]; split <;> simp)]
          simp [exSys, exCompPlan, Finset.sum_range_succ, Sys.width]
    state := by
      intro _ t ht
      simp only [exSys] at ht
      interval_cases t <;> simp [exCompPlan, exComp, ratesPlan, exSys, exCfg] <;> norm_num
    exclusive := by simp [exComp] }

/-- A component that is on in the first and the third step. -/
example : ∃ o τ, compModel exSys exComp = .ok o ∧ o.tree.Solves τ ∧ τ "c__in_flow_rate" 2 = 5 ∧ τ "c__OnOff_on" 2 = 1 := by
  obtain ⟨o, h, hh⟩ := of_okB (p := fun o : CompOut => decide o.tree.labels.Nodup) (r := compModel exSys exComp) (by decide +kernel)
  obtain ⟨τ, h1, h2⟩ := C82_plain_partial exSys_valid (fun f hf => by
    simp only [exComp, List.cons_append, List.nil_append, List.mem_cons, List.not_mem_nil, or_false] at hf
    rcases hf with rfl | rfl <;> exact ⟨fits_s _ _, fits_s _ _, by simp, by simp⟩) h exSys_big.2 (of_decide_eq_true hh) exCompPlan_allows
  refine ⟨o, τ, h, h1, ?_, ?_⟩
  · have := congrFun (h2.rate { label := "in", size := .num 10 } (by simp [exComp])) 2
    rw [show rateL exComp.label "in" = "c__in_flow_rate" by decide +kernel] at this
    rw [this]; simp [exCompPlan, ratesPlan]
  · have := congrFun (h2.on (by simp [exComp])) 2
    rw [show stateL exComp.label = "c__OnOff_on" by decide +kernel] at this
    rw [this]; simp [exCompPlan]

/-- The factor-weighted sum over the planned rates of one side. -/
def CompPlan.side (p : CompPlan) (flows : List FlowData) (fs : Factors) (t : Nat) : ℚ :=
  (flows.map fun f => (((fs.get f.label).map fun φ => φ.at t).getD 0) * (p.flow f.label).r t).sum

/-- **C82 (converters with conversion factors).** -/
theorem C82_factors_partial (hv : sys.Valid) {c : ConvData} {o : CompOut} (hfit : ∀ f ∈ c.comp.inputs ++ c.comp.outputs, f.Fits sys.n)
    (h : converterModel sys c = .ok o) (hpd : sys.prevDt.Nonneg) (hnd : o.tree.labels.Nodup) (hne : c.factors ≠ [])
    (hf : ∀ fs ∈ c.factors, ∀ q ∈ fs, q.2.Fits sys.n) {p : CompPlan} (hp : p.Allows sys c.comp)
    (hc : ∀ fs ∈ c.factors, ∀ t < sys.n, p.side c.comp.inputs fs t = p.side c.comp.outputs fs t) :
    ∃ τ : Assignment, o.tree.Solves τ ∧ p.Realized c.comp τ := by
  obtain ⟨o0, h0, hiff⟩ := C30_exact h hne hf
  have hl : o.tree.labels = o0.tree.labels := by
    unfold converterModel at h
    rw [h0, ok_bind, if_pos (by simpa using hne)] at h
    simp only [except_pure, Except.ok.injEq] at h
    subst h
    rw [CompOut.tree, CompOut.tree, labels_node, labels_node]
  obtain ⟨τ, t1, t2, _⟩ := comp_complete hv hfit h0 hpd (hl ▸ hnd) (allows_ok hv hp) (fun _ _ => 0)
  refine ⟨τ, (hiff τ).2 ⟨t1, fun fs hfs t ht => ?_⟩, t2⟩
  have side : ∀ l : List FlowData, (∀ f ∈ l, f ∈ c.comp.inputs ++ c.comp.outputs) → convSide τ c.comp.label l fs t = p.side l fs t := by
    intro l hl
    unfold convSide CompPlan.side
    rw [List.map_congr_left fun f hf => by rw [t2.rate f (hl f hf)]]
  rw [side _ (fun f hf => by simp [hf]), side _ (fun f hf => by simp [hf])]
  exact hc fs hfs t ht

def exBoilerConv : ConvData :=
  { comp := { label := "Boiler", inputs := [{ label := "fu", size := .num 50 }], outputs := [{ label := "th", size := .invest { minimumSize := 2, maximumSize := some 20 } }] },
    factors := [[("fu", .v [1 / 2, 1 / 2, 1 / 4]), ("th", .s 1)]] }

def exBoilerPlan : CompPlan := { flow := fun l => if l = "fu" then ratesPlan [20, 8, 0] else ratesPlan [10, 4, 0] 10 1, on := fun _ => 0 }

theorem exBoilerPlan_allows : exBoilerPlan.Allows exSys exBoilerConv.comp where
  flows := by
    intro f hf
    simp only [exBoilerConv, List.cons_append, List.nil_append, List.mem_cons, List.not_mem_nil, or_false] at hf
    rcases hf with rfl | rfl
    · exact allows_easy (x := 50) ⟨rfl, rfl, rfl, ⟨rfl, rfl, rfl, rfl⟩, rfl, .inl rfl⟩ rfl (by norm_num) exSys_big.1.le (exSys_rates (by decide +kernel))
    · refine allows_built (s := 10) ⟨rfl, rfl, rfl, ⟨rfl, rfl, rfl, rfl⟩, rfl, .inl rfl⟩ rfl exSys_big.1.le ?_ ?_ (by norm_num) rfl ?_ (by norm_num) (exSys_rates (by decide +kernel))
      · constructor <;> simp
      · simp [InvestParams.NonnegSizes, exSys, exCfg]
      · right; exact ⟨fun _ => rfl, by simp [SizeIn, exSys, exCfg]; norm_num⟩
  runs := ⟨by simp [exBoilerConv], by simp [exBoilerConv], by simp [exBoilerConv]⟩

/-- A boiler of decided size. -/
example : ∃ o τ, converterModel exSys exBoilerConv = .ok o ∧ o.tree.Solves τ ∧ τ "Boiler__th_flow_rate" 1 = 4 ∧ τ "Boiler__th__Investment_size" 0 = 10 := by
  obtain ⟨o, h, hh⟩ := of_okB (p := fun o : CompOut => decide o.tree.labels.Nodup) (r := converterModel exSys exBoilerConv) (by decide +kernel)
  obtain ⟨τ, h1, h2⟩ := C82_factors_partial exSys_valid (fun f hf => by
    simp only [exBoilerConv, List.cons_append, List.nil_append, List.mem_cons, List.not_mem_nil, or_false] at hf
    rcases hf with rfl | rfl <;> exact ⟨fits_s _ _, fits_s _ _, by simp, by simp⟩) h exSys_big.2 (of_decide_eq_true hh) (by simp [exBoilerConv])
    (by
      intro fs hfs q hq
      simp only [exBoilerConv, List.mem_singleton] at hfs
      subst hfs
      simp only [List.mem_cons, List.not_mem_nil, or_false] at hq
      rcases hq with rfl | rfl <;> simp [Num.Fits, Num.len, Num.isScalar, exSys]) exBoilerPlan_allows (by
      intro fs hfs t ht
      simp only [exBoilerConv, List.mem_singleton] at hfs
      subst hfs
      simp only [exSys] at ht
      interval_cases t <;> simp [CompPlan.side, exBoilerConv, Factors.get, Num.at, exBoilerPlan, ratesPlan] <;> norm_num)
  refine ⟨o, τ, h, h1, ?_, ?_⟩
  · have := congrFun (h2.rate _ (List.mem_append_right _ (List.mem_singleton.2 rfl))) 1
    rw [show rateL exBoilerConv.comp.label "th" = "Boiler__th_flow_rate" by decide +kernel] at this
    rw [this]; simp [exBoilerPlan, ratesPlan]
  · have := h2.size _ (List.mem_append_right _ (List.mem_singleton.2 rfl)) _ rfl
    rw [show sizeL (flowFull exBoilerConv.comp.label "th") = "Boiler__th__Investment_size" by decide +kernel] at this
    rw [this]; simp [exBoilerPlan, ratesPlan]

theorem segL_last (el : String) (i : Nat) (k : String) :
    (segL el i k).toList.getLast? = k.toList.getLast?.or (el ++ "__" ++ "Segment_" ++ toString i ++ "_").toList.getLast? := by
  rw [segL, String.toList_append, List.getLast?_append]

theorem rate_not_seg (c f el : String) (nr : Nat) : rateL c f ∉ segLabels el nr := by
  intro h
  obtain ⟨i, _, k, hk, he⟩ := mem_segLabels.1 h
  have e := congrArg (fun z : String => z.toList.getLast?) he
  have hr : (rateL c f).toList.getLast? = some 'e' := by
    unfold rateL
    rw [String.toList_append, List.getLast?_append]
    rfl
  simp only [hr, segL_last] at e
  simp only [segNames, List.mem_cons, List.not_mem_nil, or_false] at hk
  rcases hk with rfl | rfl | rfl <;> exact absurd e (by simp)

theorem state_not_seg (c el : String) (nr : Nat) : stateL c ∉ segLabels el nr := by
  intro h
  obtain ⟨i, _, k, hk, he⟩ := mem_segLabels.1 h
  have e := congrArg (fun z : String => z.toList.getLast?) he
  have hr : (stateL c).toList.getLast? = some 'n' := by
    unfold stateL
    rw [String.toList_append, List.getLast?_append]
    rfl
  simp only [hr, segL_last] at e
  simp only [segNames, List.mem_cons, List.not_mem_nil, or_false] at hk
  rcases hk with rfl | rfl | rfl <;> exact absurd e (by simp)

/-- All flows are on the same segment at the same position: `segs` gives the segments of each flow by label. -/
def CompPlan.OnCurve (p : CompPlan) (flows : List FlowData) (segs : List (String × List (Num × Num))) (t : Nat) : Prop :=
  ∃ (i : Nat) (u : ℚ), 0 ≤ u ∧ u ≤ 1 ∧ ∀ f ∈ flows, ∀ r, segs.find? (fun r => r.1 == f.label) = some r →
    ∃ a b, r.2[i]? = some (a, b) ∧ (p.flow f.label).r t = (1 - u) * a.at t + u * b.at t

/-- **C82 (converters with segments).** -/
theorem C82_segments_partial (hv : sys.Valid) (hn : sys.n ≠ 0) {c : ConvData} {o : CompOut} (hfit : ∀ f ∈ c.comp.inputs ++ c.comp.outputs, f.Fits sys.n)
    (h : converterModel sys c = .ok o) (hpd : sys.prevDt.Nonneg) (hnd : o.tree.labels.Nodup) (hne : c.factors = [])
    (hf : ∀ r ∈ c.segments, ∀ q ∈ r.2, q.1.Fits sys.n ∧ q.2.Fits sys.n) {p : CompPlan} (hp : p.Allows sys c.comp)
    (hc : ∀ t < sys.n, (c.comp.onOff ≠ none ∧ p.on t = 0) ∨ p.OnCurve (c.comp.inputs ++ c.comp.outputs) c.segments t) :
    ∃ τ : Assignment, o.tree.Solves τ ∧ p.Realized c.comp τ := by
  have h' := h
  unfold converterModel at h'
  peel h' with o0, h0
  rw [if_neg (by simp [hne])] at h'
  peel h' with pts, hpts
  peel h' with tree, htree
  simp only [except_pure, Except.ok.injEq] at h'
  subst h'
  have hl : ({ o0 with subs := o0.subs ++ [tree] } : CompOut).tree.labels = o0.tree.labels ++ tree.labels := by
    rw [CompOut.tree, CompOut.tree, labels_node, labels_node]
    simp [List.flatMap_append]
  rw [hl, List.nodup_append] at hnd
  obtain ⟨σ, t1, t2, _⟩ := comp_complete hv hfit h0 hpd hnd.1 (allows_ok hv hp) (fun _ _ => 0)
  have hpo := segmentPoints_ok h0 hpts
  have hrefs := comp_refs h0 (vars_hasVar o0.tree)
  have hon := (comp_inv h0).2.2.1
  have honL : ∀ oo, o0.on = some oo → c.comp.onOff ≠ none ∧ oo.on.label = stateL c.comp.label ∧ oo.on.length = sys.n := by
    intro oo hoo
    unfold compOnOff at hon
    cases hq : c.comp.onOff with
    | none => rw [hq, hoo] at hon; simp at hon
    | some q =>
      rw [hq] at hon
      obtain ⟨oo', hm, he⟩ := map_ok.1 hon
      rw [hoo] at he
      cases he
      exact ⟨by simp, (onOff_on_length hm).2.1, (onOff_on_length hm).1⟩
  have hsome : c.comp.onOff ≠ none → ∃ oo, o0.on = some oo := by
    intro hq
    unfold compOnOff at hon
    obtain ⟨q, hq⟩ := Option.ne_none_iff_exists'.1 hq
    rw [hq] at hon
    obtain ⟨oo', hm, he⟩ := map_ok.1 hon
    exact ⟨oo', he.symm⟩
  have hptsP : ∀ q ∈ pts, ∃ f ∈ c.comp.inputs ++ c.comp.outputs, q.1.label = rateL c.comp.label f.label ∧ q.1.length = sys.n ∧
      ∃ r ∈ c.segments, c.segments.find? (fun r => r.1 == f.label) = some r ∧ q.2 = r.2 := by
    intro q hq
    obtain ⟨f, hf, a, b, r, d, e⟩ := forall₂_mem_right hpo hq
    exact ⟨f, hf, a, b, r, List.mem_of_find?_eq_some d, d, e⟩
  obtain ⟨τ, s1, nr, s2⟩ := C20_complete (L := sys.n) (σ := σ) (fun q hq => (hptsP q hq).choose_spec.2.2.1) (by
      intro q hq s hs
      obtain ⟨f, _, _, _, r, hr, _, e⟩ := hptsP q hq
      exact hf r hr s (e ▸ hs)) hn (by
      intro x hx
      cases hoo : o0.on with
      | none => rw [hoo] at hx; cases hx
      | some oo => rw [hoo] at hx; cases hx; exact (honL oo hoo).2.2) htree (by
      intro q hq nr
      obtain ⟨f, _, e, _⟩ := hptsP q hq
      rw [e]
      exact rate_not_seg _ _ _ _) (by
      intro x hx nr
      cases hoo : o0.on with
      | none => rw [hoo] at hx; cases hx
      | some oo => rw [hoo] at hx; cases hx; rw [(honL oo hoo).2.1]; exact state_not_seg _ _ _) (by
      intro t ht
      have hcurve : p.OnCurve (c.comp.inputs ++ c.comp.outputs) c.segments t → ∃ i, (∀ q ∈ pts, i < q.2.length) ∧ OnSegment pts (fun x => σ x.label t) t i := by
        rintro ⟨i, u, u0, u1, hu⟩
        have each : ∀ q ∈ pts, ∃ seg, q.2[i]? = some seg ∧ σ q.1.label t = between seg u t := by
          intro q hq
          obtain ⟨f, hf, e1, _, r, _, hr, e2⟩ := hptsP q hq
          obtain ⟨a, b, hab, hv'⟩ := hu f hf r hr
          refine ⟨(a, b), by rw [e2]; exact hab, ?_⟩
          rw [e1, t2.rate f hf, hv']
          rfl
        refine ⟨i, fun q hq => ?_, u, u0, u1, each⟩
        obtain ⟨seg, hseg, _⟩ := each q hq
        exact (List.getElem?_eq_some_iff.1 hseg).1
      by_cases hq : c.comp.onOff = none
      · right
        have hno : o0.on = none := by
          cases hoo : o0.on with
          | none => rfl
          | some oo => exact absurd hq (honL oo hoo).1
        rw [hno]
        refine ⟨rfl, hcurve ?_⟩
        rcases hc t ht with ⟨h1, _⟩ | h1
        · exact absurd hq h1
        · exact h1
      · obtain ⟨oo, hoo⟩ := hsome hq
        rw [hoo]
        have hsw : segmentSwitch σ c.comp.label (.use oo.on) t = p.on t := by
          show σ oo.on.label t = _
          rw [(honL oo hoo).2.1, t2.on hq]
        simp only [hsw]
        rcases hp.runs.state hq t ht with ⟨h1, h2⟩ | ⟨h1, _⟩
        · refine .inl ⟨h1, fun q hq => ?_⟩
          obtain ⟨f, hf, e1, _⟩ := hptsP q hq
          rw [e1, t2.rate f hf, h2 f hf]
        · refine .inr ⟨h1, hcurve ?_⟩
          rcases hc t ht with ⟨_, h0⟩ | h0
          · rw [h1] at h0; norm_num at h0
          · exact h0)
  -- put together
  have hag : ∀ l ∈ o0.tree.labels, (fun l => if l ∈ tree.labels then τ l else σ l) l = σ l := by
    intro l hl
    have : l ∉ tree.labels := fun hm => hnd.2.2 l hl l hm rfl
    simp [this]
  obtain ⟨g1, g2⟩ := comp_agree h0 hag
  refine ⟨_, ?_, g2 p t2⟩
  obtain ⟨o0', pts', tree', k0, k1, k2, _, _, _, _, hiff⟩ := converter_segments h hne
  rw [h0] at k0
  cases k0
  rw [hpts] at k1
  cases k1
  cases Except.ok.inj (k2.symm.trans htree)
  refine (hiff _).2 ⟨g1 t1, ?_⟩
  have hr : tree.Refs (fun x => tree.HasVar x ∨ (x.label ∉ segLabels c.comp.label nr ∧ x.label ∈ o0.tree.labels)) := by
    refine multiple_refs htree (fun m hm x hx => .inl (vars_hasVar _ m hm x hx)) ?_ ?_
    · intro q hq
      obtain ⟨f, hf, e, _⟩ := hptsP q hq
      right
      rw [e]
      refine ⟨rate_not_seg _ _ _ _, ?_⟩
      obtain ⟨r1, r2, _⟩ := comp_inv h0
      obtain ⟨q', hq', _, hm⟩ := forall₂_mem_left (List.rel_append r1 r2) hf
      have hl : q'.2.flowRate.label = rateL c.comp.label f.label := by
        rw [(flowRate_ok (flow_inv hm).1).1]; rfl
      rw [← hl]
      exact hasVar_labels (hrefs.2.2.2.1 q' hq').1
    · intro x hx
      cases hoo : o0.on with
      | none => rw [hoo] at hx; cases hx
      | some oo =>
        rw [hoo] at hx
        cases hx
        right
        refine ⟨?_, hasVar_labels (hrefs.2.2.2.2 oo hoo)⟩
        rw [(honL oo hoo).2.1]
        exact state_not_seg _ _ _
  refine solves_congr (fun m hm x hx => .inl (vars_hasVar _ m hm x hx)) hr ?_ s1
  rintro x (hx | ⟨hx, hx'⟩)
  · simp [hasVar_labels hx]
  · exact (s2 _ hx).trans (hag _ hx').symm

/-- A converter that runs in two ranges, off in the last step. -/
def exRanges : ConvData :=
  { comp := { label := "cv", inputs := [{ label := "f", size := .num 50 }], outputs := [{ label := "q", size := .num 50 }], onOff := some {} },
    segments := [("f", [(.s 2, .s 4), (.s 8, .v [10, 20, 20])]), ("q", [(.s 1, .s 3), (.s 6, .s 8)])] }

def exRangesPlan : CompPlan :=
  { flow := fun l => if l = "f" then ratesPlan [3, 20, 0] else ratesPlan [2, 8, 0], on := fun t => if t = 2 then 0 else 1 }

theorem exRangesPlan_allows : exRangesPlan.Allows exSys exRanges.comp where
  flows := by
    intro f hf
    simp only [exRanges, List.cons_append, List.nil_append, List.mem_cons, List.not_mem_nil, or_false] at hf
    rcases hf with rfl | rfl <;>
    exact allows_easy (x := 50) ⟨rfl, rfl, rfl, ⟨rfl, rfl, rfl, rfl⟩, rfl, .inr rfl⟩ rfl (by norm_num) exSys_big.1.le (exSys_rates (by decide +kernel))
  runs := {
    schedule := by
      rintro q hq
      have hq : {} = q := Option.some.inj hq
      subst hq
      refine ⟨by constructor <;> simp, fun m hm => by simp at hm, [0], 0, rfl, rfl, schedule_free fun t _ => ?_⟩
      simp only [exRangesPlan]; split <;> simp
    state := by
      intro _ t ht
      simp only [exSys] at ht
      interval_cases t <;> simp [exRangesPlan, exRanges, ratesPlan, exSys, exCfg] <;> norm_num
    exclusive := by simp [exRanges] }

example : ∃ o τ, converterModel exSys exRanges = .ok o ∧ o.tree.Solves τ ∧ τ "cv__f_flow_rate" 0 = 3 ∧ τ "cv__q_flow_rate" 0 = 2 := by
  obtain ⟨o, h, hh⟩ := of_okB (p := fun o : CompOut => decide o.tree.labels.Nodup) (r := converterModel exSys exRanges) (by decide +kernel)
  obtain ⟨τ, h1, h2⟩ := C82_segments_partial exSys_valid (by decide) (fun f hf => by
    simp only [exRanges, List.cons_append, List.nil_append, List.mem_cons, List.not_mem_nil, or_false] at hf
    rcases hf with rfl | rfl <;> exact ⟨fits_s _ _, fits_s _ _, by simp, by simp⟩) h exSys_big.2 (of_decide_eq_true hh) rfl
    (by
      intro r hr q hq
      simp only [exRanges, List.mem_cons, List.not_mem_nil, or_false] at hr
      rcases hr with rfl | rfl <;> simp only [List.mem_cons, List.not_mem_nil, or_false] at hq <;>
        rcases hq with rfl | rfl <;> simp [Num.Fits, Num.len, Num.isScalar, exSys]) exRangesPlan_allows (by
      intro t ht
      simp only [exSys] at ht
      interval_cases t
      · right
        refine ⟨0, 1 / 2, by norm_num, by norm_num, fun f hf r hr => ?_⟩
        simp only [exRanges, List.cons_append, List.nil_append, List.mem_cons, List.not_mem_nil, or_false] at hf
        rcases hf with rfl | rfl
        · cases hr; exact ⟨_, _, rfl, by simp [exRangesPlan, ratesPlan, Num.at]; norm_num⟩
        · cases hr; exact ⟨_, _, rfl, by simp [exRangesPlan, ratesPlan, Num.at]; norm_num⟩
      · right
        refine ⟨1, 1, by norm_num, by norm_num, fun f hf r hr => ?_⟩
        simp only [exRanges, List.cons_append, List.nil_append, List.mem_cons, List.not_mem_nil, or_false] at hf
        rcases hf with rfl | rfl
        · cases hr; exact ⟨_, _, rfl, by simp [exRangesPlan, ratesPlan, Num.at]⟩
        · cases hr; exact ⟨_, _, rfl, by simp [exRangesPlan, ratesPlan, Num.at]⟩
      · left; simp [exRanges, exRangesPlan])
  refine ⟨o, τ, h, h1, ?_, ?_⟩
  · have := congrFun (h2.rate _ (List.mem_append_left _ (List.mem_singleton.2 rfl))) 0
    rw [show rateL exRanges.comp.label "f" = "cv__f_flow_rate" by decide +kernel] at this
    rw [this]; simp [exRangesPlan, ratesPlan]
  · have := congrFun (h2.rate _ (List.mem_append_right _ (List.mem_singleton.2 rfl))) 0
    rw [show rateL exRanges.comp.label "q" = "cv__q_flow_rate" by decide +kernel] at this
    rw [this]; simp [exRangesPlan, ratesPlan]

/-! ## Storages -/

/-- A plan for a storage: flows, content, capacity, decision and the values of effects in segments. -/
structure StoragePlan where
  flows : CompPlan
  content : Nat → ℚ
  size : ℚ
  built : ℚ
  val : String → ℚ

/-- The capacity: as given or as decided. -/
def StoragePlan.capacity (s : StorageData) (p : StoragePlan) : ℚ :=
  match s.capacity with
  | .num x => x
  | .invest _ => p.size

/-- The plan respects everything declared for the storage; `declined` is the condition that the code adds (C81). -/
structure StoragePlan.Allows (sys : Sys) (s : StorageData) (p : StoragePlan) : Prop where
  flows : p.flows.Allows sys s.comp
  content : ∀ t ≤ sys.n, s.relMinCharge.at t * p.capacity s ≤ p.content t ∧ p.content t ≤ s.relMaxCharge.at t * p.capacity s
  balance : ∀ t < sys.n, p.content (t + 1) = p.content t * (1 - s.relLoss.at t * sys.width t) +
    ((p.flows.flow s.charging.label).r t * s.etaCharge.at t * sys.width t - (p.flows.flow s.discharging.label).r t * sys.width t / s.etaDischarge.at t)
  ends : EndRows s sys.n p.content
  rel : ∀ t ≤ sys.n, 0 ≤ s.relMinCharge.at t ∧ 0 ≤ s.relMaxCharge.at t
  decided : ∀ q, s.capacity = .invest q → q.NoZero ∧ q.NonnegSizes sys.cfg ∧ Decided sys.cfg q p.size p.built ∧ (q.optional = false → p.built = 1) ∧
    q.segEffects.Nodup ∧ SegmentsAllow q p.size p.built p.val
  declined : ∀ q, s.capacity = .invest q → q.optional = true → p.built = 0 → ∀ t ≤ sys.n, s.relMinCharge.at t * q.fixedSize.getD q.minimumSize ≤ 0

theorem storage_bounds {s : StorageData} {p : StoragePlan} (hs : s.Fits sys.n) (hp : p.Allows sys s) :
    ∀ t < sys.n + 1, (s.absBounds sys.cfg).1.at t ≤ p.content t ∧ p.content t ≤ (s.absBounds sys.cfg).2.at t := by
  intro t ht
  obtain ⟨c1, c2⟩ := hp.content t (by omega)
  obtain ⟨r1, r2⟩ := hp.rel t (by omega)
  unfold StoragePlan.capacity at c1 c2
  cases hc : s.capacity with
  | num x =>
    rw [hc] at c1 c2
    simp only [StorageData.absBounds, hc, at_map hs.relMin ht, at_map hs.relMax ht]
    exact ⟨c1, c2⟩
  | invest q =>
    rw [hc] at c1 c2
    simp only at c1 c2
    obtain ⟨hz, hn, hd, _⟩ := hp.decided q hc
    obtain ⟨hup, hlow⟩ := decided_size hn hz hd
    simp only [StorageData.absBounds, hc, at_map hs.relMin ht, at_map hs.relMax ht, minSize_eq hz]
    refine ⟨?_, le_trans c2 (mul_le_mul_of_nonneg_left hup r2)⟩
    rcases hlow with ⟨o1, o2, o3⟩ | hlow
    · rw [o3, mul_zero] at c1
      exact le_trans (hp.declined q hc o1 o2 t (by omega)) c1
    · exact le_trans (mul_le_mul_of_nonneg_left hlow r1) c1

/-- **C82 (storages).** -/
theorem C82_storage_partial (hv : sys.Valid) {s : StorageData} {o : StorageOut} (hfit : s.charging.Fits sys.n ∧ s.discharging.Fits sys.n) (hs : s.Fits sys.n)
    (h : storageModel sys s = .ok o) (hpd : sys.prevDt.Nonneg) (hnd : o.comp.tree.labels.Nodup) {p : StoragePlan} (hp : p.Allows sys s) :
    ∃ τ : Assignment, o.comp.tree.Solves τ ∧ p.flows.Realized s.comp τ ∧ τ (chargeStateL s.label) = p.content ∧
      ∀ q, s.capacity = .invest q → τ (capacityL s.label) 0 = p.size ∧ (q.optional = true → τ (builtL s.label) 0 = p.built) ∧
        ∀ e ∈ q.segEffects, τ (segShareL s.label e) 0 = p.val e := by
  obtain ⟨o0, h0, _, _, l1, l2, _, _, l3, l3', l4, hinv, _, _, hiff⟩ := storage_iff hv hs h
  have hl : o.comp.tree.labels = [o.chargeState.label, o.nettoDischarge.label] ++ (o0.tree.labels ++ (o.invest.map InvestOut.tree).toList.flatMap MTree.labels) := by
    have h' := h
    unfold storageModel at h'
    rw [h0, ok_bind] at h'
    peel h' with ab, hab
    obtain ⟨a, b⟩ := ab
    simp only at h'
    peel h' with c, hc
    peel h' with nd, hndv
    peel h' with cCharge, hcc
    peel h' with inv, hinv'
    peel h' with cIF, hif
    simp only [except_pure, Except.ok.injEq] at h'
    subst h'
    have hv0 : o0.vars = [] := by
      obtain ⟨_, _, _, _, _, e1, _⟩ := comp_inv h0
      exact e1
    rw [CompOut.tree, CompOut.tree, labels_node, labels_node]
    simp [List.flatMap_append, hv0]
  rw [hl, List.nodup_append, List.nodup_append] at hnd
  obtain ⟨hcn, ⟨hnd0, _, hdis⟩, hown⟩ := hnd
  have hne : o.chargeState.label ≠ o.nettoDischarge.label := by
    intro he
    rw [he] at hcn
    simp at hcn
  have hfit' : ∀ f ∈ s.comp.inputs ++ s.comp.outputs, f.Fits sys.n := by
    intro f hf
    simp only [StorageData.comp, List.cons_append, List.nil_append, List.mem_cons, List.not_mem_nil, or_false] at hf
    rcases hf with rfl | rfl
    · exact hfit.1
    · exact hfit.2
  obtain ⟨σ0, t1, t2, _⟩ := comp_complete hv hfit' h0 hpd hnd0 (allows_ok hv hp.flows) (fun _ _ => 0)
  have hrch : σ0 (rateL s.label s.charging.label) = (p.flows.flow s.charging.label).r := t2.rate s.charging (by simp [StorageData.comp])
  have hrdi : σ0 (rateL s.label s.discharging.label) = (p.flows.flow s.discharging.label).r := t2.rate s.discharging (by simp [StorageData.comp])
  have hrateIn : ∀ f ∈ s.comp.inputs ++ s.comp.outputs, rateL s.label f.label ∈ o0.tree.labels := by
    intro f hf
    obtain ⟨r1, r2, _⟩ := comp_inv h0
    obtain ⟨q', hq', _, hm⟩ := forall₂_mem_left (List.rel_append r1 r2) hf
    have hl : q'.2.flowRate.label = rateL s.label f.label := by
      rw [(flowRate_ok (flow_inv hm).1).1]; rfl
    rw [← hl]
    exact hasVar_labels ((comp_refs h0 (vars_hasVar o0.tree)).2.2.2.1 q' hq').1
  -- content and net discharge
  let σ1 : Assignment := fun l => if l = o.chargeState.label then p.content else if l = o.nettoDischarge.label then
    (fun t => (p.flows.flow s.discharging.label).r t - (p.flows.flow s.charging.label).r t) else σ0 l
  have a0 : ∀ l ∈ o0.tree.labels, σ1 l = σ0 l := by
    intro l hl
    have e1 : l ≠ o.chargeState.label := fun he => hown o.chargeState.label (by simp) l (by simp [hl]) he.symm
    have e2 : l ≠ o.nettoDischarge.label := fun he => hown o.nettoDischarge.label (by simp) l (by simp [hl]) he.symm
    simp [σ1, e1, e2]
  have a1 : σ1 o.chargeState.label = p.content := by simp [σ1]
  have a2 : σ1 o.nettoDischarge.label = fun t => (p.flows.flow s.discharging.label).r t - (p.flows.flow s.charging.label).r t := by
    simp [σ1, hne.symm]
  have hb := storage_bounds hs hp
  have finish : ∀ τ : Assignment, (∀ l, l ∉ (o.invest.map InvestOut.tree).toList.flatMap MTree.labels → τ l = σ1 l) → (∀ iv, o.invest = some iv → iv.tree.Solves τ) →
      o.comp.tree.Solves τ ∧ p.flows.Realized s.comp τ ∧ τ (chargeStateL s.label) = p.content := by
    intro τ hτ hiv
    have b0 : ∀ l ∈ o0.tree.labels, τ l = σ0 l := fun l hl => (hτ l fun hm => hdis l hl l hm rfl).trans (a0 l hl)
    have b1 : τ o.chargeState.label = p.content := (hτ _ fun hm => hown o.chargeState.label (by simp) o.chargeState.label (List.mem_append_right _ hm) rfl).trans a1
    have b2 := (hτ _ fun hm => hown o.nettoDischarge.label (by simp) o.nettoDischarge.label (List.mem_append_right _ hm) rfl).trans a2
    obtain ⟨g1, g2⟩ := comp_agree h0 b0
    refine ⟨(hiff τ).2 ⟨g1 t1, ?_, hiv⟩, g2 _ t2, by rw [← b1, l3]; rfl⟩
    have c1 : τ o.charge.flowRate.label = (p.flows.flow s.charging.label).r := by
      rw [l1, b0 _ (hrateIn s.charging (by simp [StorageData.comp])), hrch]
    have c2 : τ o.discharge.flowRate.label = (p.flows.flow s.discharging.label).r := by
      rw [l2, b0 _ (hrateIn s.discharging (by simp [StorageData.comp])), hrdi]
    rw [b1, b2, c1, c2]
    refine ⟨fun t ht => (hb t ht).1, fun t ht => (hb t ht).2, fun _ _ => rfl, fun t ht => ?_, hp.ends⟩
    rw [hp.balance t ht]
    ring
  unfold storageInvest at hinv
  cases hc : s.capacity with
  | num x =>
    rw [hc] at hinv
    simp only [Except.ok.injEq] at hinv
    obtain ⟨f1, f2, f3⟩ := finish σ1 (fun _ _ => rfl) (by rw [← hinv]; simp)
    exact ⟨σ1, f1, f2, f3, fun q hq => by simp at hq⟩
  | invest q =>
    rw [hc] at hinv
    obtain ⟨iv, him, hie⟩ := map_ok.1 hinv
    obtain ⟨hz, hn, hd, hd1, hnod, hseg⟩ := hp.decided q hc
    obtain ⟨hil, _, hyes, hno, _⟩ := invest_iff l3' hs.relMin hs.relMax (by simp) (by simp) him
    have hcap : p.capacity s = p.size := by unfold StoragePlan.capacity; rw [hc]
    have hmap : (iv.isInvested.map fun _ _ => p.built) = if q.optional then some (fun _ : Nat => p.built) else none := by
      cases hopt : q.optional with
      | true => obtain ⟨i, hi, _⟩ := hyes hopt; rw [hi]; rfl
      | false => rw [hno hopt]; rfl
    obtain ⟨τ, v1, v2, v3, v4, v5⟩ := invest_complete l3' hs.relMin hs.relMax (by simp) (by simp) him hnod
      (by rw [l3]; exact own_not_invest (c := 'c') (by decide) (by decide)) (by simp) (s := p.size) (d := p.built) (val := p.val) hd1 hseg (σ := σ1) (by
        rw [hmap, a1, Option.map_none, investRows_iff hz hn hv.heps]
        refine ⟨hd, fun t ht => ?_⟩
        have := hp.content t (by omega)
        rw [hcap] at this
        exact this)
    have hlab : ∀ l, l ∈ (o.invest.map InvestOut.tree).toList.flatMap MTree.labels ↔ l ∈ iv.tree.labels := by
      rw [← hie]; simp
    obtain ⟨hrf, _, hsz⟩ := invest_refs him (P := fun x => iv.tree.HasVar x ∨ x = o.chargeState) (fun m hm x hx => .inl (vars_hasVar _ m hm x hx)) (.inr rfl) (by simp)
    have hcl : o.chargeState.label ∉ iv.tree.labels := fun hm => hown o.chargeState.label (by simp) o.chargeState.label
      (List.mem_append_right _ ((hlab _).2 hm)) rfl
    obtain ⟨f1, f2, f3⟩ := finish (fun l => if l ∈ iv.tree.labels then τ l else σ1 l) (fun l hl => if_neg fun hm => hl ((hlab l).2 hm)) (by
      intro iv' hiv'
      rw [← hie] at hiv'
      cases hiv'
      refine solves_congr (fun m hm x hx => .inl (vars_hasVar _ m hm x hx)) hrf ?_ v5
      rintro x (hx | rfl)
      · simp [hasVar_labels hx]
      · simp only [hcl, if_false]
        refine v1 _ ?_
        rw [l3]; exact own_not_invest (c := 'c') (by decide) (by decide))
    refine ⟨_, f1, f2, f3, fun q' hq' => ?_⟩
    cases hq'
    obtain ⟨_, _, _, _, _, _, hvars, _⟩ := invest_inv him
    have hmem : ∀ x ∈ iv.vars, x.label ∈ iv.tree.labels := fun x hx => by
      rw [InvestOut.tree, labels_node]
      exact List.mem_append_left _ (List.mem_map_of_mem hx)
    refine ⟨?_, ?_, ?_⟩
    · have : capacityL s.label ∈ iv.tree.labels := by
        rw [show capacityL s.label = iv.size.label from hil.symm]
        exact hmem _ (by rw [hvars]; simp)
      simp only [this, if_true]
      rw [← v2, hil]
      rfl
    · intro hopt
      obtain ⟨i, hi, hill, _⟩ := hyes hopt
      have : builtL s.label ∈ iv.tree.labels := by
        rw [show builtL s.label = i.label from hill.symm]
        exact hmem _ (by rw [hvars, hi]; simp)
      simp only [this, if_true]
      rw [← v3 i hi, hill]
      rfl
    · intro e he
      have : segShareL s.label e ∈ iv.tree.labels := hasVar_labels ((invest_decision_labels him).2 e he)
      simp only [this, if_true]
      exact v4 e he

/-- A storage of decided capacity that may not be charged and discharged at once. -/
def exTankC : StorageData :=
  { label := "st", charging := { label := "in", size := .num 100 }, discharging := { label := "out", size := .num 100 },
    capacity := .invest { maximumSize := some 60 }, initial := .num 10, maxFinal := some 5, etaCharge := .s (1 / 2), etaDischarge := .v [1 / 2, 1, 1 / 2],
    relLoss := .s (1 / 10) }

def exTankCPlan : StoragePlan :=
  { flows := { flow := fun l => if l = "in" then ratesPlan [22, 0, 0] else ratesPlan [0, 8, 2], on := fun _ => 0 },
    content := fun t => [10, 20, 10, 0].getD t 0, size := 30, built := 1, val := fun _ => 0 }

theorem exTankC_fits : exTankC.Fits exSys.n := by constructor <;> simp [exTankC, Num.Fits, Num.isScalar, Num.len, exSys]

theorem exTankCPlan_allows : exTankCPlan.Allows exSys exTankC where
  flows := {
    flows := by
      intro f hf
      simp only [StorageData.comp, exTankC, List.cons_append, List.nil_append, List.mem_cons, List.not_mem_nil, or_false] at hf
      rcases hf with rfl | rfl <;>
      exact allows_easy (x := 100) ⟨rfl, rfl, rfl, ⟨rfl, rfl, rfl, rfl⟩, rfl, .inr rfl⟩ rfl (by norm_num) exSys_big.1.le (exSys_rates (by decide +kernel))
    runs := ⟨by simp [StorageData.comp, exTankC], by simp [StorageData.comp, exTankC], by
      intro t ht
      simp only [exSys] at ht
      interval_cases t <;> simp [StorageData.comp, exTankC, exTankCPlan, ratesPlan]⟩ }
  content := by
    intro t ht
    simp only [exSys] at ht
    interval_cases t <;> simp [exTankC, exTankCPlan, StoragePlan.capacity, Num.at] <;> norm_num
  balance := by
    intro t ht
    simp only [exSys] at ht
    interval_cases t <;> simp [exTankC, exTankCPlan, Num.at, ratesPlan, Sys.width, exSys] <;> norm_num
  ends := by constructor <;> simp [exTankC, exTankCPlan, exSys]
  rel := by intro t _; simp [exTankC, Num.at]
  decided := by
    intro q hq
    have hq : ({ maximumSize := some 60 } : InvestParams) = q := Size.invest.inj hq
    subst hq
    refine ⟨by constructor <;> simp, by simp [InvestParams.NonnegSizes, exSys, exCfg], .inr ⟨fun _ => rfl, by simp [SizeIn, exSys, exCfg, exTankCPlan]; norm_num⟩, fun _ => rfl, by simp [InvestParams.segEffects], fun _ _ h => by cases h⟩
  declined := by intro q _ _ h; simp [exTankCPlan] at h

example : ∃ o τ, storageModel exSys exTankC = .ok o ∧ o.comp.tree.Solves τ ∧ τ "st_charge_state" 1 = 20 ∧ τ (capacityL exTankC.label) 0 = 30 := by
  obtain ⟨o, h, hh⟩ := of_okB (p := fun o : StorageOut => decide o.comp.tree.labels.Nodup) (r := storageModel exSys exTankC) (by decide +kernel)
  obtain ⟨τ, h1, _, h3, h4⟩ := C82_storage_partial exSys_valid ⟨⟨fits_s _ _, fits_s _ _, by simp [exTankC], by simp [exTankC]⟩, ⟨fits_s _ _, fits_s _ _, by simp [exTankC], by simp [exTankC]⟩⟩
    exTankC_fits h exSys_big.2 (of_decide_eq_true hh) exTankCPlan_allows
  refine ⟨o, τ, h, h1, ?_, (h4 _ rfl).1⟩
  rw [show chargeStateL exTankC.label = "st_charge_state" by decide +kernel] at h3
  rw [h3]; simp [exTankCPlan]

/-! ## Transmissions -/

/-- The transmission as a component without equations. -/
def TransData.plain (t : TransData) : CompData where
  label := t.label
  inputs := t.in1 :: t.in2.toList
  outputs := t.out1 :: t.out2.toList
  onOff := t.onOff
  prevent := match t.in2 with
    | some f => if t.preventBoth then [t.in1.label, f.label] else []
    | none => []

/-- Absolute losses need the state of the flow as well. -/
def TransData.stated (t : TransData) (f : FlowData) : FlowData :=
  t.plain.declared { f with onOff := f.onOff <|> if t.absLosses.any Num.anyNonzero then some {} else none }

/-- What arrives: nothing if nothing is sent, otherwise what is sent without the losses. -/
def TransData.Delivers (t : TransData) (n : Nat) (sent arrived : Nat → ℚ) : Prop :=
  ∀ k < n, (sent k = 0 ∧ arrived k = 0) ∨ (sent k ≠ 0 ∧ arrived k = sent k * (1 - t.relAt k) - t.absAt k)

/-- The second direction takes over the size `S` of the first one; as the code makes this an optional investment of its own, the size is
0 or at least the smallest positive number (`eps`). -/
structure FlowPlan.Shares (sys : Sys) (f : FlowData) (S : ℚ) (p : FlowPlan) : Prop where
  follows : p.Follows sys f S
  low : ∀ t < sys.n, 0 ≤ f.lowRel t ∧ f.lowRel t ≤ f.highRel t
  size : p.s = S
  decision : (S = 0 ∧ p.d = 0) ∨ (sys.cfg.eps ≤ S ∧ p.d = 1)
  profile : ∀ g, f.fixedProfile = some g → ∀ t < sys.n, p.r t = g.at t * S

/-- The plan respects everything declared for the transmission. -/
structure CompPlan.Transmits (sys : Sys) (t : TransData) (p : CompPlan) : Prop where
  in1 : (p.flow t.in1.label).Allows sys (t.stated t.in1)
  out1 : (p.flow t.out1.label).Allows sys (t.stated t.out1)
  out2 : ∀ f, t.out2 = some f → (p.flow f.label).Allows sys (t.stated f)
  in2 : ∀ f, t.in2 = some f → ((∀ q, t.in1.size ≠ .invest q) ∨ ∃ r, f.size = .invest r) → (p.flow f.label).Allows sys (t.stated f)
  same : ∀ f, t.in2 = some f → ∀ q, t.in1.size = .invest q → (p.flow f.label).s = (p.flow t.in1.label).s
  second : ∀ f, t.in2 = some f → ∀ q, t.in1.size = .invest q → (∀ r, f.size ≠ .invest r) → (p.flow f.label).Shares sys (t.stated f) (p.flow t.in1.label).s
  runs : p.Runs sys t.plain
  first_arrives : t.Delivers sys.n (p.flow t.in1.label).r (p.flow t.out1.label).r
  second_arrives : ∀ i o, t.in2 = some i → t.out2 = some o → t.Delivers sys.n (p.flow i.label).r (p.flow o.label).r

theorem fill_eq (t : TransData) (f : FlowData) :
    t.fill f = { f with onOff := f.onOff <|> if t.absLosses.any Num.anyNonzero then some {} else none } := by
  have keep : ∀ x : Option OnOffParams, x = f.onOff → f = { f with onOff := x } := by rintro _ rfl; rfl
  unfold TransData.fill
  cases ha : t.absLosses with
  | none => exact keep _ (by simp)
  | some a =>
    simp only [Option.any_some]
    by_cases hz : a.anyNonzero = true
    · cases ho : f.onOff with
      | none => simp [hz]
      | some q =>
        simp only [Option.isNone_some, Bool.and_false, Bool.false_eq_true, if_false]
        exact keep _ (by simp [ho])
    · rw [if_neg (by simp [hz]), if_neg hz]
      exact keep _ (by simp)

theorem declared_fill (cfg : Cfg) (t : TransData) (f : FlowData) : (t.comp cfg).declared (t.fill f) = t.stated f := by
  unfold TransData.stated
  rw [← fill_eq]
  rfl

theorem fill_keeps_size (t : TransData) (f : FlowData) : (t.fill f).size = f.size := by rw [fill_eq]
theorem fill_previous (t : TransData) (f : FlowData) : (t.fill f).previousFlowRate = f.previousFlowRate := by rw [fill_eq]

theorem fillIn2_previous (cfg : Cfg) (t : TransData) (f : FlowData) : (t.fillIn2 cfg f).previousFlowRate = f.previousFlowRate := by
  unfold TransData.fillIn2
  split <;> rfl

/-- The second direction: kept as it is, or with the size of the first one. -/
theorem fillIn2_keep {cfg : Cfg} {t : TransData} {f : FlowData} (h : (∀ q, t.in1.size ≠ .invest q) ∨ ∃ r, f.size = .invest r) : t.fillIn2 cfg f = f := by
  unfold TransData.fillIn2
  cases h1 : t.in1.size <;> cases h2 : f.size <;> simp_all

theorem fillIn2_new {cfg : Cfg} {t : TransData} {f : FlowData} {q : InvestParams} (hq : t.in1.size = .invest q) (h : ∀ r, f.size ≠ .invest r) :
    t.fillIn2 cfg f = { f with size := .invest { maximumSize := some (q.maxSize cfg) } } := by
  unfold TransData.fillIn2
  rw [hq]
  cases h2 : f.size <;> simp_all

/-- The size taken over from the first direction is accepted for the second one. -/
theorem shares_ok (hv : sys.Valid) (hbig : 0 < sys.cfg.big) {f : FlowData} {q : InvestParams} {p : FlowPlan} {S : ℚ} (hz : q.NoZero) (hn : q.NonnegSizes sys.cfg)
    (hS : S ≤ q.fixedSize.getD (q.maximumSize.getD sys.cfg.big)) (hp : p.Shares sys f S) :
    p.Ok sys { f with size := .invest { maximumSize := some (q.maxSize sys.cfg) } } := by
  have hm := maxSize_eq (cfg := sys.cfg) hz
  have hm0 := maxSize_nonneg hn
  have hmne : q.maxSize sys.cfg ≠ 0 := by
    rw [hm]
    intro h0
    cases hf : q.fixedSize with
    | some v => rw [hf] at h0; exact hz.1 (by rw [hf]; exact congrArg some h0)
    | none =>
      rw [hf] at h0
      cases hx : q.maximumSize with
      | some v => rw [hx] at h0; exact hz.2 (by rw [hx]; exact congrArg some h0)
      | none => rw [hx] at h0; exact hbig.ne' h0
  have hpd : p.s = S := hp.size
  refine plan_ok_invest hv (q := { maximumSize := some (q.maxSize sys.cfg) }) rfl ⟨⟨fun x hx => ?_, hbig.le⟩, hp.low, ?_⟩ ?_ ?_
  · simp at hx
  · intro q' hq'
    cases hq'
    exact ⟨⟨by simp, by simpa using hmne⟩, ⟨hbig.le, by simp, by simpa using hm0⟩, le_rfl⟩
  · rw [hpd]
    have h := hp.follows
    exact ⟨h.always, h.running, h.schedule, h.hmin, h.hmax, h.lmin, h.lmax⟩
  · refine ⟨?_, by simp, ⟨by simp [InvestParams.segEffects], fun _ _ h => by simp at h⟩, fun _ _ _ t _ => by simp, ?_⟩
    · rw [hpd]
      rcases hp.decision with ⟨h1, h2⟩ | ⟨h1, h2⟩
      · exact .inl ⟨rfl, h2, h1⟩
      · refine .inr ⟨fun _ => h2, ?_⟩
        show _ ∧ S ≤ q.maxSize sys.cfg
        refine ⟨?_, hm ▸ hS⟩
        simp only [if_true]
        exact max_le h1 (le_trans hv.heps.le h1)
    · rw [hpd]; exact hp.profile

/-- **C82 (transmissions).** -/
theorem C82_transmission_partial (hv : sys.Valid) (hbig : 0 < sys.cfg.big) {t : TransData} {o : TransOut} (hfit : ∀ f ∈ t.flows, f.Fits sys.n) (ht : t.Fits sys.n)
    (h : transmissionModel sys t = .ok o) (hpd : sys.prevDt.Nonneg) (hnd : o.comp.tree.labels.Nodup) {p : CompPlan} (hp : p.Transmits sys t) :
    ∃ τ : Assignment, o.comp.tree.Solves τ ∧ (∀ f ∈ t.flows, τ (rateL t.label f.label) = (p.flow f.label).r) ∧ p.Realized (t.comp sys.cfg) τ := by
  obtain ⟨o0, h0, _, _, _, _, ⟨_, k1⟩, ⟨_, k2⟩, k3, k3', k4, k4', ka, kb, hiff⟩ := trans_iff ht h
  have hl : o.comp.tree.labels = o0.tree.labels := by
    have h' := h
    unfold transmissionModel at h'
    rw [h0, ok_bind] at h'
    peel h' with q, hq
    obtain ⟨i1, i2, o1, o2⟩ := q
    simp only at h'
    peel h' with c1, h1
    peel h' with c2, h2
    simp only [except_pure, Except.ok.injEq] at h'
    subst h'
    rw [CompOut.tree, CompOut.tree, labels_node, labels_node]
  have hok : ∀ f ∈ (t.comp sys.cfg).inputs ++ (t.comp sys.cfg).outputs, (p.flow f.label).Ok sys ((t.comp sys.cfg).declared f) ∧
      ∀ k < sys.n, 0 ≤ (f.absBounds sys.cfg).2.at k := by
    have plain : ∀ g, (p.flow g.label).Allows sys (t.stated g) → (p.flow (t.fill g).label).Ok sys ((t.comp sys.cfg).declared (t.fill g)) ∧
        ∀ k < sys.n, 0 ≤ ((t.fill g).absBounds sys.cfg).2.at k := by
      intro g hg
      rw [declared_fill, fill_label]
      refine ⟨plan_ok hv hg, ?_⟩
      have := cap_nonneg hg.sensible
      rw [← declared_fill sys.cfg, ← declared_eq, fillOnOff_absBounds] at this
      exact this
    intro f hf
    simp only [TransData.comp, List.mem_append, List.mem_cons, Option.mem_toList, Option.map_eq_some_iff] at hf
    rcases hf with (rfl | ⟨g, hg, rfl⟩) | (rfl | ⟨g, hg, rfl⟩)
    · exact plain _ hp.in1
    · by_cases hc : (∀ q, t.in1.size ≠ .invest q) ∨ ∃ r, g.size = .invest r
      · rw [fillIn2_keep (by rw [fill_keeps_size]; exact hc)]
        exact plain _ (hp.in2 g hg hc)
      · simp only [not_or, not_forall, not_not, not_exists] at hc
        obtain ⟨⟨q, hq⟩, hr⟩ := hc
        have hsec := hp.second g hg q hq hr
        obtain ⟨hz, hn, hmin⟩ := hp.in1.sensible.invest q hq
        have hdec := (hp.in1.invests q hq).decided
        have hS := (decided_size hn hz hdec).1
        rw [maxSize_eq hz] at hS
        have hsize : ({ t.stated g with size := .invest { maximumSize := some (q.maxSize sys.cfg) } } : FlowData) =
            (t.comp sys.cfg).declared (t.fillIn2 sys.cfg (t.fill g)) := by
          rw [fillIn2_new hq (by rw [fill_keeps_size]; exact hr), ← declared_fill sys.cfg]
          rfl
        have := shares_ok hv hbig hz hn hS hsec
        rw [hsize] at this
        rw [fillIn2_label, fill_label]
        refine ⟨this, fun k hk => ?_⟩
        rw [fillIn2_new hq (by rw [fill_keeps_size]; exact hr)]
        rw [(absBounds_invest (sys := sys) (q := { maximumSize := some (q.maxSize sys.cfg) }) rfl k).2]
        have hlow := hsec.low k hk
        have h0 : 0 ≤ FlowData.highRel { t.fill g with size := .invest { maximumSize := some (q.maxSize sys.cfg) } } k := by
          rw [fill_eq]
          exact le_trans hlow.1 hlow.2
        exact mul_nonneg h0 (maxSize_nonneg ⟨hbig.le, by simp, by simpa using maxSize_nonneg hn⟩)
    · exact plain _ hp.out1
    · exact plain _ (hp.out2 g hg)
  have hmap : ∀ {α : Type} (F : String → Option Num → α), ((t.comp sys.cfg).inputs ++ (t.comp sys.cfg).outputs).map (fun f => F f.label f.previousFlowRate) =
      (t.plain.inputs ++ t.plain.outputs).map fun f => F f.label f.previousFlowRate := by
    intro α F
    cases h2 : t.in2 <;> cases h3 : t.out2 <;> simp [TransData.comp, TransData.plain, h2, h3, fill_label, fillIn2_label, fill_previous, fillIn2_previous]
  have hprev : ((t.comp sys.cfg).inputs ++ (t.comp sys.cfg).outputs).filterMap (·.previousFlowRate) = (t.plain.inputs ++ t.plain.outputs).filterMap (·.previousFlowRate) := by
    have := congrArg (List.filterMap id) (hmap fun _ x => x)
    rw [List.filterMap_map, List.filterMap_map] at this
    exact this
  have hlabs : ∀ f ∈ (t.comp sys.cfg).inputs ++ (t.comp sys.cfg).outputs, ∃ g ∈ t.plain.inputs ++ t.plain.outputs, f.label = g.label := by
    intro f hf
    have : f.label ∈ (t.plain.inputs ++ t.plain.outputs).map (·.label) := by
      rw [← hmap fun l _ => l]; exact List.mem_map_of_mem hf
    obtain ⟨g, hg, e⟩ := List.mem_map.1 this
    exact ⟨g, hg, e.symm⟩
  have hokc : p.Ok sys (t.comp sys.cfg) := by
    refine ⟨fun f hf => (hok f hf).1, fun q hq => ?_, fun ho k hk => ?_, fun _ f hf => (hok f hf).2, hp.runs.exclusive⟩
    · rw [hprev]; exact hp.runs.schedule q hq
    · rw [hmap fun l _ => (p.flow l).r k]
      rcases hp.runs.state ho k hk with ⟨h1, h2⟩ | h1
      · refine .inl ⟨h1, fun f hf => ?_⟩
        obtain ⟨g, hg, e⟩ := hlabs f hf
        rw [e]; exact h2 g hg
      · exact .inr h1
  obtain ⟨τ, t1, t2, _⟩ := comp_complete hv (comp_fits hfit) h0 hpd (hl ▸ hnd) hokc (fun _ _ => 0)
  have hrate : ∀ f ∈ t.flows, τ (rateL t.label f.label) = (p.flow f.label).r := by
    intro f hf
    have : f.label ∈ ((t.comp sys.cfg).inputs ++ (t.comp sys.cfg).outputs).map (·.label) := by
      rw [hmap fun l _ => l]
      refine List.mem_map_of_mem ?_
      simp only [TransData.flows, List.mem_cons, List.mem_append, Option.mem_toList] at hf
      simp only [TransData.plain, List.mem_cons, List.mem_append, Option.mem_toList]
      tauto
    obtain ⟨g, hg, e⟩ := List.mem_map.1 this
    rw [← e]
    exact t2.rate g hg
  -- a direction
  have hdir : ∀ (f g : FlowData) (i oo : FlowOut), f.label ∈ t.flows.map (·.label) → g.label ∈ t.flows.map (·.label) → TransFlow sys t f i → TransFlow sys t g oo →
      f ∈ (t.comp sys.cfg).inputs ++ (t.comp sys.cfg).outputs → (t.absLosses ≠ none → ∃ x, i.onOff = some x) →
      t.Delivers sys.n (p.flow f.label).r (p.flow g.label).r → DirRow sys.n t τ i oo := by
    intro f g i oo hf hg hfi hgo hfm habs hdel k hk
    have rf : τ i.flowRate.label = (p.flow f.label).r := by
      obtain ⟨f', hf', e⟩ := List.mem_map.1 hf
      rw [hfi.shape.1, ← e]; exact hrate f' hf'
    have rg : τ oo.flowRate.label = (p.flow g.label).r := by
      obtain ⟨g', hg', e⟩ := List.mem_map.1 hg
      rw [hgo.shape.1, ← e]; exact hrate g' hg'
    rw [rf, rg]
    cases ha : t.absLosses with
    | none =>
      have hz : t.absAt k = 0 := by unfold TransData.absAt; rw [ha]; rfl
      rcases hdel k hk with ⟨h1, h2⟩ | ⟨h1, h2⟩
      · rw [h1, h2, hz]; ring
      · rw [h2, hz]; ring
    | some a =>
      obtain ⟨x, hx⟩ := habs (by rw [ha]; simp)
      have w2 := (flow_inv hfi).2.1
      rw [hx] at w2
      obtain ⟨qq, hqq, hm⟩ := flowOnOff_some w2
      rw [declared_eq] at hqq
      have hlx : x.on.label = stateL (flowFull t.label f.label) := (onOff_on_length hm).2.1
      have hne : ((t.comp sys.cfg).declared f).onOff ≠ none := by rw [hqq]; simp
      have hb : τ x.on.label = (p.flow f.label).b := by rw [hlx]; exact t2.flowOn f hfm hne
      have hrun := (hok f hfm).1.onRel hne k hk
      obtain ⟨_, _, _, hs'⟩ := (hok f hfm).1.onOff qq hqq
      rw [hx, Option.map_some, Option.getD_some, hb]
      rcases hs'.bin k hk with b0 | b1
      · simp only [b0, mul_zero] at hrun
        have hr0 : (p.flow f.label).r k = 0 := le_antisymm hrun.2.2 hrun.1
        rcases hdel k hk with ⟨h1, h2⟩ | ⟨h1, h2⟩
        · rw [h1, h2, b0]; ring
        · exact absurd hr0 h1
      · rw [b1, mul_one, mul_one] at hrun
        have hr0 : (p.flow f.label).r k ≠ 0 := by
          have := le_trans (le_max_left _ _) hrun.2.1
          have := hv.heps
          intro h0
          linarith
        rcases hdel k hk with ⟨h1, h2⟩ | ⟨h1, h2⟩
        · exact absurd h1 hr0
        · rw [h2, b1]; ring
  refine ⟨τ, (hiff τ).2 ⟨t1, ?_, ?_, ?_⟩, hrate, t2⟩
  · exact hdir _ _ _ _ (by simp [fill_label, TransData.flows]) (by simp [fill_label, TransData.flows]) k1 k2 (by simp [TransData.comp]) ka (by
      rw [fill_label, fill_label]; exact hp.first_arrives)
  · intro i2 o2 hi2 ho2
    cases h2 : t.in2 with
    | none => rw [k3' h2] at hi2; cases hi2
    | some f =>
      obtain ⟨x, hx, _, hxt⟩ := k3 f h2
      rw [hi2] at hx
      cases hx
      cases h3 : t.out2 with
      | none => rw [k4' h3] at ho2; cases ho2
      | some g =>
        obtain ⟨y, hy, _, hyt⟩ := k4 g h3
        rw [ho2] at hy
        cases hy
        obtain ⟨_, _, ka2, _⟩ := kb i2 hi2
        exact hdir _ _ _ _ (by simp [fill_label, fillIn2_label, TransData.flows, h2]) (by simp [fill_label, TransData.flows, h3]) hxt hyt (by simp [TransData.comp, h2]) ka2 (by
          rw [fillIn2_label, fill_label, fill_label]; exact hp.second_arrives f g h2 h3)
  · intro i2 q a b hi2 hq ha hb
    cases h2 : t.in2 with
    | none => rw [k3' h2] at hi2; cases hi2
    | some f =>
      obtain ⟨x, hx, _, hxt⟩ := k3 f h2
      rw [hi2] at hx
      cases hx
      have hlab : ∀ {g : FlowData} {fo : FlowOut} {iv : InvestOut}, TransFlow sys t g fo → fo.invest = some iv →
          iv.size.label = sizeL (flowFull t.label g.label) ∧ ∃ r, g.size = .invest r := by
        intro g fo iv hm hiv
        obtain ⟨_, _, h3, _⟩ := flow_inv hm
        rw [hiv] at h3
        obtain ⟨r, hr, hq⟩ := flowInvest_some h3
        obtain ⟨_, _, _, _, hs, _⟩ := invest_inv hq
        rw [declared_eq] at hr
        exact ⟨(sizeVar_iff hs).1, r, hr⟩
      obtain ⟨la, ra, hra⟩ := hlab k1 ha
      obtain ⟨lb, rb, hrb⟩ := hlab hxt hb
      have e1 := t2.size (t.fill t.in1) (by simp [TransData.comp]) ra hra
      have e2 := t2.size (t.fillIn2 sys.cfg (t.fill f)) (by simp [TransData.comp, h2]) rb hrb
      rw [la, lb]
      refine e1.trans (Eq.trans ?_ e2.symm)
      rw [fillIn2_label, fill_label, fill_label]
      exact (hp.same f h2 q hq).symm

def exTransPlan : CompPlan :=
  { flow := fun l => if l = "i1" then ratesPlan [10, 0, 0] 50 1 else if l = "o1" then ratesPlan [7, 0, 0] else if l = "i2" then ratesPlan [0, 20, 0] 50 1 else ratesPlan [0, 8, 0],
    on := fun _ => 0 }

theorem exTransPlan_transmits : exTransPlan.Transmits exSys exTrans where
  in1 := by
    refine allows_built (s := 50) (q := { optional := false, maximumSize := some 100 }) ⟨rfl, rfl, rfl, ⟨rfl, rfl, rfl, rfl⟩, rfl, .inr (by decide +kernel)⟩ rfl exSys_big.1.le ?_ ?_ (by norm_num) rfl ?_ (by norm_num)
      (exSys_rates (by decide +kernel))
    · constructor <;> simp
    · simp [InvestParams.NonnegSizes, exSys, exCfg]
    · right; exact ⟨fun _ => rfl, by simp [SizeIn, exSys, exCfg]; norm_num⟩
  out1 := allows_easy (x := 100) ⟨rfl, rfl, rfl, ⟨rfl, rfl, rfl, rfl⟩, rfl, .inr (by decide +kernel)⟩ rfl (by norm_num) exSys_big.1.le (exSys_rates (by decide +kernel))
  out2 := by
    intro f hf
    cases hf
    exact allows_easy (x := 100) ⟨rfl, rfl, rfl, ⟨rfl, rfl, rfl, rfl⟩, rfl, .inr (by decide +kernel)⟩ rfl (by norm_num) exSys_big.1.le (exSys_rates (by decide +kernel))
  in2 := by
    intro f hf h
    cases hf
    rcases h with h | ⟨r, hr⟩
    · exact absurd rfl (h _)
    · cases hr
  same := by
    intro f hf q _
    cases hf
    rfl
  second := by
    intro f hf q _ _
    cases hf
    refine ⟨follows_easy ⟨rfl, rfl, rfl, ⟨rfl, rfl, rfl, rfl⟩, rfl, .inr (by decide +kernel)⟩ (exSys_rates (by decide +kernel)) (by simp [exTransPlan, exTrans, ratesPlan]), ?_, rfl, .inr ⟨?_, rfl⟩, ?_⟩
    · intro t _; simp [TransData.stated, CompData.declared, FlowData.lowRel, FlowData.highRel, Num.at]
    · simp [exTransPlan, exTrans, ratesPlan, exSys, exCfg]; norm_num
    · intro g hg; simp [TransData.stated, CompData.declared] at hg
  runs := ⟨by simp [TransData.plain, exTrans], by simp [TransData.plain, exTrans], by
    intro t ht
    simp only [exSys] at ht
    interval_cases t <;> simp [TransData.plain, exTrans, exTransPlan, ratesPlan]⟩
  first_arrives := by
    intro t ht
    simp only [exSys] at ht
    interval_cases t <;> simp [exTrans, exTransPlan, ratesPlan, TransData.relAt, TransData.absAt, Num.at]; norm_num
  second_arrives := by
    intro i o hi ho t ht
    cases hi
    cases ho
    simp only [exSys] at ht
    interval_cases t <;> simp [exTransPlan, exTrans, ratesPlan, TransData.relAt, TransData.absAt, Num.at]; norm_num

/-- A line for both directions whose size is decided. -/
example : ∃ o τ, transmissionModel exSys exTrans = .ok o ∧ o.comp.tree.Solves τ ∧ τ "tr__i2_flow_rate" 1 = 20 ∧ τ "tr__o2_flow_rate" 1 = 8 := by
  obtain ⟨o, h, hh⟩ := of_okB (p := fun o : TransOut => decide o.comp.tree.labels.Nodup) (r := transmissionModel exSys exTrans) (by decide +kernel)
  obtain ⟨τ, h1, h2, _⟩ := C82_transmission_partial exSys_valid exSys_big.1 (fun f hf => by
    simp only [TransData.flows, exTrans, Option.toList_some, List.mem_cons, List.mem_append, List.not_mem_nil, or_false] at hf
    rcases hf with rfl | rfl | rfl | rfl <;> constructor <;> simp) (by constructor <;> simp [exTrans, Num.Fits, Num.len, Num.isScalar, exSys]) h exSys_big.2 (of_decide_eq_true hh) exTransPlan_transmits
  refine ⟨o, τ, h, h1, ?_, ?_⟩
  · have := congrFun (h2 { label := "i2", bus := "B" } (by simp [TransData.flows, exTrans])) 1
    rw [show rateL exTrans.label "i2" = "tr__i2_flow_rate" by decide +kernel] at this
    rw [this]; simp [exTransPlan, ratesPlan]
  · have := congrFun (h2 { label := "o2", bus := "A", size := .num 100 } (by simp [TransData.flows, exTrans])) 1
    rw [show rateL exTrans.label "o2" = "tr__o2_flow_rate" by decide +kernel] at this
    rw [this]; simp [exTransPlan, ratesPlan]

end Flix
