import Verif.Props.OnOff
import Verif.Lemmas.InvestComplete

/-! # Every admissible plan of a flow extends to a solution of the flow's model -/

namespace Flix

/-- On/off rows only depend on the variables of the on/off model and the defining variables. -/
theorem onOff_congr {sys : Sys} (hv : sys.Valid) {el : String} {q : OnOffParams} {ds : List (Var × Num × Num)} {o : OnOffOut}
    (hq : q.Fits sys.n) (hds : ∀ d ∈ ds, d.1.length = sys.n ∧ d.2.1.Fits sys.n ∧ d.2.2.Fits sys.n)
    (h : onOffModel sys el q ds = .ok o) {σ τ : Assignment} (h1 : ∀ l ∈ ooLabels el, τ l = σ l)
    (h2 : ∀ d ∈ ds, τ d.1.label = σ d.1.label) (hs : o.tree.Solves σ) : o.tree.Solves τ := by
  obtain ⟨_, prevOn, _, hiff⟩ := onOff_iff hv hq hds h
  obtain ⟨lon, ltot, _, loff, _, lcon, _, lcoff, a, b, c, ea, eb, ec, la, lb, lc, _⟩ := onOff_parts h
  have hr := (hiff σ).1 hs
  have e1 : τ o.on.label = σ o.on.label := h1 _ (by rw [lon]; simp [ooLabels, ooNames])
  have e2 : τ o.totalOnHours.label = σ o.totalOnHours.label := h1 _ (by rw [ltot]; simp [ooLabels, ooNames])
  have e3 : ∀ x, o.off = some x → τ x.label = σ x.label := fun x hx => h1 _ (by rw [(loff x hx).1]; simp [ooLabels, ooNames])
  have e4 : ∀ x, o.consecOn = some x → τ x.label = σ x.label := fun x hx => h1 _ (by rw [(lcon x hx).1]; simp [ooLabels, ooNames])
  have e5 : ∀ x, o.consecOff = some x → τ x.label = σ x.label := fun x hx => h1 _ (by rw [(lcoff x hx).1]; simp [ooLabels, ooNames])
  have e6 : τ a.label = σ a.label := h1 _ (by rw [la]; simp [ooLabels, ooNames])
  have e7 : τ b.label = σ b.label := h1 _ (by rw [lb]; simp [ooLabels, ooNames])
  have e8 : τ c.label = σ c.label := h1 _ (by rw [lc]; simp [ooLabels, ooNames])
  refine (hiff τ).2 ⟨?_, ?_, ?_, ?_, ?_, ?_, ?_, ?_, ?_, ?_⟩
  · rw [e1]; exact hr.onBin
  · refine onRel_congr (fun t _ => by rw [e1]) (fun d hd t _ => by rw [h2 d hd]) hr.onRel
  · rw [e2]; exact hr.totalMin
  · rw [e2]; exact hr.totalMax
  · rw [e2, e1]; exact hr.total
  · intro x hx; rw [e3 x hx, e1]; exact hr.off x hx
  · intro x hx; rw [e4 x hx, e1]; exact hr.durOn x hx
  · intro x hx
    obtain ⟨off, prev, ho, hp, hd⟩ := hr.durOff x hx
    refine ⟨off, prev, ho, hp, ?_⟩
    rw [e3 off ho, e5 x hx]; exact hd
  · intro a' b' c' ha' hb' hc'
    rw [ea] at ha'; rw [eb] at hb'; rw [ec] at hc'
    cases ha'; cases hb'; cases hc'
    rw [e1, e6, e7, e8]; exact hr.switch a b c ea eb ec
  · intro c' m hc' hm
    rw [ec] at hc'; cases hc'
    rw [e8]; exact hr.switchMax c m ec hm

/-- A plan for a flow: rates, states, size, decision, values of segmented effects. -/
structure FlowPlan where
  r : Nat → ℚ
  b : Nat → ℚ
  s : ℚ
  d : ℚ
  val : String → ℚ

/-- The installed size according to a plan. -/
def FlowPlan.installed (p : FlowPlan) (sys : Sys) (f : FlowData) : ℚ :=
  match f.size with
  | .invest _ => p.s
  | _ => f.fixSize sys.cfg

/-- The plan respects everything declared for the flow. -/
structure FlowPlan.Ok (sys : Sys) (f : FlowData) (p : FlowPlan) : Prop where
  bounds : f.onOff = none → ∀ t < sys.n, (f.absBounds sys.cfg).1.at t ≤ p.r t ∧ p.r t ≤ (f.absBounds sys.cfg).2.at t
  onOff : ∀ q, f.onOff = some q → q.NonnegLimits sys.n ∧ ∃ last, (flowHistory sys.cfg.eps f.previousFlowRate).getLast? = some last ∧
    ScheduleOk sys q (flowHistory sys.cfg.eps f.previousFlowRate) last p.b
  onRel : f.onOff ≠ none → ∀ t < sys.n, 0 ≤ p.r t ∧ max sys.cfg.eps ((f.absBounds sys.cfg).1.at t) * p.b t ≤ p.r t ∧
    p.r t ≤ (f.absBounds sys.cfg).2.at t * p.b t
  invest : ∀ q, f.size = .invest q → q.segEffects.Nodup ∧ (q.optional = false → p.d = 1) ∧ SegmentsAllow q p.s p.d p.val ∧
    InvestRows sys.cfg q sys.n p.r (fun _ => p.s) (if q.optional then some (fun _ => p.d) else none) (f.onOff.map fun _ => p.b)
      f.relBounds.1 f.relBounds.2 f.fixedProfile
  hmin : ∀ m, f.flowHoursTotalMin = some m → m ≤ ∑ k ∈ Finset.range sys.n, sys.width k * p.r k
  hmax : ∀ m, f.flowHoursTotalMax = some m → ∑ k ∈ Finset.range sys.n, sys.width k * p.r k ≤ m
  lmin : ∀ m, f.loadFactorMin = some m → p.installed sys f * (sys.total * m) ≤ ∑ k ∈ Finset.range sys.n, sys.width k * p.r k
  lmax : ∀ m, f.loadFactorMax = some m → ∑ k ∈ Finset.range sys.n, sys.width k * p.r k ≤ p.installed sys f * (sys.total * m)

/-- The labels of all variables of a flow. -/
def flowAllLabels (el : String) (f : FlowData) : List String :=
  flowLabels el ++ (match f.size with | .invest q => investLabels el q | _ => [])

theorem oo_not_own {el k : String} {c : Char} (hk : k.toList.head? = some c) (hc : c ≠ '_') : el ++ "_" ++ k ∉ ooLabels el := by
  intro h
  unfold ooLabels at h
  obtain ⟨s, _, hs⟩ := List.mem_map.1 h
  unfold ooP at hs
  rw [show "__OnOff" = "__" ++ "OnOff" by decide] at hs
  have : el ++ "_" ++ k = el ++ "__" ++ ("OnOff" ++ ("_" ++ s)) := by
    rw [← hs]; simp only [String.append_assoc]
  exact own_ne_sub hk hc this

theorem fixSize_noninvest {sys : Sys} {f : FlowData} {p : FlowPlan} (h : ∀ q, f.size ≠ .invest q) :
    p.installed sys f = f.fixSize sys.cfg := by
  unfold FlowPlan.installed
  cases hs : f.size with
  | invest q => exact absurd hs (h q)
  | unset => rfl
  | num x => rfl

theorem flow_complete {sys : Sys} (hv : sys.Valid) {el : String} {f : FlowData} {o : FlowOut} (hf : f.Fits sys.n)
    (h : flowModel sys el f = .ok o) (hpd : sys.prevDt.Nonneg) {p : FlowPlan} (hp : p.Ok sys f) (σ : Assignment) :
    ∃ τ : Assignment, o.tree.Solves τ ∧ τ o.flowRate.label = p.r ∧ (∀ l ∉ flowAllLabels el f, τ l = σ l) ∧
      (∀ i, o.invest = some i → τ i.size.label 0 = p.s ∧ ∀ iv, i.isInvested = some iv → τ iv.label 0 = p.d) ∧
      (∀ oo, o.onOff = some oo → τ oo.on.label = p.b) ∧ ∀ q, f.size = .invest q → ∀ e ∈ q.segEffects, τ (segShareL el e) 0 = p.val e := by
  obtain ⟨h1, h2, h3, h4, h5, _⟩ := flow_inv h
  obtain ⟨hl, hlen, _, _, hprevr, _⟩ := flowRate_ok h1
  obtain ⟨ha1, ha2⟩ := hf.absBounds sys.cfg
  obtain ⟨hb1, hb2⟩ := hf.relBounds
  have hrl : o.flowRate.label ∉ ooLabels el := by rw [hl]; exact oo_not_own (c := 'f') (by decide) (by decide)
  have hsl : o.sumFlowHours.label ∉ ooLabels el := by rw [h4]; exact oo_not_own (c := 's') (by decide) (by decide)
  have hri : ∀ q, o.flowRate.label ∉ investLabels el q := fun q => by rw [hl]; exact own_not_invest (c := 'f') (by decide) (by decide)
  have hsi : ∀ q, o.sumFlowHours.label ∉ investLabels el q := fun q => by
    rw [h4]; exact own_not_invest (c := 's') (by decide) (by decide)
  have hne : o.flowRate.label ≠ o.sumFlowHours.label := by
    rw [hl, h4]; simp [String.append_right_inj]
  have hds : ∀ d ∈ [(o.flowRate, f.absBounds sys.cfg)], d.1.length = sys.n ∧ d.2.1.Fits sys.n ∧ d.2.2.Fits sys.n := by
    simpa using ⟨hlen, ha1, ha2⟩
  let σ1 : Assignment := (σ.set o.sumFlowHours.label fun _ => ∑ k ∈ Finset.range sys.n, sys.width k * p.r k).set
    o.flowRate.label p.r
  have g1 : σ1 o.flowRate.label = p.r := by funext t; exact set_same ..
  have g2 : σ1 o.sumFlowHours.label 0 = ∑ k ∈ Finset.range sys.n, sys.width k * p.r k := by
    simp only [σ1]; rw [set_other _ _ _ hne.symm, set_same]
  have g3 : ∀ l ∉ flowLabels el, σ1 l = σ l := by
    intro l hll
    simp only [flowLabels, List.mem_append, List.mem_cons, List.not_mem_nil, or_false, not_or] at hll
    funext t
    simp only [σ1]
    rw [set_other _ _ _ (by rw [hl]; exact hll.1.1), set_other _ _ _ (by rw [h4]; exact hll.1.2)]
  -- the on/off model
  have hoo : ∃ σ2 : Assignment, (∀ l ∉ ooLabels el, σ2 l = σ1 l) ∧ ∀ oo, o.onOff = some oo → oo.tree.Solves σ2 ∧ σ2 oo.on.label = p.b := by
    cases ho : o.onOff with
    | none => exact ⟨σ1, fun _ _ => rfl, by simp⟩
    | some oo =>
      rw [ho] at h2
      obtain ⟨q, hq, hoo⟩ := flowOnOff_some h2
      obtain ⟨hnn, last, hlast, hsch⟩ := hp.onOff q hq
      obtain ⟨h2n, prevOn, hprev, _⟩ := onOff_iff hv (hf.onOff q hq) hds hoo
      have hpe : o.flowRate.previous = f.previousFlowRate := by rw [hprevr, if_pos (by omega)]
      have hpv : previousOnValues sys.cfg.eps [o.flowRate] = .ok (flowHistory sys.cfg.eps f.previousFlowRate) := by
        rw [C14_single_partial (by omega), hpe]
      have honl := (onOff_on_length hoo).2.1
      have hro : o.flowRate.label ≠ oo.on.label := by
        intro he; apply hrl; rw [he, honl]; simp [ooLabels, ooNames]
      obtain ⟨τ, t1, t2, t3⟩ := onOff_complete hv (hf.onOff q hq) hds hoo hpd hnn (by simpa using hpv) hlast hsch (σ := σ1)
        (by simpa using hrl) (by
          show ∀ t < sys.n, max sys.cfg.eps ((f.absBounds sys.cfg).1.at t) * (σ1.set oo.on.label p.b) oo.on.label t ≤
            (σ1.set oo.on.label p.b) o.flowRate.label t ∧ (σ1.set oo.on.label p.b) o.flowRate.label t ≤
            (f.absBounds sys.cfg).2.at t * (σ1.set oo.on.label p.b) oo.on.label t
          intro t ht
          rw [set_same, set_other _ _ _ hro, g1]
          exact (hp.onRel (by rw [hq]; simp) t ht).2)
      refine ⟨τ, t1, ?_⟩
      intro oo' hoo'; cases hoo'; exact ⟨t3, t2⟩
  obtain ⟨σ2, u1, u2⟩ := hoo
  -- the investment
  have hin : ∃ τ : Assignment, (∀ l, (∀ q, f.size = .invest q → l ∉ investLabels el q) → τ l = σ2 l) ∧ ∀ i, o.invest = some i →
      i.tree.Solves τ ∧ τ i.size.label 0 = p.s ∧ (∀ iv, i.isInvested = some iv → τ iv.label 0 = p.d) ∧
      ∀ q, f.size = .invest q → ∀ e ∈ q.segEffects, τ (segShareL el e) 0 = p.val e := by
    cases hi : o.invest with
    | none => exact ⟨σ2, fun _ _ => rfl, by simp⟩
    | some i =>
      rw [hi] at h3
      obtain ⟨q, hq, hqi⟩ := flowInvest_some h3
      obtain ⟨k1, k2, k3, k4⟩ := hp.invest q hq
      have honn : ∀ b, (o.onOff.map (·.on)) = some b → ∃ oo, o.onOff = some oo ∧ b = oo.on := by
        intro b hb
        cases ho : o.onOff with
        | none => rw [ho] at hb; simp at hb
        | some oo => rw [ho] at hb; simp at hb; exact ⟨oo, rfl, hb.symm⟩
      have holab : ∀ oo, o.onOff = some oo → oo.on.length = sys.n ∧ oo.on.label = ooP el ++ "_" ++ "on" := by
        intro oo ho
        rw [ho] at h2
        obtain ⟨q', _, hoo⟩ := flowOnOff_some h2
        exact ⟨(onOff_on_length hoo).1, (onOff_on_length hoo).2.1⟩
      have hon' : ∀ b, (o.onOff.map (·.on)) = some b → b.length = sys.n := by
        intro b hb
        obtain ⟨oo, ho, rfl⟩ := honn b hb
        exact (holab oo ho).1
      obtain ⟨_, _, hyes, hno, _⟩ := invest_iff hlen hb1 hb2 hf.prof hon' hqi
      have er : σ2 o.flowRate.label = p.r := by rw [u1 _ hrl, g1]
      have ei : (i.isInvested.map fun _ _ => p.d) = (if q.optional then some (fun _ => p.d) else none : Option (Nat → ℚ)) := by
        cases hopt : q.optional with
        | true => obtain ⟨j, hj, _⟩ := hyes hopt; rw [hj]; rfl
        | false => rw [hno hopt]; rfl
      have eo : ((o.onOff.map (·.on)).map fun b => σ2 b.label) = f.onOff.map fun _ => p.b := by
        cases ho : o.onOff with
        | none => rw [ho] at h2; rw [flowOnOff_none h2]; rfl
        | some oo =>
          have := (u2 oo ho).2
          rw [ho] at h2
          obtain ⟨q', hq', _⟩ := flowOnOff_some h2
          rw [hq']; simp [this]
      obtain ⟨τ, v1, v2, v3, v4, v5⟩ := invest_complete hlen hb1 hb2 hf.prof hon' hqi k1 (hri q) (by
          intro b hb
          obtain ⟨oo, ho, rfl⟩ := honn b hb
          rw [(holab oo ho).2]; exact oo_not_invest) (s := p.s) (d := p.d) (val := p.val) k2 k3 (σ := σ2) (by
          rw [er, ei, eo]; exact k4)
      refine ⟨τ, fun l hl' => v1 l (hl' q hq), ?_⟩
      intro i' hi'; cases hi'
      refine ⟨v5, v2, v3, fun q' hq' => ?_⟩
      rw [hq] at hq'; cases hq'
      exact v4
  obtain ⟨τ, w1, w2⟩ := hin
  have wr : τ o.flowRate.label = p.r := by rw [w1 _ (fun q _ => hri q), u1 _ hrl, g1]
  have ws : τ o.sumFlowHours.label 0 = ∑ k ∈ Finset.range sys.n, sys.width k * p.r k := by
    rw [w1 _ (fun q _ => hsi q), u1 _ hsl, g2]
  have wo : ∀ l ∈ ooLabels el, τ l = σ2 l := by
    intro l hl'
    apply w1
    intro q _
    obtain ⟨s, _, rfl⟩ := List.mem_map.1 hl'
    exact oo_not_invest
  have hinst : ∀ i, o.invest = some i → p.installed sys f = p.s := by
    intro i hi
    rw [hi] at h3
    obtain ⟨q, hq, _⟩ := flowInvest_some h3
    simp [FlowPlan.installed, hq]
  have hinst' : o.invest = none → p.installed sys f = f.fixSize sys.cfg := by
    intro hi
    rw [hi] at h3
    exact fixSize_noninvest (flowInvest_none h3)
  refine ⟨τ, (flow_iff hv hf h τ).2 ⟨?_, ?_, ?_, ?_, ?_, ?_, ?_, ?_, ?_, ?_, ?_, ?_⟩, wr, ?_, ?_, ?_, ?_⟩
  · intro hn t ht; rw [wr]; exact (hp.bounds hn t ht).1
  · intro hn t ht; rw [wr]; exact (hp.bounds hn t ht).2
  · intro hn t ht; rw [wr]; exact (hp.onRel hn t ht).1
  · rw [ws, wr]
  · intro m hm; rw [ws]; exact hp.hmin m hm
  · intro m hm; rw [ws]; exact hp.hmax m hm
  · intro m hm i hi; rw [ws, (w2 i hi).2.1, ← hinst i hi]
    have := hp.lmax m hm; linarith
  · intro m hm hi; rw [ws, ← hinst' hi]; exact hp.lmax m hm
  · intro m hm i hi; rw [ws, (w2 i hi).2.1, ← hinst i hi]
    have := hp.lmin m hm; linarith
  · intro m hm hi; rw [ws, ← hinst' hi]; exact hp.lmin m hm
  · intro oo ho
    have hs := (u2 oo ho).1
    rw [ho] at h2
    obtain ⟨q, hq, hoo⟩ := flowOnOff_some h2
    refine onOff_congr hv (hf.onOff q hq) hds hoo wo ?_ hs
    intro d hd
    simp only [List.mem_cons, List.not_mem_nil, or_false] at hd
    subst hd
    exact w1 _ (fun q _ => hri q)
  · intro i hi; exact (w2 i hi).1
  · intro l hll
    simp only [flowAllLabels, List.mem_append, not_or] at hll
    rw [w1 l (by intro q hq; have := hll.2; rw [hq] at this; exact this), u1 l, g3 l hll.1]
    intro hm; apply hll.1
    exact List.mem_append_right _ hm
  · intro i hi; exact ⟨(w2 i hi).2.1, (w2 i hi).2.2.1⟩
  · intro oo ho
    rw [wo _ (by
      rw [ho] at h2
      obtain ⟨q, _, hoo⟩ := flowOnOff_some h2
      rw [(onOff_on_length hoo).2.1]; simp [ooLabels, ooNames])]
    exact (u2 oo ho).2
  · intro q hq
    cases hi : o.invest with
    | none => rw [hi] at h3; exact absurd hq (flowInvest_none h3 q)
    | some i => exact (w2 i hi).2.2.2 q hq

end Flix
