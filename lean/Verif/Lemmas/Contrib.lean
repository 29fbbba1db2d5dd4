import Verif.Spec.Contrib
import Verif.Lemmas.Bus
import Verif.Lemmas.SegShares
import Verif.Lemmas.Storage
import Verif.Lemmas.Transmission
import Verif.Lemmas.Converter

/-!
# The calls of all element models: their shapes and their value
-/

namespace Flix

theorem goesTo_eq (es : List EffectData) (tg : Target) (l : String) (c : ShareCall) : ShareCall.goesTo es tg l c = (decide (c.target = tg) && names es l c.effect) := by
  unfold ShareCall.goesTo names
  cases c.effect <;> rfl

theorem direct_append (σ : Assignment) (es : List EffectData) (a b : List ShareCall) (tg : Target) (l : String) (t : Nat) :
    direct σ es (a ++ b) tg l t = direct σ es a tg l t + direct σ es b tg l t := by simp [direct]

theorem direct_nil (σ : Assignment) (es : List EffectData) (tg : Target) (l : String) (t : Nat) : direct σ es [] tg l t = 0 := rfl

theorem direct_flatten (σ : Assignment) (es : List EffectData) (cs : List (List ShareCall)) (tg : Target) (l : String) (t : Nat) :
    direct σ es cs.flatten tg l t = (cs.map fun c => direct σ es c tg l t).sum := by
  induction cs with
  | nil => rfl
  | cons c cs ih => rw [List.flatten_cons, direct_append, ih, List.map_cons, List.sum_cons]

/-- Calls to another target contribute nothing. -/
theorem direct_other (σ : Assignment) (es : List EffectData) (cs : List ShareCall) (tg tg' : Target) (l : String) (t : Nat) (h : ∀ c ∈ cs, c.target = tg')
    (hne : tg' ≠ tg) : direct σ es cs tg l t = 0 := by
  unfold direct
  rw [List.filter_eq_nil_iff.2]
  · rfl
  · intro c hc
    rw [goesTo_eq, h c hc]
    simp [hne]

/-- What the variable of a share counts in step `t`. -/
def varValue (σ : Assignment) (t : Nat) : Option Var → ℚ
  | none => 1
  | some x => σ x.label (if x.length = 1 then 0 else t)

theorem share_value {σ : Assignment} {c : ShareCall} {t : Nat} (h : c.asSum = false) : c.share.value σ t = c.factor.at t * varValue σ t c.var := by
  unfold Share.value ShareCall.share varValue
  cases hv : c.var <;> simp [h]

theorem sharesTo_direct {tg : Target} {el name : String} {vals : EffDict} {factor : Num} {var : Option Var} {cs : List ShareCall} {n : Nat}
    (hs : vals.Series n) (hfac : factor.Fits n) (h : sharesTo tg el name vals factor var = .ok cs) :
    (∀ c ∈ cs, c.target = tg ∧ c.asSum = false ∧ c.var = var ∧ ∃ q ∈ vals, Num.mul q.2 factor = .ok c.factor) ∧
    ∀ (σ : Assignment) (es : List EffectData) (l : String) (t : Nat), t < n →
      direct σ es cs tg l t = effVal es vals l t * factor.at t * varValue σ t var := by
  induction vals generalizing cs with
  | nil =>
    cases (show Except.ok [] = Except.ok cs from h)
    simp [direct_nil, effVal]
  | cons v vals ih =>
    obtain ⟨e', value⟩ := v
    unfold sharesTo at h
    rw [List.mapM_cons] at h
    peel h with c, hc
    peel h with rest, hrest
    simp only [except_pure, Except.ok.injEq] at h
    peel hc with f, hf
    simp only [except_pure, Except.ok.injEq] at hc
    obtain ⟨i1, i2⟩ := ih (fun p hp => hs p (List.mem_cons_of_mem _ hp)) (cs := rest) hrest
    subst h hc
    constructor
    · intro c hc
      rcases List.mem_cons.1 hc with rfl | hc
      · exact ⟨rfl, rfl, rfl, _, List.mem_cons_self, hf⟩
      · obtain ⟨a, b, d, q, hq, e⟩ := i1 c hc
        exact ⟨a, b, d, q, List.mem_cons_of_mem _ hq, e⟩
    · intro σ es l t ht
      obtain ⟨_, _, hat⟩ := mul_fits (hs _ List.mem_cons_self) hfac hf
      rw [show ∀ (c : ShareCall) cs, c :: cs = [c] ++ cs from fun _ _ => rfl, direct_append, i2 σ es l t ht]
      have h1 : ∀ c : ShareCall, direct σ es [c] tg l t = if (decide (c.target = tg) && names es l c.effect) = true then c.share.value σ t else 0 := by
        intro c
        unfold direct
        rw [List.filter_cons, goesTo_eq]
        split <;> simp
      rw [h1, share_value rfl]
      unfold effVal
      rw [List.filter_cons]
      simp only [decide_true, Bool.true_and]
      split
      · simp only [List.map_cons, List.sum_cons]
        rw [hat t ht]
        ring
      · ring

theorem dt_fits {sys : Sys} (hv : sys.Valid) : (Num.v sys.dt).Fits sys.n := Or.inr hv.hdt

theorem dt_at {sys : Sys} (hv : sys.Valid) {t : Nat} (ht : t < sys.n) : (Num.v sys.dt).at t = sys.width t := by
  rw [at_v (by rw [hv.hdt]; exact ht)]; rfl

theorem mul_shape {n : Nat} {a b r : Num} (ha : a.Fits n) (hb : b.Fits n) (h : Num.mul a b = .ok r) : r.isScalar = true ∨ r.len = n := by
  cases a <;> cases b <;> simp only [Num.mul, Num.zip] at h
  · cases h; exact Or.inl rfl
  · cases h
    rcases hb with hb | hb
    · cases hb
    · right; simpa [Num.len] using hb
  · cases h
    rcases ha with ha | ha
    · cases ha
    · right; simpa [Num.len] using ha
  · rename_i xs ys
    have hx : xs.length = n := by rcases ha with ha | ha; cases ha; exact ha
    have hy : ys.length = n := by rcases hb with hb | hb; cases hb; exact hb
    rw [if_pos (by rw [hx, hy])] at h
    cases h
    right; simp [Num.len, hx, hy]

/-- A call for the operation by a variable over the horizon. -/
theorem wf_operation {n : Nat} {c : ShareCall} {x : Var} (ht : c.target = .operation) (ha : c.asSum = false) (hx : c.var = some x) (hl : x.length = n)
    (hf : c.factor.isScalar = true ∨ c.factor.len = n) : c.WellFormed n := by
  unfold ShareCall.WellFormed
  rw [ht]
  refine ⟨ha, ?_⟩
  unfold Share.WellFormed ShareCall.share
  rw [hx]
  exact Or.inr (Or.inr ⟨ha, rfl, hl, hf⟩)

/-- A call for the investment by a scalar. -/
theorem wf_invest {n : Nat} {c : ShareCall} (ht : c.target = .invest) (ha : c.asSum = false) (hx : ∀ x, c.var = some x → x.length = 1)
    (hf : c.factor.isScalar = true) : c.WellFormed n := by
  unfold ShareCall.WellFormed
  rw [ht]
  refine ⟨ha, ?_⟩
  unfold Share.WellFormed ShareCall.share
  cases hv : c.var with
  | none => exact fun _ => hf
  | some x => exact Or.inr (Or.inl ⟨ha, hx x hv, scalar_len hf, Or.inl hf⟩)

theorem varValue_ts {σ : Assignment} {x : Var} {n t : Nat} (hl : x.length = n) (ht : t < n) : varValue σ t (some x) = σ x.label t := by
  unfold varValue
  simp only
  split
  · have : t = 0 := by omega
    rw [this]
  · rfl

theorem onOff_calls {sys : Sys} (hv : sys.Valid) {el : String} {q : OnOffParams} {ds} {oo : OnOffOut} (hq : q.EffFits sys.n)
    (h : onOffModel sys el q ds = .ok oo) :
    (∀ c ∈ oo.shares, c.WellFormed sys.n ∧ c.target = .operation) ∧
    ∀ (σ : Assignment) (es : List EffectData) (l : String) (t : Nat), t < sys.n →
      direct σ es oo.shares .operation l t = onOffOperation sys.width σ es el (some q) l t := by
  obtain ⟨_, _, _, _, _, swOn, swOff, nr, _, _, hon, _, _, _, _, _, hsw, _, _, _, _, _, _, _, _, _, _, _, sh1, sh2, e1, e2, e3⟩ := onOff_inv h
  obtain ⟨a1, a2⟩ := sharesTo_direct hq.1 (fits_s sys.n 1) e1
  obtain ⟨b1, b2⟩ := sharesTo_direct hq.2 (dt_fits hv) e2
  have hsl : swOn.length = sys.n := by rw [hsw]
  have hol : oo.on.length = sys.n := by rw [hon]
  constructor
  · intro c hc
    rw [e3] at hc
    rcases List.mem_append.1 hc with hc | hc
    · obtain ⟨t1, t2, t3, q', hq', t4⟩ := a1 c hc
      exact ⟨wf_operation t1 t2 t3 hsl (mul_shape (hq.1 q' hq') (fits_s _ _) t4), t1⟩
    · obtain ⟨t1, t2, t3, q', hq', t4⟩ := b1 c hc
      exact ⟨wf_operation t1 t2 t3 hol (mul_shape (hq.2 q' hq') (dt_fits hv) t4), t1⟩
  · intro σ es l t ht
    rw [e3, direct_append, a2 σ es l t ht, b2 σ es l t ht, varValue_ts hsl ht, varValue_ts hol ht, dt_at hv ht, at_s, mul_one]
    unfold onOffOperation
    rw [hsw, hon]
    rfl

theorem scalars_series {d : EffDict} (h : d.Scalars) (n : Nat) : d.Series n := fun q hq => Or.inl (h q hq)

theorem mul_scalar {a r : Num} {k : ℚ} (ha : a.isScalar = true) (h : Num.mul a (.s k) = .ok r) : r.isScalar = true := by
  cases a with
  | s x => cases h; rfl
  | v xs => cases ha

theorem segCalls_direct (σ : Assignment) (es : List EffectData) (el : String) (ess : List (String × List (ℚ × ℚ))) (l : String) :
    direct σ es (segShareCalls el ess) .invest l 0 =
      ((ess.filter fun p => p.1 = l).map fun p => σ (el ++ "__" ++ "SegmentedShares" ++ "_" ++ (p.1 ++ "_segmented")) 0).sum := by
  unfold segShareCalls
  induction ess with
  | nil => rfl
  | cons e ess ih =>
    rw [List.map_cons, show ∀ (c : ShareCall) cs, c :: cs = [c] ++ cs from fun _ _ => rfl, direct_append, ih]
    have h1 : direct σ es [segCall el e.1 (segShareVar el e.1)] .invest l 0 = if e.1 = l then σ (segShareL el e.1) 0 else 0 := by
      unfold direct
      rw [List.filter_cons, goesTo_eq]
      simp only [segCall, names]
      by_cases hel : e.1 = l
      · simp [hel, Share.value, ShareCall.share, segShareVar]
      · simp [hel]
    rw [h1, List.filter_cons]
    by_cases hel : e.1 = l
    · simp [hel, segShareL]
    · simp [hel]

theorem invest_calls {cfg : Cfg} {el : String} {q : InvestParams} {x : Var} {relMin relMax : Num} {profile : Option Num} {on : Option Var}
    {o : InvestOut} (hq : q.EffFits) (h : investModel cfg el q x relMin relMax profile on = .ok o) (n : Nat) :
    (∀ c ∈ o.shares, c.WellFormed n ∧ c.target = .invest) ∧
    ∀ (σ : Assignment) (es : List EffectData) (l : String), direct σ es o.shares .invest l 0 = investCost σ es el q l := by
  obtain ⟨s1, s2, s3, s4, hsz, hinv, _, _, e1, e2, e3, e4, e5⟩ := invest_inv h
  obtain ⟨hq1, hq2, hq3⟩ := hq
  obtain ⟨a1, a2⟩ := sharesTo_direct (n := 1) (scalars_series hq1 1) (fits_s 1 1) e1
  obtain ⟨c1, c2⟩ := sharesTo_direct (n := 1) (scalars_series hq3 1) (fits_s 1 1) e3
  obtain ⟨hszl, hsz1, _⟩ := sizeVar_iff hsz
  have hinvL : ∀ i, o.isInvested = some i → i.length = 1 ∧ i.label = el ++ "__" ++ "Investment" ++ "_" ++ "isInvested" := by
    intro i hi
    unfold investedVar at hinv
    split at hinv
    · obtain ⟨j, hj, hj'⟩ := map_ok.1 hinv
      rw [hi] at hj'
      cases hj'
      rw [(mkVar_ok hj).1]
      exact ⟨rfl, rfl⟩
    · rw [hi] at hinv; cases hinv
  have hopt : (q.optional = true → ∃ i, o.isInvested = some i) ∧ (q.optional = false → o.isInvested = none) := by
    unfold investedVar at hinv
    cases ho : q.optional with
    | true =>
      rw [ho, if_pos rfl] at hinv
      obtain ⟨j, hj, hj'⟩ := map_ok.1 hinv
      exact ⟨fun _ => ⟨j, hj'.symm⟩, by simp⟩
    | false =>
      rw [ho] at hinv
      simp at hinv
      exact ⟨by simp, fun _ => hinv.symm⟩
  have hdec : ∀ σ : Assignment, varValue σ 0 o.isInvested = decision σ el q := by
    intro σ
    unfold decision
    cases ho : q.optional with
    | true =>
      obtain ⟨i, hi⟩ := hopt.1 ho
      rw [hi, varValue_ts (hinvL i hi).1 (by omega), (hinvL i hi).2]
      simp
    | false => rw [hopt.2 ho]; simp [varValue]
  have d : (∀ c ∈ s2, c.WellFormed n ∧ c.target = .invest) ∧ ∀ (σ : Assignment) (es : List EffectData) (l : String),
      direct σ es s2 .invest l 0 = effVal es q.divestEffects l 0 * (1 - decision σ el q) := by
    unfold divestShares at e2
    cases ho : q.optional with
    | true =>
      rw [ho, if_pos rfl] at e2
      peel e2 with a, ha
      peel e2 with b, hb
      simp only [except_pure, Except.ok.injEq] at e2
      subst e2
      obtain ⟨u1, u2⟩ := sharesTo_direct (n := 1) (scalars_series hq2 1) (fits_s 1 1) ha
      obtain ⟨v1, v2⟩ := sharesTo_direct (n := 1) (scalars_series hq2 1) (fits_s 1 (-1)) hb
      constructor
      · intro c hc
        rcases List.mem_append.1 hc with hc | hc
        · obtain ⟨t1, t2, t3, q', hq', t4⟩ := u1 c hc
          exact ⟨wf_invest t1 t2 (by rw [t3]; simp) (mul_scalar (hq2 q' hq') t4), t1⟩
        · obtain ⟨t1, t2, t3, q', hq', t4⟩ := v1 c hc
          exact ⟨wf_invest t1 t2 (fun y hy => (hinvL y (by rw [← t3, hy])).1) (mul_scalar (hq2 q' hq') t4), t1⟩
      · intro σ es l
        rw [direct_append, u2 σ es l 0 (by omega), v2 σ es l 0 (by omega), hdec, at_s, at_s]
        simp only [varValue]
        ring
    | false =>
      rw [ho] at e2
      simp at e2
      subst e2
      refine ⟨by simp, fun σ es l => ?_⟩
      rw [direct_nil]
      unfold decision
      simp [ho]
  have sg : (∀ c ∈ s4, c.WellFormed n ∧ c.target = .invest) ∧ ∀ (σ : Assignment) (es : List EffectData) (l : String),
      direct σ es s4 .invest l 0 = segmentedCost σ el q l := by
    unfold investSegments at e4
    unfold segmentedCost
    cases hseg : q.effectsInSegments with
    | none =>
      rw [hseg] at e4
      simp at e4
      rw [e4.2]
      exact ⟨by simp, fun σ es l => rfl⟩
    | some p =>
      obtain ⟨xs, ess⟩ := p
      rw [hseg] at e4
      simp only at e4
      peel e4 with so, hso
      simp only [except_pure, Except.ok.injEq, Prod.mk.injEq] at e4
      obtain ⟨_, _, _, _, hsh⟩ := segmentedShares_inv hso
      rw [← e4.2, hsh]
      constructor
      · intro c hc
        obtain ⟨e, _, rfl⟩ := List.mem_map.1 hc
        exact ⟨wf_invest rfl rfl (by intro x hx; cases hx; rfl) rfl, rfl⟩
      · intro σ es l
        exact segCalls_direct σ es el ess l
  constructor
  · intro c hc
    rw [e5] at hc
    simp only [List.mem_append] at hc
    rcases hc with ((hc | hc) | hc) | hc
    · obtain ⟨t1, t2, t3, q', hq', t4⟩ := a1 c hc
      exact ⟨wf_invest t1 t2 (fun y hy => (hinvL y (by rw [← t3, hy])).1) (mul_scalar (hq1 q' hq') t4), t1⟩
    · exact d.1 c hc
    · obtain ⟨t1, t2, t3, q', hq', t4⟩ := c1 c hc
      exact ⟨wf_invest t1 t2 (by rw [t3]; rintro y ⟨⟩; exact hsz1) (mul_scalar (hq3 q' hq') t4), t1⟩
    · exact sg.1 c hc
  · intro σ es l
    rw [e5, direct_append, direct_append, direct_append, a2 σ es l 0 (by omega), d.2, c2 σ es l 0 (by omega), sg.2, hdec, varValue_ts hsz1 (by omega),
      hszl, at_s]
    unfold investCost
    ring


theorem forall₂_map_eq_of {α β γ} {g : α → γ} {h : β → γ} {l : List α} {r : List β} (hr : List.Forall₂ (fun a b => h b = g a) l r) : r.map h = l.map g := by
  induction hr with
  | nil => rfl
  | cons h _ ih => rw [List.map_cons, List.map_cons, h, ih]

/-- The investment contribution of a flow with full label `el`. -/
def sizeCost (σ : Assignment) (es : List EffectData) (el : String) (f : FlowData) (l : String) : ℚ :=
  match f.size with
  | .invest q => investCost σ es el q l
  | _ => 0

theorem flow_calls {sys : Sys} (hv : sys.Valid) {el : String} {f : FlowData} {o : FlowOut} (hf : f.EffFits sys.n) (h : flowModel sys el f = .ok o) :
    (∀ c ∈ o.shares, c.WellFormed sys.n ∧ c.target ≠ .penalty) ∧
    (∀ (σ : Assignment) (es : List EffectData) (l : String) (t : Nat), t < sys.n → direct σ es o.shares .operation l t =
      effVal es f.effectsPerFlowHour l t * sys.width t * σ (el ++ "_" ++ "flow_rate") t + onOffOperation sys.width σ es el f.onOff l t) ∧
    ∀ (σ : Assignment) (es : List EffectData) (l : String), direct σ es o.shares .invest l 0 = sizeCost σ es el f l := by
  obtain ⟨h1, h2, h3, _, _, sh, h4, h5⟩ := flow_inv h
  obtain ⟨hl, hlen, _⟩ := flowRate_ok h1
  obtain ⟨a1, a2⟩ := sharesTo_direct hf.op (dt_fits hv) h4
  have hoo : (∀ c ∈ (o.onOff.map (·.shares)).getD [], c.WellFormed sys.n ∧ c.target = .operation) ∧
      ∀ (σ : Assignment) (es : List EffectData) (l : String) (t : Nat), t < sys.n →
        direct σ es ((o.onOff.map (·.shares)).getD []) .operation l t = onOffOperation sys.width σ es el f.onOff l t := by
    cases ho : o.onOff with
    | none =>
      rw [ho] at h2
      rw [flowOnOff_none h2]
      exact ⟨by simp, fun σ es l t _ => rfl⟩
    | some oo =>
      rw [ho] at h2
      obtain ⟨q, hq, hm⟩ := flowOnOff_some h2
      rw [hq]
      exact onOff_calls hv (hf.onOff q hq) hm
  have hin : (∀ c ∈ (o.invest.map (·.shares)).getD [], c.WellFormed sys.n ∧ c.target = .invest) ∧
      ∀ (σ : Assignment) (es : List EffectData) (l : String), direct σ es ((o.invest.map (·.shares)).getD []) .invest l 0 = sizeCost σ es el f l := by
    unfold sizeCost
    cases ho : o.invest with
    | none =>
      rw [ho] at h3
      have := flowInvest_none h3
      refine ⟨by simp, fun σ es l => ?_⟩
      cases hs : f.size with
      | invest q => exact absurd hs (this q)
      | unset => rfl
      | num x => rfl
    | some i =>
      rw [ho] at h3
      obtain ⟨q, hq, hm⟩ := flowInvest_some h3
      rw [hq]
      exact invest_calls (hf.invest q hq) hm sys.n
  refine ⟨?_, fun σ es l t ht => ?_, fun σ es l => ?_⟩
  · intro c hc
    rw [h5] at hc
    simp only [List.mem_append] at hc
    rcases hc with (hc | hc) | hc
    · obtain ⟨x, y⟩ := hoo.1 c hc; exact ⟨x, by rw [y]; decide⟩
    · obtain ⟨x, y⟩ := hin.1 c hc; exact ⟨x, by rw [y]; decide⟩
    · obtain ⟨t1, t2, t3, q', hq', t4⟩ := a1 c hc
      exact ⟨wf_operation t1 t2 t3 hlen (mul_shape (hf.op q' hq') (dt_fits hv) t4), by rw [t1]; decide⟩
  · rw [h5, direct_append, direct_append, hoo.2 σ es l t ht, a2 σ es l t ht,
      direct_other σ es _ .operation .invest l t (fun c hc => (hin.1 c hc).2) (by decide), varValue_ts hlen ht, hl, dt_at hv ht]
    ring
  · rw [h5, direct_append, direct_append, hin.2 σ es l, direct_other σ es _ .invest .operation l 0 (fun c hc => (hoo.1 c hc).2) (by decide),
      direct_other σ es _ .invest .operation l 0 (fun c hc => (a1 c hc).1) (by decide)]
    ring

theorem onOffOperation_empty (dt : Nat → ℚ) (σ : Assignment) (es : List EffectData) (el l : String) (t : Nat) :
    onOffOperation dt σ es el (some {}) l t = 0 := by
  simp [onOffOperation, effVal]

theorem empty_effFits (n : Nat) : ({} : OnOffParams).EffFits n := by
  constructor <;> intro q hq <;> simp at hq

/-- Filling in on/off parameters changes no contribution. -/
structure SameCost (f g : FlowData) : Prop where
  label : g.label = f.label
  perHour : g.effectsPerFlowHour = f.effectsPerFlowHour
  size : g.size = f.size ∨ ((∀ q, f.size ≠ .invest q) ∧ ∃ m, g.size = .invest { maximumSize := m })
  onOff : g.onOff = f.onOff ∨ (f.onOff = none ∧ g.onOff = some {})

theorem SameCost.refl (f : FlowData) : SameCost f f := ⟨rfl, rfl, Or.inl rfl, Or.inl rfl⟩

theorem SameCost.fits {f g : FlowData} {n : Nat} (h : SameCost f g) (hf : f.EffFits n) : g.EffFits n := by
  refine ⟨by rw [h.perHour]; exact hf.op, ?_, ?_⟩
  · intro q hq
    rcases h.onOff with e | ⟨_, e⟩
    · exact hf.onOff q (by rw [← e, hq])
    · rw [e] at hq; cases hq; exact empty_effFits n
  · intro q hq
    rcases h.size with e | ⟨_, m, e⟩
    · exact hf.invest q (by rw [← e, hq])
    · rw [e] at hq; cases hq
      refine ⟨?_, ?_, ?_⟩ <;> intro p hp <;> simp at hp

theorem SameCost.operation {f g : FlowData} (h : SameCost f g) (dt : Nat → ℚ) (σ : Assignment) (es : List EffectData) (comp l : String) (t : Nat) :
    flowOperation dt σ es comp g l t = flowOperation dt σ es comp f l t := by
  unfold flowOperation
  rw [h.label, h.perHour]
  rcases h.onOff with e | ⟨e1, e2⟩
  · rw [e]
  · rw [e1, e2, onOffOperation_empty]; rfl

theorem SameCost.investment {f g : FlowData} (h : SameCost f g) (σ : Assignment) (es : List EffectData) (comp l : String) :
    flowInvestment σ es comp g l = flowInvestment σ es comp f l := by
  unfold flowInvestment
  rw [h.label]
  rcases h.size with e | ⟨e1, m, e2⟩
  · rw [e]
  · rw [e2]
    have h0 : investCost σ es (comp ++ "__" ++ f.label) { maximumSize := m } l = 0 := by simp [investCost, effVal, segmentedCost]
    cases hs : f.size with
    | invest q => exact absurd hs (e1 q)
    | unset => simp only; rw [h0]
    | num x => simp only; rw [h0]

theorem sameCost_fillOnOff (c : CompData) (f : FlowData) : SameCost f (fillOnOff c f) := by
  unfold fillOnOff
  split
  · rename_i h
    exact ⟨rfl, rfl, Or.inl rfl, Or.inr ⟨by simp at h; exact h.2, rfl⟩⟩
  · exact .refl f

theorem sameCost_fill (t : TransData) (f : FlowData) : SameCost f (t.fill f) := by
  unfold TransData.fill
  cases t.absLosses with
  | none => exact .refl f
  | some a =>
    simp only
    split
    · rename_i h
      exact ⟨rfl, rfl, Or.inl rfl, Or.inr ⟨by simp at h; exact h.2, rfl⟩⟩
    · exact .refl f

theorem sameCost_fillIn2 (cfg : Cfg) (t : TransData) (f : FlowData) : SameCost f (t.fillIn2 cfg f) := by
  unfold TransData.fillIn2
  split
  · exact .refl f
  · rename_i q h1 h2 h3
    exact ⟨rfl, rfl, Or.inr ⟨fun q hq => h3 q hq, _, rfl⟩, Or.inl rfl⟩
  · exact .refl f

theorem SameCost.trans {f g k : FlowData} (h1 : SameCost f g) (h2 : SameCost g k) : SameCost f k := by
  refine ⟨by rw [h2.label, h1.label], by rw [h2.perHour, h1.perHour], ?_, ?_⟩
  · rcases h2.size with e | ⟨e1, m, e2⟩
    · rcases h1.size with e' | ⟨e1', m, e2'⟩
      · left; rw [e, e']
      · right; exact ⟨e1', m, by rw [e, e2']⟩
    · rcases h1.size with e' | ⟨e1', m', e2'⟩
      · right; exact ⟨fun q hq => e1 q (by rw [e', hq]), m, e2⟩
      · exact absurd e2' (e1 _)
  · rcases h2.onOff with e | ⟨e1, e2⟩
    · rcases h1.onOff with e' | ⟨e1', e2'⟩
      · left; rw [e, e']
      · right; exact ⟨e1', by rw [e, e2']⟩
    · rcases h1.onOff with e' | ⟨e1', e2'⟩
      · right; exact ⟨by rw [← e', e1], e2⟩
      · rw [e2'] at e1; cases e1

theorem comp_calls {sys : Sys} (hv : sys.Valid) {c : CompData} {o : CompOut} (hf : ∀ f ∈ c.inputs ++ c.outputs, f.EffFits sys.n)
    (hoo : ∀ q, c.onOff = some q → q.EffFits sys.n) (h : compModel sys c = .ok o) :
    (∀ s ∈ o.shares, s.WellFormed sys.n ∧ s.target ≠ .penalty) ∧
    (∀ (σ : Assignment) (es : List EffectData) (l : String) (t : Nat), t < sys.n → direct σ es o.shares .operation l t =
      ((c.inputs ++ c.outputs).map fun f => flowOperation sys.width σ es c.label f l t).sum + onOffOperation sys.width σ es c.label c.onOff l t) ∧
    ∀ (σ : Assignment) (es : List EffectData) (l : String), direct σ es o.shares .invest l 0 =
      ((c.inputs ++ c.outputs).map fun f => flowInvestment σ es c.label f l).sum := by
  obtain ⟨r1, r2, h3, _, _, _, _, _, hsh⟩ := comp_inv h
  have r := List.rel_append r1 r2
  change List.Forall₂ _ _ o.flows at r
  have hflow : ∀ f ∈ c.inputs ++ c.outputs, ∀ q : FlowData × FlowOut, (q.1 = fillOnOff c f ∧ flowModel sys (flowFull c.label f.label) (fillOnOff c f) = .ok q.2) →
      (∀ s ∈ q.2.shares, s.WellFormed sys.n ∧ s.target ≠ .penalty) ∧
      (∀ (σ : Assignment) (es : List EffectData) (l : String) (t : Nat), t < sys.n → direct σ es q.2.shares .operation l t = flowOperation sys.width σ es c.label f l t) ∧
      ∀ (σ : Assignment) (es : List EffectData) (l : String), direct σ es q.2.shares .invest l 0 = flowInvestment σ es c.label f l := by
    rintro f hfm q ⟨_, hm⟩
    have sc := sameCost_fillOnOff c f
    obtain ⟨x1, x2, x3⟩ := flow_calls hv (sc.fits (hf f hfm)) hm
    refine ⟨x1, fun σ es l t ht => ?_, fun σ es l => ?_⟩
    · rw [x2 σ es l t ht, ← sc.operation]
      unfold flowOperation
      rw [sc.label]
      rfl
    · rw [x3, ← sc.investment]
      unfold sizeCost flowInvestment
      rw [sc.label]
      rfl
  have hon : (∀ s ∈ (o.on.map (·.shares)).getD [], s.WellFormed sys.n ∧ s.target = .operation) ∧
      ∀ (σ : Assignment) (es : List EffectData) (l : String) (t : Nat), t < sys.n →
        direct σ es ((o.on.map (·.shares)).getD []) .operation l t = onOffOperation sys.width σ es c.label c.onOff l t := by
    unfold compOnOff at h3
    cases hc : c.onOff with
    | none =>
      rw [hc] at h3
      simp only [Except.ok.injEq] at h3
      rw [← h3]
      exact ⟨by simp, fun σ es l t _ => rfl⟩
    | some q =>
      rw [hc] at h3
      obtain ⟨oo, h4, h5⟩ := map_ok.1 h3
      rw [← h5]
      exact onOff_calls hv (hoo q hc) h4
  have hw : ∀ s ∈ (o.flows.map (·.2.shares)).flatten, s.WellFormed sys.n ∧ s.target ≠ .penalty := by
    intro s hs
    obtain ⟨_, hm, hs⟩ := List.mem_flatten.1 hs
    obtain ⟨q, hq, rfl⟩ := List.mem_map.1 hm
    obtain ⟨f, hfm, hq⟩ := forall₂_mem_right r hq
    exact (hflow f hfm q hq).1 s hs
  refine ⟨?_, fun σ es l t ht => ?_, fun σ es l => ?_⟩
  · intro s hs
    rw [hsh] at hs
    rcases List.mem_append.1 hs with hs | hs
    · exact hw s hs
    · obtain ⟨x, y⟩ := hon.1 s hs; exact ⟨x, by rw [y]; decide⟩
  · rw [hsh, direct_append, hon.2 σ es l t ht, direct_flatten, List.map_map]
    congr 2
    exact forall₂_map_eq_of (forall₂_imp' r fun f hfm q hq => (hflow f hfm q hq).2.1 σ es l t ht)
  · rw [hsh, direct_append, direct_other σ es _ .invest .operation l 0 (fun s hs => (hon.1 s hs).2) (by decide), direct_flatten, List.map_map, add_zero]
    congr 1
    exact forall₂_map_eq_of (forall₂_imp' r fun f hfm q hq => (hflow f hfm q hq).2.2 σ es l)


/-! ## Components of all kinds -/

theorem converter_base {sys : Sys} {c : ConvData} {o : CompOut} (h : converterModel sys c = .ok o) :
    ∃ o0, compModel sys c.comp = .ok o0 ∧ o.inputs = o0.inputs ∧ o.outputs = o0.outputs ∧ o.on = o0.on ∧ o.shares = o0.shares ∧
      ∀ σ : Assignment, o.tree.Solves σ → o0.tree.Solves σ := by
  unfold converterModel at h
  peel h with o0, h0
  split at h
  · simp only [except_pure, Except.ok.injEq] at h
    subst h
    refine ⟨o0, h0, rfl, rfl, rfl, rfl, fun σ hs => ?_⟩
    simp only [CompOut.tree, MTree.Solves] at hs ⊢
    exact ⟨hs.1, fun r hr => hs.2.1 r (List.mem_append_left _ hr), hs.2.2⟩
  · peel h with pts, h1
    peel h with tree, h2
    simp only [except_pure, Except.ok.injEq] at h
    subst h
    refine ⟨o0, h0, rfl, rfl, rfl, rfl, fun σ hs => ?_⟩
    simp only [CompOut.tree, MTree.Solves, solvesAll_append] at hs ⊢
    exact ⟨hs.1, hs.2.1, hs.2.2.1⟩

theorem storage_base {sys : Sys} {s : StorageData} {o : StorageOut} (h : storageModel sys s = .ok o) :
    ∃ o0, compModel sys s.comp = .ok o0 ∧ o.comp.inputs = o0.inputs ∧ o.comp.outputs = o0.outputs ∧
      storageInvest sys s o.chargeState = .ok o.invest ∧ o.comp.shares = o0.shares ++ (o.invest.map (·.shares)).getD [] ∧
      ∀ σ : Assignment, o.comp.tree.Solves σ → o0.tree.Solves σ := by
  unfold storageModel at h
  peel h with o0, h0
  peel h with ab, hab
  obtain ⟨a, b⟩ := ab
  simp only at h
  peel h with c, hc
  peel h with nd, hnd
  peel h with cCharge, hcc
  peel h with inv, hinv
  peel h with cIF, hif
  simp only [except_pure, Except.ok.injEq] at h
  subst h
  refine ⟨o0, h0, rfl, rfl, hinv, rfl, fun σ hs => ?_⟩
  simp only [CompOut.tree, MTree.Solves, solvesAll_append] at hs ⊢
  refine ⟨fun x hx => hs.1 x (List.mem_append_left _ hx), fun r hr => hs.2.1 r ?_, hs.2.2.1⟩
  simp [hr]

theorem trans_base {sys : Sys} {t : TransData} {o : TransOut} (h : transmissionModel sys t = .ok o) :
    ∃ o0, compModel sys (t.comp sys.cfg) = .ok o0 ∧ o.comp.inputs = o0.inputs ∧ o.comp.outputs = o0.outputs ∧ o.comp.shares = o0.shares ∧
      ∀ σ : Assignment, o.comp.tree.Solves σ → o0.tree.Solves σ := by
  unfold transmissionModel at h
  peel h with o0, h0
  peel h with q, hq
  obtain ⟨i1, i2, o1, o2⟩ := q
  simp only at h
  peel h with c1, h1
  peel h with c2, h2
  simp only [except_pure, Except.ok.injEq] at h
  subst h
  refine ⟨o0, h0, rfl, rfl, rfl, fun σ hs => ?_⟩
  simp only [CompOut.tree, MTree.Solves] at hs ⊢
  refine ⟨hs.1, fun r hr => hs.2.1 r ?_, hs.2.2⟩
  simp [hr]

/-- The flows of the component handed to the component model cost what the given ones cost. -/
theorem trans_same (cfg : Cfg) (t : TransData) :
    List.Forall₂ SameCost (Comp.transmission t).flows ((t.comp cfg).inputs ++ (t.comp cfg).outputs) := by
  refine List.rel_append ?_ ?_
  · refine List.Forall₂.cons (sameCost_fill t _) ?_
    cases t.in2 with
    | none => exact .nil
    | some f => exact .cons ((sameCost_fill t f).trans (sameCost_fillIn2 cfg t _)) .nil
  · refine List.Forall₂.cons (sameCost_fill t _) ?_
    cases t.out2 with
    | none => exact .nil
    | some f => exact .cons (sameCost_fill t f) .nil

theorem model_calls {sys : Sys} (hv : sys.Valid) {c : Comp} {o : CompOut} (hf : c.EffFits sys.n) (h : c.model sys = .ok o) :
    (∀ s ∈ o.shares, s.WellFormed sys.n ∧ s.target ≠ .penalty) ∧
    (∀ (σ : Assignment) (es : List EffectData) (l : String) (t : Nat), t < sys.n →
      direct σ es o.shares .operation l t = c.operation sys.width σ es l t) ∧
    ∀ (σ : Assignment) (es : List EffectData) (l : String), direct σ es o.shares .invest l 0 = c.investment σ es l := by
  cases c with
  | plain c =>
    obtain ⟨x1, x2, x3⟩ := comp_calls hv hf.flows hf.onOff h
    refine ⟨x1, x2, fun σ es l => ?_⟩
    rw [x3]
    exact (add_zero _).symm
  | converter c =>
    obtain ⟨o0, h0, _, _, _, e, _⟩ := converter_base h
    obtain ⟨x1, x2, x3⟩ := comp_calls hv hf.flows hf.onOff h0
    rw [e]
    refine ⟨x1, x2, fun σ es l => ?_⟩
    rw [x3]
    exact (add_zero _).symm
  | storage s =>
    obtain ⟨so, hso, rfl⟩ := map_ok.1 (show (·.comp) <$> storageModel sys s = .ok o from h)
    obtain ⟨o0, h0, _, _, hi, e, _⟩ := storage_base hso
    obtain ⟨x1, x2, x3⟩ := comp_calls hv (c := s.comp) hf.flows (by intro q hq; cases hq) h0
    have hin : (∀ c ∈ (so.invest.map (·.shares)).getD [], c.WellFormed sys.n ∧ c.target = .invest) ∧
        ∀ (σ : Assignment) (es : List EffectData) (l : String), direct σ es ((so.invest.map (·.shares)).getD []) .invest l 0 = capacityInvestment σ es s l := by
      unfold storageInvest at hi
      unfold capacityInvestment
      cases hc : s.capacity with
      | num x =>
        rw [hc] at hi
        simp only [Except.ok.injEq] at hi
        rw [← hi]
        exact ⟨by simp, fun σ es l => rfl⟩
      | invest q =>
        rw [hc] at hi
        obtain ⟨iv, h4, h5⟩ := map_ok.1 hi
        rw [← h5]
        exact invest_calls (hf.invest s q rfl hc) h4 sys.n
    rw [e]
    refine ⟨?_, fun σ es l t ht => ?_, fun σ es l => ?_⟩
    · intro c hc
      rcases List.mem_append.1 hc with hc | hc
      · exact x1 c hc
      · obtain ⟨x, y⟩ := hin.1 c hc; exact ⟨x, by rw [y]; decide⟩
    · rw [direct_append, x2 σ es l t ht, direct_other σ es _ .operation .invest l t (fun c hc => (hin.1 c hc).2) (by decide), add_zero]
      rfl
    · rw [direct_append, x3, hin.2]
      rfl
  | transmission t =>
    obtain ⟨tr, hto, rfl⟩ := map_ok.1 (show (·.comp) <$> transmissionModel sys t = .ok o from h)
    obtain ⟨o0, h0, _, _, e, _⟩ := trans_base hto
    have hsame := trans_same sys.cfg t
    obtain ⟨x1, x2, x3⟩ := comp_calls hv (by
      intro g hg
      obtain ⟨f, hfm, hsc⟩ := forall₂_mem_right hsame hg
      exact hsc.fits (hf.flows f hfm)) hf.onOff h0
    rw [e]
    refine ⟨x1, fun σ es l k hk => ?_, fun σ es l => ?_⟩
    · rw [x2 σ es l k hk]
      unfold Comp.operation
      congr 2
      exact forall₂_map_eq_of (forall₂_imp' hsame fun f _ g hsc => hsc.operation _ _ _ _ _ _)
    · rw [x3]
      unfold Comp.investment
      rw [add_zero]
      congr 1
      exact forall₂_map_eq_of (forall₂_imp' hsame fun f _ g hsc => hsc.investment _ _ _ _)

end Flix
