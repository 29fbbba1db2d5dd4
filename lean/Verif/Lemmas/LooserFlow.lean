import Verif.Lemmas.Looser

/-! # Looser declarations of sizes and flows keep every solution -/

namespace Flix

variable {sys : Sys} {σ : Assignment}

/-- The sizes given for an investment make sense. -/
def InvestParams.GoodSizes (cfg : Cfg) (q : InvestParams) : Prop := q.NoZero ∧ q.NonnegSizes cfg ∧ 0 ≤ q.minimumSize

theorem looser_sizes {cfg : Cfg} {q q' : InvestParams} (hl : q.Looser cfg.big q') (hz : q.GoodSizes cfg) (hz' : q'.GoodSizes cfg) :
    q'.minSize ≤ q.minSize ∧ 0 ≤ q'.minSize ∧ q.maxSize cfg ≤ q'.maxSize cfg ∧ 0 ≤ q.maxSize cfg := by
  have ef : q'.fixedSize = q.fixedSize := hl.fixedSize
  refine ⟨?_, ?_, ?_, maxSize_nonneg hz.2.1⟩
  · rw [minSize_eq hz.1, minSize_eq hz'.1, ef]
    cases q.fixedSize with
    | none => exact hl.min
    | some v => exact le_rfl
  · rw [minSize_eq hz'.1]
    cases hv : q'.fixedSize with
    | none => exact hz'.2.2
    | some v => exact hz'.2.1.2.1 v hv
  · rw [maxSize_eq hz.1, maxSize_eq hz'.1, ef]
    cases q.fixedSize with
    | none => exact hl.max
    | some v => exact le_rfl

theorem segRows_congr {el : String} {L nr : Nat} {ps ps' : List (Var × List (Num × Num))} {T T' : Nat → ℚ}
    (h : List.Forall₂ (fun p p' => p'.1.label = p.1.label ∧ p'.2 = p.2) ps ps') (ht : ∀ t, T' t = T t) (hr : SegRows el L nr ps T σ) : SegRows el L nr ps' T' σ := by
  refine ⟨hr.row, fun q' hq' t ht' => ?_, fun t ht' => by rw [ht]; exact hr.single t ht'⟩
  obtain ⟨q, hq, e1, e2⟩ := forall₂_mem_right h hq'
  rw [e1, e2]
  exact hr.lam q hq t ht'

theorem forall₂_same {α : Type} {R : α → α → Prop} (h : ∀ a, R a a) : ∀ l : List α, List.Forall₂ R l l
  | [] => .nil
  | a :: l => .cons (h a) (forall₂_same h l)

theorem segmented_looser {el : String} {x x' : Var} {xs : List (ℚ × ℚ)} {es : List (String × List (ℚ × ℚ))} {out : Outside} {o o' : Out} (hx : x.length = 1) (hx' : x'.length = 1)
    (hl : x'.label = x.label) (hout : ∀ y, out = .use y → y.length = 1) (hnc : out ≠ .create) (h : segmentedShares el x xs es out = .ok o) (h' : segmentedShares el x' xs es out = .ok o')
    (hs : o.tree.Solves σ) : o'.tree.Solves σ := by
  obtain ⟨nr, _, ⟨q, r, e1, e2⟩, k⟩ := segmentedShares_iff hx hout hnc h
  obtain ⟨nr', _, ⟨q', r', e1', e2'⟩, k'⟩ := segmentedShares_iff hx' hout hnc h'
  have hp : List.Forall₂ (fun p p' : Var × List (Num × Num) => p'.1.label = p.1.label ∧ p'.2 = p.2) (segSharePoints el x xs es) (segSharePoints el x' xs es) := by
    unfold segSharePoints
    exact List.rel_append (forall₂_same (fun _ => ⟨rfl, rfl⟩) _) (.cons ⟨hl, rfl⟩ .nil)
  have : nr' = nr := by
    rw [e1, e1'] at hp
    cases hp with
    | cons a _ => rw [e2, e2', a.2]
  subst this
  exact (k' σ).2 (segRows_congr hp (fun _ => rfl) ((k σ).1 hs))

/-- A freer decision on a size keeps every solution. -/
theorem invest_looser {cfg : Cfg} {el : String} {q q' : InvestParams} {x x' : Var} {a b a' b' : Num} {p p' : Option Num} {on : Option Var} {o o' : InvestOut} {N : Nat}
    (hx : x.length = N) (hx' : x'.length = N) (hxl : x'.label = x.label) (ha : a.Fits N) (hb : b.Fits N) (ha' : a'.Fits N) (hb' : b'.Fits N)
    (hp : ∀ f, p = some f → f.Fits N) (hp' : ∀ f, p' = some f → f.Fits N) (hon : ∀ b, on = some b → b.length = N)
    (h : investModel cfg el q x a b p on = .ok o) (h' : investModel cfg el q' x' a' b' p' on = .ok o')
    (hl : q.Looser cfg.big q') (hz : q.GoodSizes cfg) (hz' : q'.GoodSizes cfg) (hpp : p' = none ∨ p' = p) (hpa : ∀ g, p = some g → ∀ t < N, g.at t = a.at t ∧ g.at t = b.at t)
    (hlow : ∀ t < N, a'.at t ≤ a.at t) (hhigh : ∀ t < N, b.at t ≤ b'.at t) (hpos : ∀ t < N, 0 ≤ a'.at t ∧ 0 ≤ b.at t) (hab : on ≠ none → ∀ t < N, a.at t ≤ b.at t)
    (hbin : ∀ c, on = some c → ∀ t < N, (σ c.label t = 0 ∨ σ c.label t = 1) ∧ 0 ≤ σ x.label t) (hs : o.tree.Solves σ) :
    o'.size.label = o.size.label ∧ 0 ≤ σ o.size.label 0 ∧ o'.tree.Solves σ := by
  obtain ⟨l1, l2, l3, l4, hiff⟩ := invest_iff hx ha hb hp hon h
  obtain ⟨l1', l2', l3', l4', hiff'⟩ := invest_iff hx' ha' hb' hp' hon h'
  obtain ⟨g1, g2, g3, g4⟩ := looser_sizes hl hz hz'
  obtain ⟨r, rs⟩ := (hiff σ).1 hs
  have el' : o'.size.label = o.size.label := by rw [l1, l1']
  have eo : q'.optional = q.optional := hl.optional
  have ef : q'.fixedSize = q.fixedSize := hl.fixedSize
  have ei : o'.isInvested = o.isInvested := by
    obtain ⟨_, _, _, _, _, k, _⟩ := invest_inv h
    obtain ⟨_, _, _, _, _, k', _⟩ := invest_inv h'
    have : investedVar (el ++ "__" ++ "Investment") q' = investedVar (el ++ "__" ++ "Investment") q := by unfold investedVar; rw [eo]
    rw [this, k] at k'
    simpa using k'.symm
  have size0 : 0 ≤ σ o.size.label 0 := by
    by_cases hc : pyTruthy q.fixedSize = true ∧ q.optional = false
    · obtain ⟨v, e1, e2⟩ := pyTruthy_iff.1 hc.1
      rw [r.fixed v e1 e2 hc.2]
      exact hz.2.1.2.1 v e1
    · have := r.lower hc
      split at this
      · exact this
      · exact le_trans g2 (le_trans g1 this)
  have up : σ o.size.label 0 ≤ q.maxSize cfg := by
    by_cases hc : pyTruthy q.fixedSize = true ∧ q.optional = false
    · obtain ⟨v, e1, e2⟩ := pyTruthy_iff.1 hc.1
      rw [r.fixed v e1 e2 hc.2]
      unfold InvestParams.maxSize pyOr
      rw [e1]
      simp [e2]
    · exact r.upper hc
  refine ⟨el', size0, (hiff' σ).2 ⟨?_, ?_⟩⟩
  · rw [hxl, el', ei]
    -- the value is between the limits given with the size
    have le0 : ∀ t < N, σ x.label t ≤ b.at t * σ o.size.label 0 := by
      intro t ht
      cases hpc : p with
      | none => exact r.le hpc t ht
      | some g => rw [r.prof g hpc t ht, (hpa g hpc t ht).2]
    refine ⟨?_, ?_, ?_, r.bin, ?_, ?_, ?_, ?_, ?_, ?_, ?_⟩
    · rw [ef, eo]; exact r.fixed
    · rw [ef, eo]
      intro hc
      have := r.lower hc
      split
      · rename_i ho; rw [ho] at this; exact this
      · rename_i ho
        rw [if_neg ho] at this
        exact le_trans g1 this
    · rw [ef, eo]
      exact fun hc => le_trans (r.upper hc) g3
    · rw [ef]; exact r.optFixed
    · rw [ef]
      intro i hi hf
      refine le_trans (r.optUpper i hi hf) (mul_le_mul_of_nonneg_right g3 ?_)
      rcases r.bin i hi with e | e <;> rw [e] <;> norm_num
    · rw [ef]
      intro i hi hf
      refine le_trans (mul_le_mul_of_nonneg_right (max_le_max le_rfl g1) ?_) (r.optLower i hi hf)
      rcases r.bin i hi with e | e <;> rw [e] <;> norm_num
    · intro f hf
      rcases hpp with e | e
      · rw [e] at hf; cases hf
      · rw [e] at hf; exact r.prof f hf
    · exact fun _ t ht => le_trans (le0 t ht) (mul_le_mul_of_nonneg_right (hhigh t ht) size0)
    · intro _ hn t ht
      refine le_trans (mul_le_mul_of_nonneg_right (hlow t ht) size0) ?_
      cases hpc : p with
      | none => exact r.ge hpc hn t ht
      | some g => rw [r.prof g hpc t ht, (hpa g hpc t ht).1]
    · intro _ c hc t ht
      cases honc : on with
      | none => rw [honc] at hc; cases hc
      | some c0 =>
        rw [honc] at hc
        cases hc
        obtain ⟨hbi, hx0⟩ := hbin c0 honc t ht
        have m1 := mul_le_mul_of_nonneg_right (hlow t ht) size0
        have hb0 : 0 ≤ b'.at t := le_trans (hpos t ht).2 (hhigh t ht)
        have hM : 0 ≤ b'.at t * q'.maxSize cfg := mul_nonneg hb0 (le_trans g4 g3)
        have m2 : a'.at t * σ o.size.label 0 ≤ b'.at t * q'.maxSize cfg :=
          le_trans (mul_le_mul_of_nonneg_right (le_trans (hlow t ht) (le_trans (hab (by rw [honc]; simp) t ht) (hhigh t ht))) size0)
            (mul_le_mul_of_nonneg_left (le_trans up g3) hb0)
        cases hpc : p with
        | none =>
          have := r.geOn hpc _ (by rw [honc]; rfl) t ht
          simp only at this ⊢
          rcases hbi with e | e <;> rw [e] at this ⊢ <;> linarith
        | some g =>
          have e1 := r.prof g hpc t ht
          rw [(hpa g hpc t ht).1] at e1
          simp only
          rcases hbi with e | e <;> rw [e] <;> linarith
  · obtain ⟨_, _, _, _, _, _, _, _, _, _, _, k, _⟩ := invest_inv h
    obtain ⟨_, _, _, _, _, _, _, _, _, _, _, k', _⟩ := invest_inv h'
    have eseg : q'.effectsInSegments = q.effectsInSegments := hl.segments
    rcases invest_segments_inv k with ⟨e1, e2, _⟩ | ⟨xs, es, so, e1, e2, e3, _⟩
    · rcases invest_segments_inv k' with ⟨_, e2', _⟩ | ⟨xs, es, so, e1', _⟩
      · rw [e2']; trivial
      · rw [eseg, e1] at e1'; cases e1'
    · rcases invest_segments_inv k' with ⟨e1', _⟩ | ⟨xs', es', so', e1', e2', e3', _⟩
      · rw [eseg, e1] at e1'; cases e1'
      · rw [eseg, e1] at e1'
        cases e1'
        rw [ei] at e2'
        rw [e3'] 
        rw [e3] at rs
        refine ⟨segmented_looser l2 l2' el' ?_ ?_ e2 e2' rs.1, trivial⟩
        · intro y hy
          cases hoi : o.isInvested with
          | none => rw [hoi] at hy; cases hy
          | some i =>
            rw [hoi] at hy
            cases hy
            cases ho : q.optional with
            | true => obtain ⟨j, hj, _, h2⟩ := l3 ho; rw [hoi] at hj; cases hj; exact h2
            | false => rw [l4 ho] at hoi; cases hoi
        · cases o.isInvested <;> simp

theorem fixSize_given {f : FlowData} {S : ℚ} {big : ℚ} (hse : f.Sensible sys.cfg sys.n) (hb : big = sys.cfg.big) (h : f.size.given big = some S) :
    f.fixSize sys.cfg = S ∧ ∀ q, f.size ≠ .invest q := by
  subst hb
  unfold FlowData.fixSize FlowData.effSize
  cases hs : f.size with
  | unset => rw [hs] at h; cases h; exact ⟨rfl, by simp⟩
  | num x =>
    rw [hs] at h
    cases h
    refine ⟨?_, by simp⟩
    have : S ≠ 0 := (hse.size.1 S hs).ne'
    simp [pyOr, this]
  | invest q => rw [hs] at h; cases h

theorem absBounds_fix {f : FlowData} (h : ∀ q, f.size ≠ .invest q) (t : Nat) :
    (f.absBounds sys.cfg).1.at t = f.lowRel t * f.fixSize sys.cfg ∧ (f.absBounds sys.cfg).2.at t = f.highRel t * f.fixSize sys.cfg := by
  obtain ⟨h1, h2⟩ := relBounds_at (f := f) t
  unfold FlowData.absBounds FlowData.fixSize FlowData.effSize
  cases hs : f.size with
  | unset => simp [at_mulr, h1, h2]
  | num x => simp [at_mulr, h1, h2]
  | invest q => exact absurd hs (h q)

/-- The limits of the rate are wider. -/
theorem absBounds_looser {f f' : FlowData} (hl : f.Looser sys.cfg.big sys.n f') (hs : f.Sensible sys.cfg sys.n) (hs' : f'.Sensible sys.cfg sys.n) {t : Nat} (ht : t < sys.n) :
    (f'.absBounds sys.cfg).1.at t ≤ (f.absBounds sys.cfg).1.at t ∧ (f.absBounds sys.cfg).2.at t ≤ (f'.absBounds sys.cfg).2.at t := by
  rcases hl.size with ⟨S, S', e1, e2, e3, _⟩ | ⟨q, q', e1, e2, e3⟩
  · obtain ⟨k1, k2⟩ := fixSize_given hs rfl e1
    obtain ⟨k1', k2'⟩ := fixSize_given hs' rfl e2
    rw [(absBounds_fix k2 t).1, (absBounds_fix k2 t).2, (absBounds_fix k2' t).1, (absBounds_fix k2' t).2, k1, k1']
    exact e3 t ht
  · obtain ⟨g1, g2, g3, g4⟩ := looser_sizes e3 (hs.invest q e1) (hs'.invest q' e2)
    rw [(absBounds_invest e1 t).1, (absBounds_invest e1 t).2, (absBounds_invest e2 t).1, (absBounds_invest e2 t).2]
    have m1 := minSize_eq (hs.invest q e1).1
    have m2 := minSize_eq (hs'.invest q' e2).1
    rw [← m1, ← m2]
    have ef : q'.fixedSize = q.fixedSize := e3.fixedSize
    have top : ∀ q : InvestParams, q.NoZero → q.fixedSize.getD (q.maxSize sys.cfg) = q.maxSize sys.cfg := by
      intro q hq
      rw [maxSize_eq hq]
      cases q.fixedSize <;> rfl
    rw [top q (hs.invest q e1).1, top q' (hs'.invest q' e2).1]
    refine ⟨?_, ?_⟩
    · exact le_trans (mul_le_mul_of_nonneg_right (hl.low t ht) g2) (mul_le_mul_of_nonneg_left g1 (hs.low t ht).1)
    · exact le_trans (mul_le_mul_of_nonneg_right (hl.high t ht) g4) (mul_le_mul_of_nonneg_left g3 (le_trans (hs'.low t ht).1 (hs'.low t ht).2))

theorem LooserStates.split {n : Nat} {a b : Option OnOffParams} (h : LooserStates n a b) : (a = none ∧ b = none) ∨ ∃ q q', a = some q ∧ b = some q' ∧ q.Looser n q' := by
  cases a <;> cases b
  · exact .inl ⟨rfl, rfl⟩
  · cases h
  · cases h
  · exact .inr ⟨_, _, rfl, rfl, h⟩

/-- What a looser flow has in common. -/
structure SameFlow (o o' : FlowOut) : Prop where
  label : o'.flowRate.label = o.flowRate.label
  length : o'.flowRate.length = o.flowRate.length
  previous : o'.flowRate.previous = o.flowRate.previous
  on : (o'.onOff.map fun x => x.on) = o.onOff.map fun x => x.on

/-- A flow with looser declarations keeps every solution. -/
theorem flow_looser (hv : sys.Valid) (hpd : sys.prevDt.Nonneg) {el : String} {f f' : FlowData} {o o' : FlowOut} (hf : f.Fits sys.n) (hf' : f'.Fits sys.n)
    (hs : f.Sensible sys.cfg sys.n) (hs' : f'.Sensible sys.cfg sys.n) (hp' : f'.Proper sys.n) (h : flowModel sys el f = .ok o) (h' : flowModel sys el f' = .ok o')
    (hl : f.Looser sys.cfg.big sys.n f') : SameFlow o o' ∧ WiderVar sys.n (o.flowRate, f.absBounds sys.cfg) (o'.flowRate, f'.absBounds sys.cfg) ∧ (o.tree.Solves σ → o'.tree.Solves σ) := by
  obtain ⟨i1, i2, i3, i4, _⟩ := flow_inv h
  obtain ⟨i1', i2', i3', i4', _⟩ := flow_inv h'
  obtain ⟨r1, r2, _, _, r5, _⟩ := flowRate_ok i1
  obtain ⟨r1', r2', _, _, r5', _⟩ := flowRate_ok i1'
  have hwide : WiderVar sys.n (o.flowRate, f.absBounds sys.cfg) (o'.flowRate, f'.absBounds sys.cfg) :=
    ⟨by rw [r1, r1'], by rw [r2, r2'], by rw [r5, r5', hl.previous], fun t ht => (absBounds_looser hl hs hs' ht).1, fun t ht => (absBounds_looser hl hs hs' ht).2⟩
  have el1 : o'.flowRate.label = o.flowRate.label := hwide.label
  have el2 : o'.sumFlowHours.label = o.sumFlowHours.label := by rw [i4, i4']
  -- states
  have hst : (o'.onOff.map fun x => x.on) = (o.onOff.map fun x => x.on) ∧ ((∀ oo, o.onOff = some oo → oo.tree.Solves σ) → ∀ oo, o'.onOff = some oo → oo.tree.Solves σ) := by
    rcases hl.states.split with ⟨e1, e2⟩ | ⟨q, q', e1, e2, e3⟩
    · unfold flowOnOff at i2 i2'
      rw [e1] at i2
      rw [e2] at i2'
      cases ho : o.onOff with
      | some x => rw [ho] at i2; cases i2
      | none =>
        cases ho' : o'.onOff with
        | some x => rw [ho'] at i2'; cases i2'
        | none => exact ⟨rfl, fun _ oo h => by cases h⟩
    · unfold flowOnOff at i2 i2'
      rw [e1] at i2
      rw [e2] at i2'
      obtain ⟨oo, k1, k2⟩ := map_ok.1 i2
      obtain ⟨oo', k1', k2'⟩ := map_ok.1 i2'
      obtain ⟨b1, b2⟩ := hf.absBounds sys.cfg
      obtain ⟨b1', b2'⟩ := hf'.absBounds sys.cfg
      obtain ⟨z1, z2⟩ := onOff_looser (σ := σ) hv hpd (hf.onOff q e1) (hf'.onOff q' e2) (hp'.1 q' e2) (by simpa using ⟨r2, b1, b2⟩) (by simpa using ⟨r2', b1', b2'⟩) k1 k1' e3
        (.cons hwide .nil)
      rw [← k2, ← k2']
      refine ⟨by simp [z1], fun hall x hx => ?_⟩
      cases hx
      exact z2 (hall oo rfl)
  refine ⟨⟨el1, hwide.length, hwide.previous, hst.1⟩, hwide, fun hsol => ?_⟩
  have r := (flow_iff hv hf h σ).1 hsol
  have none_iff : f'.onOff = none → f.onOff = none := by
    intro e
    rcases hl.states.split with ⟨e1, e2⟩ | ⟨q, q', e1, e2, e3⟩
    · exact e1
    · rw [e2] at e; cases e
  have none_iff' : f'.onOff ≠ none → f.onOff ≠ none := by
    intro e e'
    rcases hl.states.split with ⟨e1, e2⟩ | ⟨q, q', e1, e2, e3⟩
    · exact e e2
    · rw [e1] at e'; cases e'
  have tot0 : 0 ≤ sys.total := by
    rw [hv.htotal]
    exact List.sum_nonneg fun x hx => (hv.hpos x hx).le
  -- the investment
  have hin : (∃ i i', o.invest = some i ∧ o'.invest = some i' ∧ i'.size.label = i.size.label ∧ 0 ≤ σ i.size.label 0 ∧ i'.tree.Solves σ) ∨
      ∃ S S', f.size.given sys.cfg.big = some S ∧ f'.size.given sys.cfg.big = some S' ∧ o.invest = none ∧ o'.invest = none := by
    rcases hl.size with ⟨S, S', e1, e2, e3, _⟩ | ⟨q, q', e1, e2, e3⟩
    · right
      refine ⟨S, S', e1, e2, ?_, ?_⟩
      · cases ho : o.invest with
        | none => rfl
        | some i => rw [ho] at i3; obtain ⟨q, hq, _⟩ := flowInvest_some i3; exact absurd hq ((fixSize_given hs rfl e1).2 q)
      · cases ho : o'.invest with
        | none => rfl
        | some i => rw [ho] at i3'; obtain ⟨q, hq, _⟩ := flowInvest_some i3'; exact absurd hq ((fixSize_given hs' rfl e2).2 q)
    · left
      obtain ⟨i, hi, him⟩ := flow_has_invest h e1
      obtain ⟨i', hi', him'⟩ := flow_has_invest h' e2
      rw [hst.1] at him'
      obtain ⟨b1, b2⟩ := hf.relBounds
      obtain ⟨b1', b2'⟩ := hf'.relBounds
      refine ⟨i, i', hi, hi', invest_looser r2 r2' el1 b1 b2 b1' b2' hf.prof hf'.prof (flow_on_len h) him him' e3 (hs.invest q e1) (hs'.invest q' e2) hl.profile ?_ ?_ ?_ ?_ ?_ ?_ (r.invest i hi)⟩
      · intro g hg t ht
        unfold FlowData.relBounds
        rw [hg]
        exact ⟨rfl, rfl⟩
      · intro t ht; rw [(relBounds_at t).1, (relBounds_at t).1]; exact hl.low t ht
      · intro t ht; rw [(relBounds_at t).2, (relBounds_at t).2]; exact hl.high t ht
      · intro t ht; rw [(relBounds_at t).1, (relBounds_at t).2]; exact ⟨(hs'.low t ht).1, le_trans (hs.low t ht).1 (hs.low t ht).2⟩
      · intro _ t ht; rw [(relBounds_at t).1, (relBounds_at t).2]; exact (hs.low t ht).2
      · intro c hc t ht
        cases ho : o.onOff with
        | none => rw [ho] at hc; cases hc
        | some oo =>
          rw [ho] at hc
          cases hc
          rw [ho] at i2
          obtain ⟨q0, hq0, _⟩ := flowOnOff_some i2
          obtain ⟨oo', k1, _, _, k⟩ := flow_state hv hf h hq0 hsol
          rw [ho] at k1
          cases k1
          refine ⟨(k t ht).imp And.left And.left, r.nonneg (by rw [hq0]; simp) t ht⟩
  refine (flow_iff hv hf' h' σ).2 ⟨?_, ?_, ?_, ?_, ?_, ?_, ?_, ?_, ?_, ?_, hst.2 r.onOff, ?_⟩
  · intro e t ht; rw [el1]; exact le_trans (hwide.low t ht) (r.lower (none_iff e) t ht)
  · intro e t ht; rw [el1]; exact le_trans (r.upper (none_iff e) t ht) (hwide.high t ht)
  · intro e; rw [el1]; exact r.nonneg (none_iff' e)
  · rw [el1, el2]; exact r.sum
  · rw [el2]; exact hl.hoursMin.keep r.sumMin
  · rw [el2]; exact hl.hoursMax.keep r.sumMax
  · intro m' hm' i' hi'
    obtain ⟨m, k1, k2⟩ := hl.loadMax m' hm'
    rcases hin with ⟨i, j, e1, e2, e3, e4, _⟩ | ⟨_, _, _, _, _, e⟩
    · rw [hi'] at e2
      cases e2
      rw [el2, e3]
      exact le_trans (r.loadMax m k1 i e1) (mul_le_mul_of_nonneg_right (mul_le_mul_of_nonneg_left k2 tot0) e4)
    · rw [hi'] at e; cases e
  · intro m' hm' hi'
    obtain ⟨m, k1, k2⟩ := hl.loadMax m' hm'
    rcases hin with ⟨i, j, e1, e2, e3, e4, _⟩ | ⟨S, S', g1, g2, g3, g4⟩
    · rw [hi'] at e2; cases e2
    · rw [el2, (fixSize_given hs' rfl g2).1]
      refine le_trans (r.loadMax' m k1 g3) ?_
      rw [(fixSize_given hs rfl g1).1]
      rcases hl.size with ⟨T, T', e1, e2, _, _, e3⟩ | ⟨q, q', e1, _⟩
      · rw [g1] at e1; cases e1
        rw [g2] at e2; cases e2
        have := mul_le_mul_of_nonneg_left (e3 m m' k1 hm') tot0
        linarith
      · exact absurd e1 ((fixSize_given hs rfl g1).2 q)
  · intro m' hm' i' hi'
    obtain ⟨m, k1, k2⟩ := hl.loadMin m' hm'
    rcases hin with ⟨i, j, e1, e2, e3, e4, _⟩ | ⟨_, _, _, _, _, e⟩
    · rw [hi'] at e2
      cases e2
      rw [el2, e3]
      exact le_trans (mul_le_mul_of_nonneg_right (mul_le_mul_of_nonneg_left k2 tot0) e4) (r.loadMin m k1 i e1)
    · rw [hi'] at e; cases e
  · intro m' hm' hi'
    obtain ⟨m, k1, k2⟩ := hl.loadMin m' hm'
    rcases hin with ⟨i, j, e1, e2, e3, e4, _⟩ | ⟨S, S', g1, g2, g3, g4⟩
    · rw [hi'] at e2; cases e2
    · rw [el2, (fixSize_given hs' rfl g2).1]
      refine le_trans ?_ (r.loadMin' m k1 g3)
      rw [(fixSize_given hs rfl g1).1]
      rcases hl.size with ⟨T, T', e1, e2, _, e3, _⟩ | ⟨q, q', e1, _⟩
      · rw [g1] at e1; cases e1
        rw [g2] at e2; cases e2
        have := mul_le_mul_of_nonneg_left (e3 m m' k1 hm') tot0
        linarith
      · exact absurd e1 ((fixSize_given hs rfl g1).2 q)
  · intro i' hi'
    rcases hin with ⟨i, j, e1, e2, e3, e4, e5⟩ | ⟨_, _, _, _, _, e⟩
    · rw [hi'] at e2; cases e2; exact e5
    · rw [hi'] at e; cases e

end Flix
