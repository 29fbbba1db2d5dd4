import Verif.Props.FlowInvest

/-! # C19: effects of investments -/

namespace Flix

/-- The value of segmented effects for one effect. -/
def InvestParams.segmented (q : InvestParams) (val : String → ℚ) (e : Option String) : ℚ :=
  match q.effectsInSegments with
  | none => 0
  | some (_, es) => ((es.filter fun p => some p.1 = e).map fun p => val p.1).sum

theorem contribution_append (σ : Assignment) (a b : List ShareCall) (e : Option String) :
    contribution σ (a ++ b) e = contribution σ a e + contribution σ b e := by
  simp [contribution]

theorem sharesTo_ok {tg : Target} {el name : String} {vals : EffDict} {k : ℚ} {var : Option Var} {cs : List ShareCall}
    (hs : vals.Scalars) (h : sharesTo tg el name vals (.s k) var = .ok cs) (σ : Assignment) :
    (∀ e, contribution σ cs e = vals.sumFor e * (k * scalarValue σ var)) ∧
    ∀ c ∈ cs, c.target = tg ∧ c.asSum = false ∧ c.factor.len = 1 := by
  induction vals generalizing cs with
  | nil =>
    cases (show Except.ok [] = Except.ok cs from h)
    simp [contribution, EffDict.sumFor]
  | cons v vals ih =>
    obtain ⟨e', value⟩ := v
    have hv : value.isScalar = true := hs _ List.mem_cons_self
    obtain ⟨x, rfl⟩ : ∃ x, value = .s x := by
      cases value with
      | s x => exact ⟨x, rfl⟩
      | v xs => simp [Num.isScalar] at hv
    unfold sharesTo at h
    rw [List.mapM_cons] at h
    peel h with c, hc
    peel h with rest, hrest
    simp only [except_pure, Except.ok.injEq] at h
    have hc' : c = ⟨tg, e', el ++ "__" ++ name, var, .s (x * k), false⟩ := by
      simp [Num.mul, Num.zip, pure, Except.pure, bind, Except.bind] at hc
      rw [← hc]
    obtain ⟨i1, i2⟩ := ih (fun p hp => hs p (List.mem_cons_of_mem _ hp)) (cs := rest) hrest
    subst h hc'
    constructor
    · intro e
      have := i1 e
      simp only [contribution, EffDict.sumFor, List.filter_cons] at this ⊢
      by_cases he : e' = e
      · simp only [he, decide_true, if_true, List.map_cons, List.sum_cons, this, ShareCall.value0, at_s]
        ring
      · simp only [he, decide_false, Bool.false_eq_true, if_false, this]
    · intro c hc
      rcases List.mem_cons.1 hc with rfl | hc
      · exact ⟨rfl, rfl, rfl⟩
      · exact i2 c hc

theorem segCalls_ok {el : String} {es : List (String × List (ℚ × ℚ))} (σ : Assignment) (e : Option String) :
    contribution σ (segShareCalls el es) e = ((es.filter fun p => some p.1 = e).map fun p => σ (segShareL el p.1) 0).sum := by
  induction es with
  | nil => rfl
  | cons p es ih =>
    have hv : ShareCall.value0 σ (segCall el p.1 (segShareVar el p.1)) = σ (segShareL el p.1) 0 := by
      simp [ShareCall.value0, segCall, scalarValue, segShareVar]
    have he' : (segCall el p.1 (segShareVar el p.1)).effect = some p.1 := rfl
    simp only [contribution, segShareCalls, List.map_cons, List.filter_cons, he'] at ih ⊢
    by_cases he : some p.1 = e
    · simp only [he, decide_true, if_true, List.map_cons, List.sum_cons, hv, ih]
    · simp only [he, decide_false, Bool.false_eq_true, if_false, ih]

variable {cfg : Cfg} {el : String} {q : InvestParams} {x : Var} {relMin relMax : Num} {profile : Option Num} {on : Option Var}
  {o : InvestOut} {N : Nat}

/-- C19: in every solution the contributions of an investment to an effect are the fixed effects if invested, the divestment
effects if optional and not invested, the specific effects times the size, and the values of the segmented effects at the
position of the size on its segment. -/
theorem C19 (hx : x.length = N) (hmin : relMin.Fits N) (hmax : relMax.Fits N)
    (hprof : ∀ f, profile = some f → f.Fits N) (hon : ∀ b, on = some b → b.length = N)
    (h : investModel cfg el q x relMin relMax profile on = .ok o)
    (h1 : q.fixEffects.Scalars) (h2 : q.divestEffects.Scalars) (h3 : q.specificEffects.Scalars)
    {σ : Assignment} (hs : o.tree.Solves σ) :
    (∀ c ∈ o.shares, c.target = .invest) ∧
    ∃ D val, (D = 0 ∨ D = 1) ∧ (q.optional = false → D = 1) ∧ (∀ i, o.isInvested = some i → σ i.label 0 = D) ∧
      SegmentsAllow q (σ o.size.label 0) D val ∧
      ∀ e, contribution σ o.shares e =
        q.fixEffects.sumFor e * D + (if q.optional then q.divestEffects.sumFor e * (1 - D) else 0) +
        q.specificEffects.sumFor e * σ o.size.label 0 + q.segmented val e := by
  obtain ⟨_, hsz, hyes, hno, hiff⟩ := invest_iff hx hmin hmax hprof hon h
  obtain ⟨hr, hsub⟩ := (hiff σ).1 hs
  obtain ⟨s1, s2, s3, s4, _, _, _, _, e1, e2, e3, e4, e5⟩ := invest_inv h
  obtain ⟨c1, t1⟩ := sharesTo_ok h1 e1 σ
  obtain ⟨c3, t3⟩ := sharesTo_ok h3 e3 σ
  have hD : ∃ D : ℚ, (D = 0 ∨ D = 1) ∧ (q.optional = false → D = 1) ∧ (∀ i, o.isInvested = some i → σ i.label 0 = D) ∧
      scalarValue σ o.isInvested = D ∧
      (o.isInvested.map fun i => σ i.label 0).getD 1 = D ∧ (q.optional = true → ∃ i, o.isInvested = some i) := by
    cases hopt : q.optional with
    | true =>
      obtain ⟨i, hi, _⟩ := hyes hopt
      refine ⟨σ i.label 0, hr.bin _ (by rw [hi]; rfl), by simp, ?_, by rw [hi]; rfl, by rw [hi]; rfl, fun _ => ⟨i, hi⟩⟩
      intro j hj; rw [hi] at hj; cases hj; rfl
    | false =>
      have := hno hopt
      exact ⟨1, Or.inr rfl, fun _ => rfl, by simp [this], by rw [this]; rfl, by rw [this]; rfl, by simp⟩
  obtain ⟨D, hD01, hD1, hDi, hDm, hDo, hDe⟩ := hD
  have c2 : (∀ c ∈ s2, c.target = .invest) ∧
      ∀ e, contribution σ s2 e = if q.optional then q.divestEffects.sumFor e * (1 - D) else 0 := by
    unfold divestShares at e2
    cases hopt : q.optional with
    | true =>
      rw [hopt, if_pos rfl] at e2
      peel e2 with a, ha
      peel e2 with b, hb
      simp only [except_pure, Except.ok.injEq] at e2
      obtain ⟨ca, ta⟩ := sharesTo_ok h2 ha σ
      obtain ⟨cb, tb⟩ := sharesTo_ok h2 hb σ
      subst e2
      refine ⟨?_, fun e => ?_⟩
      · intro c hc
        rcases List.mem_append.1 hc with hc | hc
        · exact (ta c hc).1
        · exact (tb c hc).1
      · rw [contribution_append, ca, cb, hDm]; simp [scalarValue]; ring
    | false =>
      rw [hopt] at e2; simp at e2; subst e2
      simp [contribution]
  have c4 : (∀ c ∈ s4, c.target = .invest) ∧ SegmentsAllow q (σ o.size.label 0) D (fun e => σ (segShareL el e) 0) ∧
      ∀ e, contribution σ s4 e = q.segmented (fun e => σ (segShareL el e) 0) e := by
    rcases invest_segments_inv e4 with ⟨hn, _, rfl⟩ | ⟨xs, es, os, hq, hm, hsubs, rfl⟩
    · refine ⟨by simp, ?_, ?_⟩
      · intro xs es h; rw [hn] at h; simp at h
      · intro e; simp [contribution, InvestParams.segmented, hn]
    · obtain ⟨hne, segs, _, _, hcalls⟩ := segmentedShares_inv hm
      rw [hcalls]
      have htot : ∀ out, (match o.isInvested with | some x => Outside.use x | none => .no) = out → outsideTotal el σ out 0 = D := by
        rintro out rfl
        rw [← hDo]; cases o.isInvested <;> rfl
      refine ⟨?_, ?_, ?_⟩
      · intro c hc
        obtain ⟨p, _, rfl⟩ := List.mem_map.1 hc
        rfl
      · obtain ⟨nr, hle, ⟨q0, rest, hq0, hnr⟩, hsiff⟩ := segmentedShares_iff hsz (by
          intro y hy
          cases hi : o.isInvested with
          | none => rw [hi] at hy; simp at hy
          | some i =>
            rw [hi] at hy; simp at hy; subst hy
            cases hopt : q.optional with
            | true => obtain ⟨j, hj, _, hl⟩ := hyes hopt; rw [hi] at hj; cases hj; exact hl
            | false => rw [hno hopt] at hi; simp at hi) (by cases o.isInvested <;> simp) hm
        rw [hsubs] at hsub
        have hrows := (hsiff σ).1 hsub.1
        have hsnd := seg_sound hrows hle (t := 0) (by norm_num) (by rw [htot _ (by cases o.isInvested <;> rfl)]; exact hD01)
        rw [htot _ (by cases o.isInvested <;> rfl)] at hsnd
        intro xs' es' hq'
        rw [hq] at hq'; cases hq'
        have hmem : ∀ e ∈ es, (segShareVar el e.1, numSegs e.2) ∈ segSharePoints el o.size xs es := fun e he =>
          List.mem_append_left _ (List.mem_map.2 ⟨e, he, rfl⟩)
        have hmem' : (o.size, numSegs xs) ∈ segSharePoints el o.size xs es := List.mem_append_right _ (by simp)
        have hnum : ∀ {l : List (ℚ × ℚ)} {i : Nat} {seg}, (numSegs l)[i]? = some seg →
            ∃ a, l[i]? = some a ∧ seg = (Num.s a.1, Num.s a.2) := by
          intro l i seg hh
          unfold numSegs at hh
          rw [List.getElem?_map] at hh
          cases hl : l[i]? with
          | none => rw [hl] at hh; simp at hh
          | some a => rw [hl] at hh; simp at hh; exact ⟨a, rfl, hh.symm⟩
        have hnr' : nr = q.nrSegments := by
          unfold InvestParams.nrSegments
          rw [hq]
          cases es with
          | nil => exact absurd rfl hne
          | cons e es =>
            simp only [segSharePoints, List.map_cons, List.cons_append, List.cons.injEq] at hq0
            rw [hnr, ← hq0.1]; simp [numSegs]
        rcases hsnd with ⟨hd, _, hz⟩ | ⟨hd, i, hi, _, u, hu0, hu1, hpts⟩
        · left
          exact ⟨hd, hz _ hmem', fun e he => hz _ (hmem e he)⟩
        · right
          refine ⟨hd, i, hnr' ▸ hi, u, hu0, hu1, ?_, ?_⟩
          · obtain ⟨seg, hseg, hval⟩ := hpts _ hmem'
            obtain ⟨a, ha, rfl⟩ := hnum hseg
            exact ⟨a, ha, by simpa [between] using hval⟩
          · intro e he
            obtain ⟨seg, hseg, hval⟩ := hpts _ (hmem e he)
            obtain ⟨a, ha, rfl⟩ := hnum hseg
            exact ⟨a, ha, by simpa [between, segShareVar] using hval⟩
      · intro e
        rw [segCalls_ok]
        simp [InvestParams.segmented, hq]
  refine ⟨?_, D, _, hD01, hD1, hDi, c4.2.1, fun e => ?_⟩
  · rw [e5]
    intro c hc
    simp only [List.mem_append] at hc
    rcases hc with ((hc | hc) | hc) | hc
    · exact (t1 c hc).1
    · exact c2.1 c hc
    · exact (t3 c hc).1
    · exact c4.1 c hc
  · rw [e5, contribution_append, contribution_append, contribution_append, c1, c2.2, c3, c4.2.2, hDm]
    simp only [scalarValue]; ring

/-- The example investment meets the hypotheses; it has a solution with size 6 (`exInvFlow_solvable`). -/
example : exInv.fixEffects.Scalars ∧ exInv.divestEffects.Scalars ∧ exInv.specificEffects.Scalars ∧
    exInv.fixEffects.sumFor (some "co2") = 3 ∧ exInv.fixEffects.sumFor none = 50 := by
  refine ⟨?_, ?_, ?_, ?_, ?_⟩
  · intro p hp; simp [exInv] at hp; rcases hp with rfl | rfl <;> rfl
  · intro p hp; simp [exInv] at hp; subst hp; rfl
  · intro p hp; simp [exInv] at hp; subst hp; rfl
  · simp [exInv, EffDict.sumFor]
  · simp [exInv, EffDict.sumFor]

end Flix
