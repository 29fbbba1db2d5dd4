import Verif.Lemmas.Plan
import Verif.Props.Complete
import Verif.Props.InvestEffects

/-! # What a solution of a model says is an admissible plan -/

namespace Flix

variable {sys : Sys}

/-- The states of a solution are a permitted schedule. -/
theorem schedule_sound (hv : sys.Valid) {el : String} {q : OnOffParams} {ds : List (Var × Num × Num)} {o : OnOffOut} (hq : q.Fits sys.n)
    (hds : ∀ d ∈ ds, d.1.length = sys.n ∧ d.2.1.Fits sys.n ∧ d.2.2.Fits sys.n) (h : onOffModel sys el q ds = .ok o) {σ : Assignment} (hs : o.tree.Solves σ) :
    ∃ prevOn last, previousOnValues sys.cfg.eps (ds.map (·.1)) = .ok prevOn ∧ prevOn.getLast? = some last ∧ ScheduleOk sys q prevOn last (σ o.on.label) := by
  obtain ⟨_, prevOn, hprev, hiff⟩ := onOff_iff hv hq hds h
  have hr := (hiff σ).1 hs
  obtain ⟨_, _, _, p', last, _, _, _, hp', hlast, hst⟩ := C12_starts hv hq hds h hs
  rw [hprev] at hp'; cases hp'
  obtain ⟨_, t1, t2⟩ := C13_total hv hq hds h hs
  refine ⟨prevOn, last, hprev, hlast, hr.onBin, t1, t2, ?_, ?_, ?_⟩
  · exact hst.2.2.2
  · intro before hb
    by_cases hon : q.consecOnMin ≠ none ∨ q.consecOnMax ≠ none
    · obtain ⟨p', b', hp', hb', hrun⟩ := C10_on hv hq hds h hs hon
      rw [hprev] at hp'; cases hp'
      rw [hb] at hb'; cases hb'
      exact hrun
    · push Not at hon
      rw [hon.1, hon.2]
      exact ⟨by simp, by simp, by simp⟩
  · intro before hb
    by_cases hon : q.consecOffMin ≠ none ∨ q.consecOffMax ≠ none
    · obtain ⟨p', b', hp', hb', hrun⟩ := C10_off hv hq hds h hs hon
      rw [hprev] at hp'; cases hp'
      rw [hb] at hb'; cases hb'
      exact hrun
    · push Not at hon
      rw [hon.1, hon.2]
      exact ⟨by simp, by simp, by simp⟩

/-- The values of effects in segments belong to the size and the decision. -/
theorem segments_sound {cfg : Cfg} {el : String} {q : InvestParams} {x : Var} {relMin relMax : Num} {profile : Option Num} {on : Option Var} {o : InvestOut} {N : Nat}
    (hx : x.length = N) (hmin : relMin.Fits N) (hmax : relMax.Fits N) (hprof : ∀ f, profile = some f → f.Fits N) (hon : ∀ b, on = some b → b.length = N)
    (h : investModel cfg el q x relMin relMax profile on = .ok o) {σ : Assignment} (hs : o.tree.Solves σ) :
    SegmentsAllow q (σ o.size.label 0) (if q.optional then σ (investedL el) 0 else 1) (fun e => σ (segShareL el e) 0) := by
  obtain ⟨_, hsz, hyes, hno, hiff⟩ := invest_iff hx hmin hmax hprof hon h
  obtain ⟨hr, hsub⟩ := (hiff σ).1 hs
  obtain ⟨s1, s2, s3, s4, _, _, _, _, e1, e2, e3, e4, e5⟩ := invest_inv h
  have hD : ∃ D : ℚ, (D = 0 ∨ D = 1) ∧ (if q.optional then σ (investedL el) 0 else 1) = D ∧ (o.isInvested.map fun i => σ i.label 0).getD 1 = D := by
    cases hopt : q.optional with
    | true =>
      obtain ⟨i, hi, hl, _⟩ := hyes hopt
      refine ⟨σ i.label 0, hr.bin _ (by rw [hi]; rfl), ?_, by rw [hi]; rfl⟩
      rw [hl]; rfl
    | false =>
      have := hno hopt
      exact ⟨1, Or.inr rfl, rfl, by rw [this]; rfl⟩
  obtain ⟨D, hD01, hDd, hDo⟩ := hD
  rw [hDd]
  rcases invest_segments_inv e4 with ⟨hn, _, rfl⟩ | ⟨xs, es, os, hq, hm, hsubs, rfl⟩
  · intro xs es h; rw [hn] at h; simp at h
  · obtain ⟨hne, segs, _, _, hcalls⟩ := segmentedShares_inv hm
    have htot : ∀ out, (match o.isInvested with | some x => Outside.use x | none => .no) = out → outsideTotal el σ out 0 = D := by
      rintro out rfl
      rw [← hDo]; cases o.isInvested <;> rfl
    obtain ⟨nr, hle, ⟨q0, rest, hq0, hnr⟩, hsiff⟩ := segmentedShares_iff hsz (by
      intro y hy
      cases hi : o.isInvested with
      | none => rw [hi] at hy; simp at hy
      | some i =>
        rw [hi] at hy; simp at hy; subst hy
        cases hopt : q.optional with
        | true => obtain ⟨j, hj, _, hl⟩ := hyes hopt; rw [hi] at hj; cases hj; exact hl
        | false => rw [hno hopt] at hi; simp at hi) (by cases o.isInvested <;> simp) hm
    rw [hsubs] at hsub
    have hrows := (hsiff σ).1 hsub.1
    have hsnd := seg_sound hrows hle (t := 0) (by norm_num) (by rw [htot _ (by cases o.isInvested <;> rfl)]; exact hD01)
    rw [htot _ (by cases o.isInvested <;> rfl)] at hsnd
    intro xs' es' hq'
    rw [hq] at hq'; cases hq'
    have hmem : ∀ e ∈ es, (segShareVar el e.1, numSegs e.2) ∈ segSharePoints el o.size xs es := fun e he =>
      List.mem_append_left _ (List.mem_map.2 ⟨e, he, rfl⟩)
    have hmem' : (o.size, numSegs xs) ∈ segSharePoints el o.size xs es := List.mem_append_right _ (by simp)
    have hnum : ∀ {l : List (ℚ × ℚ)} {i : Nat} {seg}, (numSegs l)[i]? = some seg →
        ∃ a, l[i]? = some a ∧ seg = (Num.s a.1, Num.s a.2) := by
      intro l i seg hh
      unfold numSegs at hh
      rw [List.getElem?_map] at hh
      cases hl : l[i]? with
      | none => rw [hl] at hh; simp at hh
      | some a => rw [hl] at hh; simp at hh; exact ⟨a, rfl, hh.symm⟩
    have hnr' : nr = q.nrSegments := by
      unfold InvestParams.nrSegments
      rw [hq]
      cases es with
      | nil => exact absurd rfl hne
      | cons e es =>
        simp only [segSharePoints, List.map_cons, List.cons_append, List.cons.injEq] at hq0
        rw [hnr, ← hq0.1]; simp [numSegs]
    rcases hsnd with ⟨hd, _, hz⟩ | ⟨hd, i, hi, _, u, hu0, hu1, hpts⟩
    · left
      exact ⟨hd, hz _ hmem', fun e he => hz _ (hmem e he)⟩
    · right
      refine ⟨hd, i, hnr' ▸ hi, u, hu0, hu1, ?_, ?_⟩
      · obtain ⟨seg, hseg, hval⟩ := hpts _ hmem'
        obtain ⟨a, ha, rfl⟩ := hnum hseg
        exact ⟨a, ha, by simpa [between] using hval⟩
      · intro e he
        obtain ⟨seg, hseg, hval⟩ := hpts _ (hmem e he)
        obtain ⟨a, ha, rfl⟩ := hnum hseg
        exact ⟨a, ha, by simpa [between, segShareVar] using hval⟩

/-- The plan that a solution follows for a flow. -/
def planOf (el : String) (f : FlowData) (σ : Assignment) : FlowPlan where
  r := σ (el ++ "_" ++ "flow_rate")
  b := σ (stateL el)
  s := σ (sizeL el) 0
  d := match f.size with
    | .invest q => if q.optional then σ (investedL el) 0 else 1
    | _ => 1
  val := fun e => σ (segShareL el e) 0

/-- Static conditions: limits on durations are not negative and effects in segments are named once. -/
def FlowData.Proper (n : Nat) (f : FlowData) : Prop :=
  (∀ q, f.onOff = some q → q.NonnegLimits n) ∧ ∀ q, f.size = .invest q → q.segEffects.Nodup

theorem flow_sound_given {f : FlowData} {o : FlowOut} {σ : Assignment} {p : FlowPlan} (hr : FlowRows sys f o σ) (hse : f.Sensible sys.cfg sys.n)
    (hl' : p.r = σ o.flowRate.label)
    (hsch : ∀ q, f.onOff = some q → q.NonnegLimits sys.n ∧ ∃ last, (flowHistory sys.cfg.eps f.previousFlowRate).getLast? = some last ∧
      ScheduleOk sys q (flowHistory sys.cfg.eps f.previousFlowRate) last p.b)
    (hon : ∀ t < sys.n, f.onOff ≠ none → (p.b t = 0 ∧ p.r t = 0) ∨
      (p.b t = 1 ∧ sys.cfg.eps ≤ p.r t ∧ (f.absBounds sys.cfg).1.at t ≤ p.r t ∧ p.r t ≤ (f.absBounds sys.cfg).2.at t))
    (hni : ∀ q, f.size ≠ .invest q) (hcap : p.capacity sys.cfg f = f.fixSize sys.cfg) (hoi : o.invest = none) : p.Allows sys f := by
  have hb : ∀ t, (f.absBounds sys.cfg).1.at t = f.lowRel t * f.fixSize sys.cfg ∧ (f.absBounds sys.cfg).2.at t = f.highRel t * f.fixSize sys.cfg := by
    intro t
    obtain ⟨h1, h2⟩ := relBounds_at (f := f) t
    unfold FlowData.absBounds FlowData.fixSize FlowData.effSize
    cases hs : f.size with
    | invest q => exact absurd hs (hni q)
    | unset => simp [at_mulr, h1, h2]
    | num x => simp [at_mulr, h1, h2]
  refine ⟨hse, ?_, fun q hq => absurd hq (hni q)⟩
  rw [hcap]
  refine ⟨fun ho t ht => ?_, fun ho t ht => ?_, hsch, fun m hm => ?_, fun m hm => ?_, fun m hm => ?_, fun m hm => ?_⟩
  · rw [← (hb t).1, ← (hb t).2, hl']; exact ⟨hr.lower ho t ht, hr.upper ho t ht⟩
  · rw [← (hb t).1, ← (hb t).2]; exact hon t ht ho
  · rw [hl', ← hr.sum]; exact hr.sumMin m hm
  · rw [hl', ← hr.sum]; exact hr.sumMax m hm
  · rw [hl', ← hr.sum]; exact hr.loadMin' m hm hoi
  · rw [hl', ← hr.sum]; exact hr.loadMax' m hm hoi

theorem flow_sound (hv : sys.Valid) {el : String} {f : FlowData} {o : FlowOut} (hf : f.Fits sys.n) (h : flowModel sys el f = .ok o) {σ : Assignment}
    (hs : o.tree.Solves σ) (hse : f.Sensible sys.cfg sys.n) (hpr : f.Proper sys.n) : (planOf el f σ).Allows sys f := by
  have hr := (flow_iff hv hf h σ).1 hs
  obtain ⟨h1, h2, h3, h4, h5, _⟩ := flow_inv h
  obtain ⟨hl, hlen, _, _, hprevr, _⟩ := flowRate_ok h1
  obtain ⟨ha1, ha2⟩ := hf.absBounds sys.cfg
  have hl' : (planOf el f σ).r = σ o.flowRate.label := by rw [hl]; rfl
  -- the schedule
  have hsch : ∀ q, f.onOff = some q → q.NonnegLimits sys.n ∧ ∃ last, (flowHistory sys.cfg.eps f.previousFlowRate).getLast? = some last ∧
      ScheduleOk sys q (flowHistory sys.cfg.eps f.previousFlowRate) last (planOf el f σ).b := by
    intro q hq
    obtain ⟨oo, ho, hm, _⟩ := flow_state hv hf h hq hs
    have hds : ∀ d ∈ [(o.flowRate, f.absBounds sys.cfg)], d.1.length = sys.n ∧ d.2.1.Fits sys.n ∧ d.2.2.Fits sys.n := by
      simpa using ⟨hlen, ha1, ha2⟩
    obtain ⟨h2n, _⟩ := onOff_iff hv (hf.onOff q hq) hds hm
    obtain ⟨prevOn, last, hp, hla, hok⟩ := schedule_sound hv (hf.onOff q hq) hds hm (hr.onOff oo ho)
    have hs1 := C14_single_partial (eps := sys.cfg.eps) (d := o.flowRate) (by omega)
    simp only [List.map_cons, List.map_nil] at hp
    rw [hs1, hprevr, if_pos (by omega)] at hp
    cases hp
    refine ⟨hpr.1 q hq, last, hla, ?_⟩
    have hll : oo.on.label = stateL el := (onOff_on_length hm).2.1
    rw [hll] at hok
    exact hok
  have hon : ∀ t < sys.n, f.onOff ≠ none → ((planOf el f σ).b t = 0 ∧ (planOf el f σ).r t = 0) ∨
      ((planOf el f σ).b t = 1 ∧ sys.cfg.eps ≤ (planOf el f σ).r t ∧ (f.absBounds sys.cfg).1.at t ≤ (planOf el f σ).r t ∧
          (planOf el f σ).r t ≤ (f.absBounds sys.cfg).2.at t) := by
    intro t ht ho
    obtain ⟨q, hq⟩ := Option.ne_none_iff_exists'.1 ho
    obtain ⟨oo, ho, hm, _, hst⟩ := flow_state hv hf h hq hs
    have hll : oo.on.label = stateL el := (onOff_on_length hm).2.1
    have := hst t ht
    rw [hll] at this
    rw [hl']
    exact this
  have hoff : f.onOff = none → o.onOff = none := by
    intro ho
    cases hoo : o.onOff with
    | none => rfl
    | some oo => rw [hoo] at h2; obtain ⟨q, hq, _⟩ := flowOnOff_some h2; rw [ho] at hq; cases hq
  have hnone : (∀ q, f.size ≠ .invest q) → o.invest = none := by
    intro hni
    cases hoi : o.invest with
    | none => rfl
    | some i => rw [hoi] at h3; obtain ⟨q, hq, _⟩ := flowInvest_some h3; exact absurd hq (hni q)
  -- the size
  cases hsz : f.size with
  | invest q =>
    obtain ⟨i, hi, hm⟩ := flow_has_invest h hsz
    obtain ⟨hsl, _, hyes, hno, hiff⟩ := invest_iff hlen hf.relBounds.1 hf.relBounds.2 hf.prof (flow_on_len h) hm
    have hit := hr.invest i hi
    have hrow := ((hiff σ).1 hit).1
    have hsl' : σ i.size.label 0 = (planOf el f σ).s := by rw [hsl]; rfl
    have hcap : (planOf el f σ).capacity sys.cfg f = (planOf el f σ).s := by unfold FlowPlan.capacity; rw [hsz]
    obtain ⟨hz, hnn, _⟩ := hse.invest q hsz
    have hd : (planOf el f σ).d = if q.optional then σ (investedL el) 0 else 1 := by unfold planOf; rw [hsz]
    -- rates that fit to the size
    have hfitS : ∀ t < sys.n, (f.onOff = none ∨ (planOf el f σ).b t = 1) →
        f.lowRel t * (planOf el f σ).s ≤ (planOf el f σ).r t ∧ (planOf el f σ).r t ≤ f.highRel t * (planOf el f σ).s := by
      intro t ht hor
      obtain ⟨rb1, rb2⟩ := relBounds_at (f := f) t
      rw [hl', ← hsl']
      cases hp : f.fixedProfile with
      | some g =>
        have := hrow.prof g hp t ht
        have hlo : f.lowRel t = g.at t := by rw [← rb1]; simp [FlowData.relBounds, hp]
        have hhi : f.highRel t = g.at t := by rw [← rb2]; simp [FlowData.relBounds, hp]
        rw [hlo, hhi, this]
        exact ⟨le_rfl, le_rfl⟩
      | none =>
        rw [← rb1, ← rb2]
        refine ⟨?_, hrow.le hp t ht⟩
        rcases hor with ho | hb
        · exact hrow.ge hp (by rw [hoff ho]; rfl) t ht
        · cases hoo : o.onOff with
          | none => exact hrow.ge hp (by rw [hoo]; rfl) t ht
          | some oo =>
            have hll : oo.on.label = stateL el := by
              rw [hoo] at h2
              obtain ⟨_, _, hm'⟩ := flowOnOff_some h2
              exact (onOff_on_length hm').2.1
            have := hrow.geOn hp (σ oo.on.label) (by rw [hoo]; rfl) t ht
            rw [hll, show σ (stateL el) t = 1 from hb] at this
            linarith
    refine ⟨hse, ?_, fun q' hq' => ?_⟩
    · rw [hcap]
      refine ⟨fun ho t ht => hfitS t ht (.inl ho), fun ho t ht => ?_, hsch, fun m hm => ?_, fun m hm => ?_, fun m hm => ?_, fun m hm => ?_⟩
      · rcases hon t ht ho with h | ⟨a, b, _⟩
        · exact .inl h
        · exact .inr ⟨a, b, hfitS t ht (.inr a)⟩
      · rw [hl', ← hr.sum]; exact hr.sumMin m hm
      · rw [hl', ← hr.sum]; exact hr.sumMax m hm
      · rw [hl', ← hr.sum, ← hsl', mul_comm]; exact hr.loadMin m hm i hi
      · rw [hl', ← hr.sum, ← hsl', mul_comm]; exact hr.loadMax m hm i hi
    · rw [hsz] at hq'; cases hq'
      have hdec : Decided sys.cfg q (planOf el f σ).s (planOf el f σ).d := by
        have hinv : (i.isInvested.map fun i => σ i.label) = if q.optional then some (σ (investedL el)) else none := by
          cases hopt : q.optional with
          | true => obtain ⟨j, hj, hlj, _⟩ := hyes hopt; rw [hj, Option.map_some, hlj]; rfl
          | false => rw [hno hopt]; rfl
        rw [hinv] at hrow
        have := (investRows_iff (q := q) (cfg := sys.cfg) (N := 0) (x := fun _ => 0) (size := σ i.size.label) (i := σ (investedL el)) (relMin := .s 0) (relMax := .s 0) hz hnn hv.heps).1
          ⟨hrow.fixed, hrow.lower, hrow.upper, hrow.bin, hrow.optFixed, hrow.optUpper, hrow.optLower, by simp, by simp, by simp, by simp⟩
        have := this.1
        rw [hsl'] at this
        rw [hd]
        cases hopt : q.optional with
        | true => simpa [hopt] using this
        | false =>
          rcases this with ⟨h, _⟩ | ⟨_, h⟩
          · rw [hopt] at h; cases h
          · exact .inr ⟨by simp [hopt], h⟩
      have hsg := segments_sound hlen hf.relBounds.1 hf.relBounds.2 hf.prof (flow_on_len h) hm hit
      rw [hsl', ← hd] at hsg
      refine ⟨hdec, fun ho => by rw [hd, ho]; rfl, ⟨hpr.2 q hsz, hsg⟩, fun ho h0 hof t ht => ?_, fun g hg t ht => ?_⟩
      · have hS : (planOf el f σ).s = 0 := by
          rcases hdec with ⟨_, _, h⟩ | ⟨h, _⟩
          · exact h
          · have := h ho; rw [h0] at this; exact absurd this (by norm_num)
        have hlow := hr.lower hof t ht
        rw [(absBounds_invest (sys := sys) hsz t).1, ← hl'] at hlow
        have := (hfitS t ht (.inl hof)).2
        rw [hS, mul_zero] at this
        exact le_trans hlow this
      · rw [hl', ← hsl']; exact hrow.prof g hg t ht
  | unset => exact flow_sound_given hr hse hl' hsch hon (fun q => by simp [hsz]) (by unfold FlowPlan.capacity FlowData.fixSize FlowData.effSize; rw [hsz]) (hnone (fun q => by simp [hsz]))
  | num x =>
    have hx := (hse.size.1 x hsz).ne'
    exact flow_sound_given hr hse hl' hsch hon (fun q => by simp [hsz]) (by unfold FlowPlan.capacity FlowData.fixSize FlowData.effSize; rw [hsz]; simp [pyOr, hx]) (hnone (fun q => by simp [hsz]))

end Flix
