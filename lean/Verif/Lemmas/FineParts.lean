import Verif.Lemmas.Fine
import Verif.Props.FlowInvest
import Verif.Props.MainResults

/-!
# Models without exceptions, part 2: segments, investments, flows, components, buses
-/

namespace Flix

theorem mapM_all {ε α β} {f : α → Except ε β} {P : α → β → Prop} {l : List α} (h : ∀ a ∈ l, ∃ b, f a = .ok b ∧ P a b) :
    ∃ r, l.mapM f = .ok r ∧ List.Forall₂ P l r := by
  obtain ⟨r, hr⟩ := mapM_good (f := f) (l := l) fun a ha => ⟨_, (h a ha).choose_spec.1⟩
  refine ⟨r, hr, forall₂_imp' (mapM_ok.1 hr) fun a ha b hb => ?_⟩
  obtain ⟨b', e, hp⟩ := h a ha
  cases hb.symm.trans e
  exact hp

/-! ## Segments -/

theorem segment_good (el : String) (L i : Nat) : ∃ q, segmentModel el L i = .ok q ∧ q.2.Fine ∧ q.1.inSegment.length = L ∧ q.1.lambda0.length = L ∧
    q.1.lambda1.length = L := by
  unfold segmentModel
  simp only [mkVar_free, ok_bind]
  refine ⟨_, rfl, fine_node.2 ⟨fun x hx => ?_, fun r hr => ?_, by simp⟩, rfl, rfl, rfl⟩
  · simp only [List.mem_cons, List.not_mem_nil, or_false] at hx
    rcases hx with rfl | rfl | rfl
    · exact var_fine (fitsBound_none _) (fitsBound_none _) (fitsBound_none _)
    · exact var_fine (fitsBound_none _) (fitsBound_of (by simp)) (fitsBound_of (by simp))
    · exact var_fine (fitsBound_none _) (fitsBound_of (by simp)) (fitsBound_of (by simp))
  · rw [List.mem_singleton] at hr
    subst hr
    refine con_fine L fun op ho => ?_
    simp only [mkEq, List.mem_cons, List.not_mem_nil, or_false] at ho
    rcases ho with rfl | rfl | rfl <;> exact good_sAll rfl (by simp)

theorem restructure_good {nr : Nat} {pts : List (Num × Num)} (h : nr ≤ pts.length) : ∃ r, restructure nr pts = .ok r ∧ ∀ p ∈ r, p ∈ pts := by
  unfold restructure
  obtain ⟨r, hr⟩ := mapM_good (f := fun i => pyGet pts i) (l := List.range nr) fun i hi => by
    rw [List.mem_range] at hi
    exact ⟨pts[i], pyGet_ok.2 (by simp [show i < pts.length by omega])⟩
  refine ⟨r, hr, fun p hp => ?_⟩
  obtain ⟨i, _, hi⟩ := forall₂_mem_right (mapM_ok.1 hr) hp
  exact List.mem_of_getElem? (pyGet_ok.1 hi)

theorem multi_good {el : String} {L k : Nat} {points : List (Var × List (Num × Num))} {outside : Outside} (h0 : points ≠ [])
    (hp : ∀ q ∈ points, q.1.length = L ∧ q.2.length = k ∧ ∀ p ∈ q.2, p.1.Fits L ∧ p.2.Fits L) (ho : ∀ x, outside = .use x → x.length = L) :
    ∃ t, multipleSegments el L points outside = .ok t ∧ t.Fine := by
  have hk : nrOfSegments points = .ok k := by
    cases points with
    | nil => exact absurd rfl h0
    | cons q points =>
      obtain ⟨x, segs⟩ := q
      show Except.ok segs.length = _
      rw [(hp (x, segs) (by simp)).2.1]
  obtain ⟨pts, h1, g1⟩ := mapM_all (f := fun q : Var × List (Num × Num) => do
    let r ← restructure k q.2
    return (q.1, r)) (P := fun _ r => r.1.length = L ∧ ∀ p ∈ r.2, p.1.Fits L ∧ p.2.Fits L) (l := points) (by
    intro q hq
    obtain ⟨a1, a2, a3⟩ := hp q hq
    obtain ⟨r, hr, hm⟩ := restructure_good (nr := k) (pts := q.2) (by omega)
    refine ⟨(q.1, r), by simp only [hr, ok_bind]; rfl, a1, fun p hpm => a3 p (hm p hpm)⟩)
  obtain ⟨segs, h2, g2⟩ := mapM_all (f := fun i => segmentModel el L i) (P := fun _ q => q.2.Fine ∧ q.1.inSegment.length = L ∧ q.1.lambda0.length = L ∧
    q.1.lambda1.length = L) (l := List.range k) (fun i _ => segment_good el L i)
  obtain ⟨q, h3, g3⟩ : ∃ q, outsidePart (el ++ "__" ++ "MultipleSegments") L outside = .ok q ∧ (∀ x ∈ q.1, x.Fine) ∧ ∀ op ∈ q.2, op.Good L := by
    cases outside with
    | no => exact ⟨_, rfl, by simp, by intro op hop; rw [List.mem_singleton.1 hop]; exact good_const (by simp)⟩
    | create =>
      unfold outsidePart
      simp only [mkVar_free, ok_bind]
      refine ⟨_, rfl, ?_, ?_⟩
      · intro x hx
        rw [List.mem_singleton.1 hx]
        exact var_fine (fitsBound_none _) (fitsBound_none _) (fitsBound_none _)
      · intro op hop
        rw [List.mem_singleton.1 hop]
        exact good_sAll rfl (by simp)
    | use x => exact ⟨_, rfl, by simp, by intro op hop; rw [List.mem_singleton.1 hop]; exact good_sAll (ho x rfl) (by simp)⟩
  obtain ⟨vs, ops⟩ := q
  unfold multipleSegments
  rw [hk, ok_bind]
  rw [h1, ok_bind, h2, ok_bind, h3, ok_bind]
  refine ⟨_, rfl, fine_node.2 ⟨g3.1, fun r hr => ?_, fun s hs => ?_⟩⟩
  · rw [List.mem_append, List.mem_map, List.mem_singleton] at hr
    rcases hr with ⟨q, hq, rfl⟩ | rfl
    · obtain ⟨_, _, b1, b2⟩ := forall₂_mem_right g1 hq
      refine con_fine L fun op hop => ?_
      simp only [mkEq, List.mem_cons] at hop
      rcases hop with rfl | hop
      · exact good_sAll b1 (by simp)
      · unfold lambdaOps at hop
        obtain ⟨l, hl, hop⟩ := List.mem_flatten.1 hop
        obtain ⟨i, hi, he⟩ := List.mem_iff_getElem.1 hl
        rw [List.getElem_zipWith] at he
        rw [List.length_zipWith] at hi
        subst he
        have m1 : ((segs.map (·.1))[i]'(by omega)) ∈ segs.map (·.1) := List.getElem_mem _
        have m2 : (q.2[i]'(by omega)) ∈ q.2 := List.getElem_mem _
        obtain ⟨sg, hsg, e⟩ := List.mem_map.1 m1
        obtain ⟨_, _, _, _, c2, c3⟩ := forall₂_mem_right g2 hsg
        rw [e] at c2 c3
        simp only [List.mem_cons, List.not_mem_nil, or_false] at hop
        rcases hop with rfl | rfl
        · exact good_sAll c2 (b2 _ m2).1
        · exact good_sAll c3 (b2 _ m2).2
    · refine con_fine L fun op hop => ?_
      simp only [mkEq, List.mem_append, List.mem_map] at hop
      rcases hop with ⟨sv, ⟨sg, hsg, rfl⟩, rfl⟩ | hop
      · obtain ⟨_, _, _, c1, _⟩ := forall₂_mem_right g2 hsg
        exact good_sAll c1 (by simp)
      · exact g3.2 op hop
  · obtain ⟨sg, hsg, rfl⟩ := List.mem_map.1 hs
    exact (forall₂_mem_right g2 hsg).choose_spec.2.1

theorem segShares_good {el : String} {x : Var} (hx : x.length = 1) {xs : List (ℚ × ℚ)} {es : List (String × List (ℚ × ℚ))} {outside : Outside}
    (h0 : es ≠ []) (hl : ∀ e ∈ es, e.2.length = xs.length) (ho : ∀ y, outside = .use y → y.length = 1) :
    ∃ o, segmentedShares el x xs es outside = .ok o ∧ o.tree.Fine := by
  obtain ⟨vars, h1, g1⟩ := mapM_all (f := fun e : String × List (ℚ × ℚ) => do
    let v ← mkVar (el ++ "__" ++ "SegmentedShares") (e.1 ++ "_segmented") 1
    return (e.1, v, e.2)) (P := fun e r => r.2.1.length = 1 ∧ r.2.2 = e.2 ∧ r.2.1.Fine) (l := es) (by
    intro e _
    simp only [mkVar_free, ok_bind]
    exact ⟨_, rfl, rfl, rfl, var_fine (fitsBound_none _) (fitsBound_none _) (fitsBound_none _)⟩)
  obtain ⟨t, h2, g2⟩ := multi_good (el := el) (L := 1) (k := xs.length)
    (points := vars.map (fun e => (e.2.1, e.2.2.map fun q => (Num.s q.1, Num.s q.2))) ++ [(x, xs.map fun q => (Num.s q.1, Num.s q.2))])
    (outside := outside) (by simp) (by
      intro q hq
      rw [List.mem_append, List.mem_singleton] at hq
      have fitsAll : ∀ (l : List (ℚ × ℚ)), ∀ p ∈ l.map (fun q => (Num.s q.1, Num.s q.2)), p.1.Fits 1 ∧ p.2.Fits 1 := by
        intro l p hp
        obtain ⟨a, _, rfl⟩ := List.mem_map.1 hp
        simp
      rcases hq with hq | rfl
      · obtain ⟨e, he, rfl⟩ := List.mem_map.1 hq
        obtain ⟨e', he', k1, k2, _⟩ := forall₂_mem_right g1 he
        exact ⟨k1, by rw [List.length_map, k2, hl e' he'], fitsAll _⟩
      · exact ⟨hx, by simp, fitsAll _⟩) ho
  obtain ⟨calls, h3⟩ := mapM_good (f := fun e : String × Var × List (ℚ × ℚ) =>
    sharesTo .invest el "segmented_effects" [(some e.1, .s 1)] (.s 1) (some e.2.1)) (l := vars) (by
    intro e _
    exact sharesTo_good (n := 1) (by intro q hq; rw [List.mem_singleton.1 hq]; exact Or.inl rfl) (by simp))
  cases es with
  | nil => exact absurd rfl h0
  | cons e es =>
    unfold segmentedShares
    simp only
    rw [if_neg (by rw [hl e (by simp)]; simp)]
    rw [h1, ok_bind, h2, ok_bind, h3, ok_bind]
    refine ⟨_, rfl, fine_node.2 ⟨fun y hy => ?_, by simp, fun s hs => ?_⟩⟩
    · obtain ⟨e', he', rfl⟩ := List.mem_map.1 hy
      exact (forall₂_mem_right g1 he').choose_spec.2.2.2
    · rw [List.mem_singleton.1 hs]
      exact g2

/-! ## Investments -/

theorem sizeVar_good (cfg : Cfg) (p : String) (q : InvestParams) : ∃ x, sizeVar cfg p q = .ok x ∧ x.length = 1 ∧ x.Fine := by
  unfold sizeVar
  split
  · rename_i h
    cases hf : q.fixedSize with
    | none => rw [hf] at h; simp [pyTruthy] at h
    | some v =>
      refine ⟨_, rfl, rfl, var_fine (fitsBound_scalar 1 (some v)) (fitsBound_none _) (fitsBound_none _)⟩
  · rw [mkVar_free]
    exact ⟨_, rfl, rfl, var_fine (fitsBound_none _) (fitsBound_of (by simp)) (fitsBound_of (by simp))⟩

theorem invest_good {cfg : Cfg} {el : String} {q : InvestParams} {x : Var} {relMin relMax : Num} {profile : Option Num} {on : Option Var} {L : Nat}
    (hq : q.Sane) (hx : x.length = L) (h1 : relMin.Fits L) (h2 : relMax.Fits L) (h3 : ∀ g, profile = some g → g.Fits L)
    (h4 : ∀ b, on = some b → b.length = L) :
    ∃ o, investModel cfg el q x relMin relMax profile on = .ok o ∧ o.tree.Fine ∧ o.size.length = 1 := by
  obtain ⟨size, e1, l1, f1⟩ := sizeVar_good cfg (el ++ "__" ++ "Investment") q
  obtain ⟨inv, e2, l2, f2⟩ : ∃ inv, investedVar (el ++ "__" ++ "Investment") q = .ok inv ∧ (∀ b, inv = some b → b.length = 1) ∧
      ∀ b, inv = some b → b.Fine := by
    unfold investedVar
    split
    · rw [mkVar_free]
      refine ⟨_, rfl, ?_, ?_⟩
      · intro b hb; cases hb; rfl
      · intro b hb; cases hb
        exact var_fine (fitsBound_none _) (fitsBound_none _) (fitsBound_none _)
    · exact ⟨none, rfl, by simp, by simp⟩
  obtain ⟨s1, e3⟩ := sharesTo_good (tg := .invest) (el := el) (name := "fix_effects") (x := inv) (scalars_series hq.eff.1 1) (fits_s 1 1)
  obtain ⟨s2, e4⟩ : ∃ s2, divestShares el q inv = .ok s2 := by
    unfold divestShares
    split
    · obtain ⟨a, ha⟩ := sharesTo_good (tg := .invest) (el := el) (name := "divest_effects") (x := none) (scalars_series hq.eff.2.1 1) (fits_s 1 1)
      obtain ⟨b, hb⟩ := sharesTo_good (tg := .invest) (el := el) (name := "divest_cancellation_effects") (x := inv) (scalars_series hq.eff.2.1 1) (fits_s 1 (-1))
      rw [ha, ok_bind, hb, ok_bind]
      exact ⟨_, rfl⟩
    · exact ⟨[], rfl⟩
  obtain ⟨s3, e5⟩ := sharesTo_good (tg := .invest) (el := el) (name := "specific_effects") (x := some size) (scalars_series hq.eff.2.2 1) (fits_s 1 1)
  obtain ⟨ts, e6, f6⟩ : ∃ ts, investSegments el q size inv = .ok ts ∧ ∀ t ∈ ts.1, t.Fine := by
    unfold investSegments
    cases hs : q.effectsInSegments with
    | none => exact ⟨_, rfl, by simp⟩
    | some p =>
      obtain ⟨xs, es⟩ := p
      obtain ⟨a, b⟩ := hq.segs xs es hs
      cases inv with
      | none =>
        obtain ⟨o, ho, hf⟩ := segShares_good (el := el) (x := size) (outside := .no) l1 a b (by simp)
        simp only [ho, ok_bind]
        exact ⟨_, rfl, by simpa using hf⟩
      | some y =>
        obtain ⟨o, ho, hf⟩ := segShares_good (el := el) (x := size) (outside := .use y) l1 a b (by intro z hz; cases hz; exact l2 y rfl)
        simp only [ho, ok_bind]
        exact ⟨_, rfl, by simpa using hf⟩
  obtain ⟨subs, s4⟩ := ts
  unfold investModel
  simp only
  rw [e1, ok_bind, e2, ok_bind, e3, ok_bind, e4, ok_bind, e5, ok_bind, e6, ok_bind]
  refine ⟨_, rfl, fine_node.2 ⟨fun y hy => ?_, fun r hr => ?_, f6⟩, l1⟩
  · simp only [List.mem_cons, Option.mem_toList] at hy
    rcases hy with rfl | hy
    · exact f1
    · exact f2 y hy
  · rw [List.mem_append] at hr
    rcases hr with hr | hr
    · cases inv with
      | none => simp at hr
      | some b =>
        have lb := l2 b rfl
        simp only [optionalCons] at hr
        split at hr
        · rw [List.mem_singleton.1 hr]
          refine con_fine 1 fun op hop => ?_
          simp only [mkEq, List.mem_cons, List.not_mem_nil, or_false] at hop
          rcases hop with rfl | rfl
          · exact good_sAll1 l1 (by simp)
          · exact good_sAll1 lb (by simp)
        · simp only [List.mem_cons, List.not_mem_nil, or_false] at hr
          rcases hr with rfl | rfl
          · refine con_fine 1 fun op hop => ?_
            simp only [mkIneq, List.mem_cons, List.not_mem_nil, or_false] at hop
            rcases hop with rfl | rfl
            · exact good_sAll1 l1 (by simp)
            · exact good_sAll1 lb (by simp)
          · refine con_fine 1 fun op hop => ?_
            simp only [mkIneq, List.mem_cons, List.not_mem_nil, or_false] at hop
            rcases hop with rfl | rfl
            · exact good_sAll1 l1 (by simp)
            · exact good_sAll1 lb (by simp)
    · unfold definingCons at hr
      cases profile with
      | some g =>
        simp only at hr
        rw [List.mem_singleton.1 hr]
        refine con_fine L fun op hop => ?_
        simp only [mkEq, List.mem_cons, List.not_mem_nil, or_false] at hop
        rcases hop with rfl | rfl
        · exact good_sAll hx (by simp)
        · exact good_sAll1 l1 (by simpa using h3 g rfl)
      | none =>
        cases on with
        | none =>
          simp only [List.mem_cons, List.not_mem_nil, or_false] at hr
          rcases hr with rfl | rfl
          · refine con_fine L fun op hop => ?_
            simp only [mkIneq, List.mem_cons, List.not_mem_nil, or_false] at hop
            rcases hop with rfl | rfl
            · exact good_sAll hx (by simp)
            · exact good_sAll1 l1 (by simpa using h2)
          · refine con_fine L fun op hop => ?_
            simp only [mkIneq, List.mem_cons, List.not_mem_nil, or_false] at hop
            rcases hop with rfl | rfl
            · exact good_sAll hx (by simp)
            · exact good_sAll1 l1 h1
        | some b =>
          simp only [List.mem_cons, List.not_mem_nil, or_false] at hr
          rcases hr with rfl | rfl
          · refine con_fine L fun op hop => ?_
            simp only [mkIneq, List.mem_cons, List.not_mem_nil, or_false] at hop
            rcases hop with rfl | rfl
            · exact good_sAll hx (by simp)
            · exact good_sAll1 l1 (by simpa using h2)
          · refine con_fine L fun op hop => ?_
            simp only [mkIneq, List.mem_cons, List.not_mem_nil, or_false] at hop
            rcases hop with rfl | rfl | rfl | rfl
            · exact good_sAll hx (by simp)
            · exact good_sAll (h4 b rfl) (by simpa using h2)
            · exact good_sAll1 l1 h1
            · exact good_const (by simpa using h2)

/-! ## Flows -/

theorem previous_len {p : Option Num} (h : p ≠ some (.v [])) : SameShape p.toList := by
  cases p with
  | none => exact Or.inl (by simp)
  | some a =>
    cases a with
    | s x => exact Or.inl (by simp [Num.isScalar])
    | v xs =>
      refine Or.inr ⟨xs.length, ?_, by simp [Num.isScalar, Num.len]⟩
      cases xs with
      | nil => exact absurd rfl h
      | cons x xs => simp

theorem flow_good {sys : Sys} (hv : sys.Valid) (hn : 1 < sys.n) {el : String} {f : FlowData} (hf : f.Sane sys) :
    ∃ o, flowModel sys el f = .ok o ∧ o.tree.Fine := by
  obtain ⟨rate, e1⟩ : ∃ rate, flowRateVar sys el f = .ok rate := by
    unfold flowRateVar
    cases f.onOff with
    | none => exact ⟨_, mkVar_free ..⟩
    | some q => exact ⟨_, mkVar_free ..⟩
  obtain ⟨r1, r2, r3, r4, r5, r6, r7⟩ := flowRate_ok e1
  have hab := hf.fits.absBounds sys.cfg
  obtain ⟨oo, e2, f2, l2⟩ : ∃ oo, flowOnOff sys el f rate = .ok oo ∧ (∀ o, oo = some o → o.tree.Fine) ∧ ∀ b, oo.map (·.on) = some b → b.length = sys.n := by
    unfold flowOnOff
    cases hq : f.onOff with
    | none => exact ⟨none, rfl, by simp, by simp⟩
    | some q =>
      have hs := hf.onOff q hq
      have hp : [(rate, f.absBounds sys.cfg)].filterMap (·.1.previous) = f.previousFlowRate.toList := by
        simp only [List.filterMap_cons, List.filterMap_nil, r5, if_pos hn]
        cases f.previousFlowRate <;> rfl
      obtain ⟨o, ho, hfine⟩ := onOff_good hv hn (el := el) (q := q) (ds := [(rate, f.absBounds sys.cfg)]) hs.fits hs.eff (by simp) (by
        intro d hd
        rw [List.mem_singleton.1 hd]
        exact ⟨r2, hab⟩) (by rw [hp]; exact hs.shape) (by rw [hp]; exact hs.runs)
      simp only [ho]
      refine ⟨_, rfl, by intro o' h'; cases h'; exact hfine, ?_⟩
      intro b hb
      cases hb
      exact (onOff_on_length ho).1
  obtain ⟨inv, e3, f3, l3⟩ : ∃ inv, flowInvest sys el f rate (oo.map (·.on)) = .ok inv ∧ (∀ o, inv = some o → o.tree.Fine) ∧
      ∀ o, inv = some o → o.size.length = 1 := by
    unfold flowInvest FlowData.effSize
    cases hs : f.size with
    | unset => exact ⟨none, rfl, by simp, by simp⟩
    | num x => exact ⟨none, rfl, by simp, by simp⟩
    | invest q =>
      obtain ⟨o, ho, hfine, hl⟩ := invest_good (cfg := sys.cfg) (el := el) (hf.invest q hs) r2 hf.fits.relBounds.1 hf.fits.relBounds.2 hf.fits.prof l2
      simp only [ho]
      exact ⟨_, rfl, by intro o' h'; cases h'; exact hfine, by intro o' h'; cases h'; exact hl⟩
  obtain ⟨sh, e4⟩ := sharesTo_good (tg := .operation) (el := el) (name := "effects_per_flow_hour") (x := some rate) hf.eff.op (dt_fits hv)
  have key : ∃ o, flowModel sys el f = .ok o := by
    unfold flowModel
    simp only [e1, ok_bind, e2, e3, mkVar_free, e4]
    exact ⟨_, rfl⟩
  obtain ⟨o, ho⟩ := key
  refine ⟨o, ho, ?_⟩
  obtain ⟨k1, k2, k3, k4, k5, _⟩ := flow_inv ho
  have hr : o.flowRate = rate := Except.ok.inj (k1.symm.trans e1)
  rw [hr] at k2 k3 k5
  have hoo : o.onOff = oo := Except.ok.inj (k2.symm.trans e2)
  rw [hoo] at k3 k5
  have hi : o.invest = inv := Except.ok.inj (k3.symm.trans e3)
  rw [hi] at k5
  rw [k5]
  have hsum : o.sumFlowHours.length = 1 := by rw [k4]
  refine fine_node.2 ⟨fun x hx => ?_, fun r hr => ?_, fun s hs => ?_⟩
  · simp only [List.mem_cons, List.not_mem_nil, or_false] at hx
    rcases hx with rfl | rfl
    · refine var_fine (by rw [r3]; exact fitsBound_none _) ?_ ?_
      · rw [r2, r6]; split
        · exact fitsBound_of (by simp)
        · exact fitsBound_of hab.1
      · rw [r2, r7]; split
        · exact fitsBound_none _
        · exact fitsBound_of hab.2
    · rw [k4]
      exact var_fine (fitsBound_none _) (fitsBound_scalar _ _) (fitsBound_scalar _ _)
  · rw [List.mem_cons] at hr
    rcases hr with rfl | hr
    · refine con_fine 1 fun op hop => ?_
      simp only [mkEq, List.mem_cons, List.not_mem_nil, or_false] at hop
      rcases hop with rfl | rfl
      · exact good_sSum (by rw [r2]; exact dt_fits hv)
      · exact good_sAll1 hsum (by simp)
    · unfold loadFactorCons at hr
      simp only [List.mem_append] at hr
      rcases hr with hr | hr
      · cases hm : f.loadFactorMax with
        | none => rw [hm] at hr; simp at hr
        | some lf =>
          rw [hm] at hr
          rw [List.mem_singleton.1 hr]
          refine con_fine 1 fun op hop => ?_
          simp only [mkIneq, List.mem_cons] at hop
          rcases hop with rfl | hop
          · exact good_sAll1 hsum (by simp)
          · cases inv with
            | none => simp only [List.mem_singleton] at hop; rw [hop]; exact good_const (by simp)
            | some i => simp only [List.mem_singleton] at hop; rw [hop]; exact good_sAll1 (l3 i rfl) (by simp)
      · cases hm : f.loadFactorMin with
        | none => rw [hm] at hr; simp at hr
        | some lf =>
          rw [hm] at hr
          rw [List.mem_singleton.1 hr]
          refine con_fine 1 fun op hop => ?_
          simp only [mkIneq, List.mem_cons] at hop
          rcases hop with rfl | hop
          · exact good_sAll1 hsum (by simp)
          · cases inv with
            | none => simp only [List.mem_singleton] at hop; rw [hop]; exact good_const (by simp)
            | some i => simp only [List.mem_singleton] at hop; rw [hop]; exact good_sAll1 (l3 i rfl) (by simp)
  · rw [List.mem_append, Option.mem_toList, Option.mem_toList] at hs
    rcases hs with hs | hs
    · cases oo with
      | none => simp at hs
      | some o' => cases hs; exact f2 o' rfl
    · cases inv with
      | none => simp at hs
      | some o' => cases hs; exact f3 o' rfl

/-! ## Components -/

theorem fill_sensible {sys : Sys} {c : CompData} {f : FlowData} (h : f.Sane sys) : (fillOnOff c f).Sane sys := by
  unfold fillOnOff
  split
  · refine ⟨⟨h.fits.relMin, h.fits.relMax, h.fits.prof, ?_⟩, ⟨h.eff.op, ?_, h.eff.invest⟩, h.invest, h.past, ?_⟩
    · intro q hq; cases hq
      constructor <;> intro m hm <;> cases hm
    · intro q hq; cases hq; exact empty_effFits _
    · intro q hq; cases hq
      refine ⟨?_, empty_effFits _, previous_len h.past, fun hr => ?_⟩
      · constructor <;> intro m hm <;> cases hm
      · rcases hr with hr | hr | hr | hr <;> exact absurd rfl hr
  · exact h

theorem flow_has_on {sys : Sys} {el : String} {f : FlowData} {o : FlowOut} {q : OnOffParams} (h : flowModel sys el f = .ok o) (hq : f.onOff = some q) :
    ∃ b, o.onOff = some b ∧ b.on.isBinary = true ∧ b.on.length = sys.n := by
  have h2 := (flow_inv h).2.1
  cases ho : o.onOff with
  | none => rw [ho] at h2; rw [flowOnOff_none h2] at hq; cases hq
  | some b =>
    rw [ho] at h2
    obtain ⟨_, _, hb⟩ := flowOnOff_some h2
    exact ⟨b, rfl, (onOff_on_length hb).2.2, (onOff_on_length hb).1⟩

theorem comp_good {sys : Sys} (hv : sys.Valid) (hn : 1 < sys.n) {c : CompData} (hc : c.Sane sys) :
    ∃ o, compModel sys c = .ok o ∧ o.tree.Fine := by
  have hflow : ∀ f ∈ c.inputs ++ c.outputs, ∃ q, compFlow sys c f = .ok q ∧ (q.1 = fillOnOff c f ∧
      flowModel sys (flowFull c.label f.label) (fillOnOff c f) = .ok q.2 ∧ q.2.tree.Fine) := by
    intro f hf
    obtain ⟨o, ho, hfine⟩ := flow_good hv hn (el := flowFull c.label f.label) (fill_sensible (c := c) (hc.flows.flows f hf))
    refine ⟨(fillOnOff c f, o), ?_, rfl, ho, hfine⟩
    unfold compFlow
    simp only [fillOnOff_label, ho]
    rfl
  obtain ⟨ins, e1, g1⟩ := mapM_all (l := c.inputs) fun f hf => hflow f (List.mem_append_left _ hf)
  obtain ⟨outs, e2, g2⟩ := mapM_all (l := c.outputs) fun f hf => hflow f (List.mem_append_right _ hf)
  have g : List.Forall₂ (fun f q => q.1 = fillOnOff c f ∧ flowModel sys (flowFull c.label f.label) (fillOnOff c f) = .ok q.2 ∧ q.2.tree.Fine)
    (c.inputs ++ c.outputs) (ins ++ outs) := List.rel_append g1 g2
  have hprev : (ins ++ outs).filterMap (fun q => q.2.flowRate.previous) = (c.inputs ++ c.outputs).filterMap (·.previousFlowRate) := by
    clear e1 e2 g1 g2 hflow
    generalize c.inputs ++ c.outputs = fs at *
    generalize ins ++ outs = qs at *
    clear hc
    induction g with
    | nil => rfl
    | cons hd hh ih =>
      rename_i f q fs qs
      have := (flowRate_ok (flow_inv hd.2.1).1).2.2.2.2.1
      rw [if_pos hn] at this
      have e : (fillOnOff c f).previousFlowRate = f.previousFlowRate := by unfold fillOnOff; split <;> rfl
      simp only [List.filterMap_cons, this, e, ih]
  obtain ⟨on, e3, f3, l3⟩ : ∃ on, compOnOff sys c (ins ++ outs) = .ok on ∧ (∀ o, on = some o → o.tree.Fine) ∧ ∀ b, on = some b → b.on.length = sys.n := by
    unfold compOnOff
    cases hq : c.onOff with
    | none => exact ⟨none, rfl, by simp, by simp⟩
    | some q =>
      obtain ⟨hne, hs⟩ := hc.flows.onOff q hq
      have hp : ((ins ++ outs).map fun q => (q.2.flowRate, q.1.absBounds sys.cfg)).filterMap (·.1.previous) =
          (c.inputs ++ c.outputs).filterMap (·.previousFlowRate) := by
        rw [List.filterMap_map]; exact hprev
      obtain ⟨o, ho, hfine⟩ := onOff_good hv hn (el := c.label) (q := q) (ds := (ins ++ outs).map fun q => (q.2.flowRate, q.1.absBounds sys.cfg))
        hs.fits hs.eff (by
          intro e
          have := g.length_eq
          rw [List.map_eq_nil_iff.1 e] at this
          exact hne (List.length_eq_zero_iff.1 this)) (by
          intro d hd
          obtain ⟨q', hq', rfl⟩ := List.mem_map.1 hd
          obtain ⟨f, hf, a1, a2, _⟩ := forall₂_mem_right g hq'
          refine ⟨(flowRate_ok (flow_inv a2).1).2.1, ?_⟩
          rw [a1]
          exact (fillOnOff_fits (hc.flows.flows f hf).fits).absBounds sys.cfg) (by rw [hp]; exact hs.shape) (by rw [hp]; exact hs.runs)
      simp only [ho]
      exact ⟨_, rfl, by intro o' h'; cases h'; exact hfine, by intro b hb; cases hb; exact (onOff_on_length ho).1⟩
  obtain ⟨prev, e4, f4⟩ : ∃ prev, compPrevent c (ins ++ outs) = .ok prev ∧ ∀ t ∈ prev, t.Fine := by
    unfold compPrevent
    rcases hc.prevent with h0 | ⟨h2, hl⟩
    · rw [h0]; exact ⟨[], rfl, by simp⟩
    · rw [if_neg (by intro e; rw [List.isEmpty_iff] at e; rw [e] at h2; simp at h2)]
      obtain ⟨ons, k1, k2⟩ := mapM_all (f := onOf (ins ++ outs)) (l := c.prevent) (P := fun _ b => b.isBinary = true ∧ b.length = sys.n) (by
        intro l hlm
        obtain ⟨f, hf, hfl⟩ := hl l hlm
        have hfind : ((ins ++ outs).find? (fun q => q.1.label == l)).isSome = true := by
          rw [List.find?_isSome]
          obtain ⟨q, hq, a1, _⟩ := forall₂_mem_left g hf
          exact ⟨q, hq, by rw [a1, fillOnOff_label, hfl]; simp⟩
        obtain ⟨q, hq⟩ := Option.isSome_iff_exists.1 hfind
        have hqm := List.mem_of_find?_eq_some hq
        have hql := List.find?_some hq
        obtain ⟨f', _, a1, a2, _⟩ := forall₂_mem_right g hqm
        have hl' : f'.label ∈ c.prevent := by
          have : q.1.label = l := by simpa using hql
          rw [a1, fillOnOff_label] at this
          rw [this]; exact hlm
        obtain ⟨qq, hqq⟩ := fillOnOff_onOff c f' (Or.inr hl')
        obtain ⟨b, hb1, hb2, hb3⟩ := flow_has_on a2 hqq
        refine ⟨b.on, ?_, hb2, hb3⟩
        unfold onOf
        rw [hq]
        simp only [hb1])
      rw [k1, ok_bind]
      have hlen : ¬ ons.length < 2 := by have := k2.length_eq; omega
      have hall : ons.all (·.isBinary) = true := List.all_eq_true.2 fun b hb => (forall₂_mem_right k2 hb).choose_spec.2.1
      unfold preventSimultaneous
      rw [if_neg hlen, if_pos hall]
      refine ⟨_, rfl, fun t ht => ?_⟩
      rw [List.mem_singleton.1 ht]
      refine fine_node.2 ⟨by simp, fun r hr => ?_, by simp⟩
      rw [List.mem_singleton.1 hr]
      refine con_fine sys.n fun op hop => ?_
      simp only [mkIneq, List.mem_append, List.mem_map, List.mem_singleton] at hop
      rcases hop with ⟨b, hb, rfl⟩ | rfl
      · exact good_sAll (forall₂_mem_right k2 hb).choose_spec.2.2 (by simp)
      · exact good_const (by simp)
  unfold compModel
  rw [e1, ok_bind, e2, ok_bind]
  simp only
  rw [e3, ok_bind, e4, ok_bind]
  refine ⟨_, rfl, fine_node.2 ⟨by simp, by simp, fun s hs => ?_⟩⟩
  simp only [List.mem_append, List.mem_map, Option.mem_toList] at hs
  rcases hs with (⟨q, hq, rfl⟩ | hs) | hs
  · exact (forall₂_mem_right g (by simpa using hq)).choose_spec.2.2.2
  · cases on with
    | none => simp at hs
    | some o' => cases hs; exact f3 o' rfl
  · exact f4 s hs

theorem converter_good {sys : Sys} (hv : sys.Valid) (hn : 1 < sys.n) {c : ConvData} (hc : c.Sane sys) :
    ∃ o, converterModel sys c = .ok o ∧ o.tree.Fine := by
  obtain ⟨o, ho, hfine⟩ := comp_good hv hn hc.comp
  obtain ⟨g1, g2, h3, prev, _, hvs, hcs, hsubs, _⟩ := comp_inv ho
  have g := List.rel_append g1 g2
  have hfn := fine_node.1 hfine
  unfold converterModel
  rw [ho, ok_bind]
  rcases hc.rule with ⟨h0, hfit⟩ | ⟨h0, hne, hall, k, hk⟩
  · rw [if_pos (by simpa using h0)]
    refine ⟨_, rfl, fine_node.2 ⟨hfn.1, fun r hr => ?_, hfn.2.2⟩⟩
    simp only [List.mem_append] at hr
    rcases hr with hr | hr
    · exact hfn.2.1 r hr
    · obtain ⟨i, hi, rfl⟩ := List.mem_mapIdx.1 hr
      have hmem := List.getElem_mem hi
      have hget : ∀ l f, Factors.get c.factors[i] l = some f → f.Fits sys.n := by
        intro l f hf
        unfold Factors.get at hf
        obtain ⟨q, hq, rfl⟩ := Option.map_eq_some_iff.1 hf
        exact hfit _ hmem q (List.mem_of_find?_eq_some hq)
      refine con_fine sys.n fun op hop => ?_
      simp only [mkEq, conversionOps, List.mem_append, List.mem_filterMap, List.mem_singleton] at hop
      rcases hop with (⟨q, hq, hop⟩ | ⟨q, hq, hop⟩) | rfl
      · obtain ⟨f, hf, rfl⟩ := Option.map_eq_some_iff.1 hop
        obtain ⟨f', _, a1, a2⟩ := forall₂_mem_right g1 hq
        exact good_sAll (flowRate_ok (flow_inv a2).1).2.1 (hget _ _ hf)
      · obtain ⟨f, hf, rfl⟩ := Option.map_eq_some_iff.1 hop
        obtain ⟨f', _, a1, a2⟩ := forall₂_mem_right g2 hq
        exact good_sAll (flowRate_ok (flow_inv a2).1).2.1 (by simpa using hget _ _ hf)
      · exact good_const (by simp)
  · rw [if_neg (by simp [h0])]
    obtain ⟨pts, e1, p1⟩ := mapM_all (f := fun q : FlowData × FlowOut =>
        match c.segments.find? (fun r => r.1 == q.1.label) with
        | some r => (.ok (q.2.flowRate, r.2) : Except Err (Var × List (Num × Num)))
        | none => .error .key) (l := o.flows)
      (P := fun _ q => q.1.length = sys.n ∧ q.2.length = k ∧ ∀ p ∈ q.2, p.1.Fits sys.n ∧ p.2.Fits sys.n) (by
      intro q hq
      obtain ⟨f, hf, a1, a2⟩ := forall₂_mem_right g hq
      have hfind : (c.segments.find? (fun r => r.1 == q.1.label)).isSome = true := by
        rw [List.find?_isSome]
        obtain ⟨r, hr, hl⟩ := hall f hf
        exact ⟨r, hr, by rw [a1, fillOnOff_label, hl]; simp⟩
      obtain ⟨r, hr⟩ := Option.isSome_iff_exists.1 hfind
      simp only [hr]
      exact ⟨_, rfl, (flowRate_ok (flow_inv a2).1).2.1, hk r (List.mem_of_find?_eq_some hr)⟩)
    have e1' : segmentPoints o.flows c.segments = .ok pts := e1
    have hpne : pts ≠ [] := by
      intro e
      have h1 := p1.length_eq
      have h2 := g.length_eq
      rw [e] at h1
      have : o.flows.length = 0 := h1
      have h2 : (c.comp.inputs ++ c.comp.outputs).length = o.flows.length := h2
      rw [this] at h2
      exact hne (List.length_eq_zero_iff.1 h2)
    have hout : ∀ b, o.on = some b → b.on.length = sys.n := by
      intro b hb
      rw [hb] at h3
      unfold compOnOff at h3
      cases hq : c.comp.onOff with
      | none => rw [hq] at h3; cases h3
      | some q =>
        rw [hq] at h3
        obtain ⟨b', hb', e⟩ := map_ok.1 h3
        cases e
        exact (onOff_on_length hb').1
    have fin : ∀ t : MTree, t.Fine → (MTree.node o.vars o.cons (o.subs ++ [t])).Fine := by
      intro t ft
      refine fine_node.2 ⟨hfn.1, hfn.2.1, fun s hs => ?_⟩
      simp only [List.mem_append, List.mem_singleton] at hs
      rcases hs with hs | rfl
      · exact hfn.2.2 s hs
      · exact ft
    rw [e1', ok_bind]
    cases hon : o.on with
    | none =>
      obtain ⟨t, e2, ft⟩ := multi_good (el := c.comp.label) (L := sys.n) (k := k) (points := pts) (outside := .no) hpne
        (fun q hq => (forall₂_mem_right p1 hq).choose_spec.2) (by simp)
      simp only [e2, ok_bind]
      exact ⟨_, rfl, fin t ft⟩
    | some b =>
      obtain ⟨t, e2, ft⟩ := multi_good (el := c.comp.label) (L := sys.n) (k := k) (points := pts) (outside := .use b.on) hpne
        (fun q hq => (forall₂_mem_right p1 hq).choose_spec.2) (by intro x hx; cases hx; exact hout b hon)
      simp only [e2, ok_bind]
      exact ⟨_, rfl, fin t ft⟩

theorem inv_good {n : Nat} {a : Num} (ha : a.Fits n) (hn : 0 < n) (h : ∀ t < n, a.at t ≠ 0) : ∃ b, a.inv = .ok b ∧ b.Fits n := by
  cases a with
  | s x =>
    refine ⟨.s (1 / x), ?_, by simp⟩
    unfold Num.inv
    simp only
    rw [if_neg (show ¬ x = 0 from h 0 hn)]
  | v xs =>
    refine ⟨.v (xs.map (1 / ·)), ?_, ?_⟩
    · unfold Num.inv
      simp only
      rw [if_neg]
      intro hany
      obtain ⟨x, hx, hx0⟩ := List.any_eq_true.1 hany
      obtain ⟨i, hi, rfl⟩ := List.mem_iff_getElem.1 hx
      have hl : xs.length = n := by
        rcases ha with h' | h'
        · simp [Num.isScalar] at h'
        · exact h'
      have := h i (by omega)
      rw [num_at_v hi] at this
      exact this (by simpa using hx0)
    · have := (fits_map (f := fun x => 1 / x)).2 ha
      exact this

theorem mul_good {n : Nat} {a b : Num} (ha : a.Fits n) (hb : b.Fits n) : ∃ c, Num.mul a b = .ok c ∧ c.Fits n := by
  obtain ⟨c, h1, h2, _⟩ := zip_fits (f := (· * ·)) ha hb
  exact ⟨c, h1, h2⟩

theorem storage_comp_sensible {sys : Sys} {s : StorageData} (hs : s.Sane sys) : s.comp.Sane sys := by
  refine ⟨⟨?_, by intro p hp; cases hp⟩, ?_⟩
  · intro f hf
    have hf : f = s.charging ∨ f = s.discharging := by simpa [StorageData.comp] using hf
    rcases hf with rfl | rfl
    · exact hs.charging
    · exact hs.discharging
  · show (if s.preventSimultaneous then [s.charging.label, s.discharging.label] else []) = [] ∨ _
    cases hp : s.preventSimultaneous with
    | false => exact Or.inl rfl
    | true =>
      refine Or.inr ?_
      simp [StorageData.comp, hp]

theorem storage_good {sys : Sys} (hv : sys.Valid) (hn : 1 < sys.n) {s : StorageData} (hs : s.Sane sys) :
    ∃ o, storageModel sys s = .ok o ∧ o.comp.tree.Fine := by
  obtain ⟨o, ho, hfine⟩ := comp_good hv hn (storage_comp_sensible hs)
  obtain ⟨g1, g2, _⟩ := comp_inv ho
  have hfn := fine_node.1 hfine
  obtain ⟨a, b, e1, la, lb⟩ : ∃ a b, storageFlows o = .ok (a, b) ∧ a.flowRate.length = sys.n ∧ b.flowRate.length = sys.n := by
    unfold storageFlows
    obtain ⟨q1, h1, r1, e1, i1⟩ := List.forall₂_cons_left_iff.1 (show List.Forall₂ _ [s.charging] o.inputs from g1)
    obtain ⟨q2, h2, r2, e2, i2⟩ := List.forall₂_cons_left_iff.1 (show List.Forall₂ _ [s.discharging] o.outputs from g2)
    rw [List.forall₂_nil_left_iff] at e1 e2
    rw [e1] at i1; rw [e2] at i2
    rw [i1, i2]
    exact ⟨_, _, rfl, (flowRate_ok (flow_inv r1.2).1).2.1, (flowRate_ok (flow_inv r2.2).1).2.1⟩
  have hab : (s.absBounds sys.cfg).1.Fits (sys.n + 1) ∧ (s.absBounds sys.cfg).2.Fits (sys.n + 1) := by
    unfold StorageData.absBounds
    cases s.capacity with
    | num x => exact ⟨by simpa using hs.fits.relMin, by simpa using hs.fits.relMax⟩
    | invest q => exact ⟨by simpa using hs.fits.relMin, by simpa using hs.fits.relMax⟩
  let c : Var := { label := s.label ++ "_" ++ "charge_state", length := sys.n + 1, lb := some (s.absBounds sys.cfg).1, ub := some (s.absBounds sys.cfg).2 }
  have e2 : mkVar s.label "charge_state" (sys.n + 1) (lb := some (s.absBounds sys.cfg).1) (ub := some (s.absBounds sys.cfg).2) = .ok c := by
    rw [mkVar_free]
    simp [c]
  let nd : Var := { label := s.label ++ "_" ++ "netto_discharge", length := sys.n }
  have e3 : mkVar s.label "netto_discharge" sys.n = .ok nd := by
    rw [mkVar_free]
    simp [nd]
  obtain ⟨cc, e4, f4⟩ : ∃ cc, chargeCon sys s c a.flowRate b.flowRate = .ok cc ∧ cc.Fine := by
    have hdt := dt_fits hv
    obtain ⟨loss, h1, l1⟩ := mul_good hs.fits.loss hdt
    obtain ⟨fin, h2, l2⟩ := mul_good (a := s.etaCharge.map (-1 * ·)) (by simpa using hs.fits.etaC) hdt
    obtain ⟨inv, h3, l3⟩ := inv_good hs.fits.etaD (by omega) hs.eta
    obtain ⟨fout, h4, l4⟩ := mul_good l3 hdt
    unfold chargeCon
    simp only [h1, h2, h3, h4, ok_bind]
    refine ⟨_, rfl, con_fine sys.n fun op hop => ?_⟩
    simp only [mkEq, List.mem_cons, List.not_mem_nil, or_false] at hop
    rcases hop with rfl | rfl | rfl | rfl
    · exact good_sIdx (by intro k hk; simp at hk; show k < sys.n + 1; omega) (by simp) (by simp)
    · exact good_sIdx (by intro k hk; simp at hk; show k < sys.n + 1; omega) (by simpa using l1) (by simp)
    · exact good_sAll la l2
    · exact good_sAll lb l4
  obtain ⟨inv, e5, f5⟩ : ∃ inv, storageInvest sys s c = .ok inv ∧ ∀ i, inv = some i → i.tree.Fine := by
    unfold storageInvest
    cases hq : s.capacity with
    | num x => exact ⟨none, rfl, by simp⟩
    | invest q =>
      obtain ⟨i, hi, hf, _⟩ := invest_good (cfg := sys.cfg) (el := s.label) (x := c) (profile := none) (on := none) (hs.capacity q hq) rfl
        hs.fits.relMin hs.fits.relMax (by simp) (by simp)
      simp only [hi]
      exact ⟨_, rfl, by intro i' h'; cases h'; exact hf⟩
  have ffin : ∀ r ∈ finalCons sys s c, r.Fine := by
    intro r hr
    unfold finalCons at hr
    rw [List.mem_append] at hr
    rcases hr with hr | hr
    · cases hm : s.maxFinal with
      | none => rw [hm] at hr; simp at hr
      | some m =>
        rw [hm] at hr
        rw [List.mem_singleton.1 hr]
        refine con_fine 1 fun op hop => ?_
        simp only [mkIneq, List.mem_cons, List.not_mem_nil, or_false] at hop
        rcases hop with rfl | rfl
        · exact good_sIdx1 (by show sys.n < sys.n + 1; omega) (by simp)
        · exact good_const (by simp)
    · cases hm : s.minFinal with
      | none => rw [hm] at hr; simp at hr
      | some m =>
        rw [hm] at hr
        rw [List.mem_singleton.1 hr]
        refine con_fine 1 fun op hop => ?_
        simp only [mkIneq, List.mem_cons, List.not_mem_nil, or_false] at hop
        rcases hop with rfl | rfl
        · exact good_sIdx1 (by show sys.n < sys.n + 1; omega) (by simp)
        · exact good_const (by simp)
  obtain ⟨cs, e6, f6⟩ : ∃ cs, initialFinalCons sys s c = .ok cs ∧ ∀ r ∈ cs, r.Fine := by
    unfold initialFinalCons
    cases hi : s.initial with
    | none => exact ⟨[], rfl, by simp⟩
    | num x =>
      refine ⟨_, rfl, fun r hr => ?_⟩
      rcases List.mem_cons.1 hr with rfl | hr
      · refine con_fine 1 fun op hop => ?_
        simp only [mkEq, List.mem_cons, List.not_mem_nil, or_false] at hop
        rcases hop with rfl | rfl
        · exact good_const (by simp)
        · exact good_sIdx1 (by show 0 < sys.n + 1; omega) (by simp)
      · exact ffin r hr
    | lastValueOfSim =>
      simp only
      rw [if_neg (by omega)]
      refine ⟨_, rfl, fun r hr => ?_⟩
      rcases List.mem_cons.1 hr with rfl | hr
      · refine con_fine 1 fun op hop => ?_
        simp only [mkEq, List.mem_cons, List.not_mem_nil, or_false] at hop
        rcases hop with rfl | rfl
        · exact good_sIdx1 (by show 0 < sys.n + 1; omega) (by simp)
        · exact good_sIdx1 (by show sys.n - 1 < sys.n + 1; omega) (by simp)
      · exact ffin r hr
    | other => exact absurd hi hs.initial
  unfold storageModel
  simp only [ho, ok_bind, e1, e2, e3, e4, e5, e6]
  refine ⟨_, rfl, fine_node.2 ⟨fun x hx => ?_, fun r hr => ?_, fun t ht => ?_⟩⟩
  · simp only [List.mem_append, List.mem_cons, List.not_mem_nil, or_false] at hx
    rcases hx with hx | rfl | rfl
    · exact hfn.1 x hx
    · exact var_fine (fitsBound_none _) (fitsBound_of hab.1) (fitsBound_of hab.2)
    · exact var_fine (fitsBound_none _) (fitsBound_none _) (fitsBound_none _)
  · simp only [List.mem_append, List.mem_cons, List.not_mem_nil, or_false] at hr
    rcases hr with (hr | rfl | rfl) | hr
    · exact hfn.2.1 r hr
    · refine con_fine sys.n fun op hop => ?_
      simp only [mkEq, List.mem_cons, List.not_mem_nil, or_false] at hop
      rcases hop with rfl | rfl | rfl
      · exact good_sAll rfl (by simp)
      · exact good_sAll la (by simp)
      · exact good_sAll lb (by simp)
    · exact f4
    · exact f6 r hr
  · simp only [List.mem_append, Option.mem_toList] at ht
    rcases ht with ht | ht
    · exact hfn.2.2 t ht
    · cases inv with
      | none => simp at ht
      | some i => cases ht; exact f5 i rfl

/-! ## Transmissions -/

theorem Tfill_sensible {sys : Sys} {t : TransData} {f : FlowData} (h : f.Sane sys) : (t.fill f).Sane sys := by
  have key : ({ f with onOff := some {} } : FlowData).Sane sys := by
    refine ⟨⟨h.fits.relMin, h.fits.relMax, h.fits.prof, ?_⟩, ⟨h.eff.op, ?_, h.eff.invest⟩, h.invest, h.past, ?_⟩
    · intro q hq; cases hq
      constructor <;> intro m hm <;> cases hm
    · intro q hq; cases hq; exact empty_effFits _
    · intro q hq; cases hq
      refine ⟨?_, empty_effFits _, previous_len h.past, fun hr => ?_⟩
      · constructor <;> intro m hm <;> cases hm
      · rcases hr with hr | hr | hr | hr <;> exact absurd rfl hr
  unfold TransData.fill
  cases t.absLosses with
  | none => exact h
  | some a =>
    simp only
    split
    · exact key
    · exact h

theorem Tfill2_sensible {sys : Sys} {cfg : Cfg} {t : TransData} {f : FlowData} (h : f.Sane sys) : (t.fillIn2 cfg f).Sane sys := by
  unfold TransData.fillIn2
  split
  · exact h
  · refine ⟨⟨h.fits.relMin, h.fits.relMax, h.fits.prof, h.fits.onOff⟩, ⟨h.eff.op, h.eff.onOff, ?_⟩, ?_, h.past, h.onOff⟩
    · intro q hq; cases hq
      refine ⟨?_, ?_, ?_⟩ <;> intro p hp <;> simp at hp
    · intro q hq; cases hq
      refine ⟨⟨?_, ?_, ?_⟩, fun xs es he => by cases he⟩ <;> intro p hp <;> simp at hp
  · exact h

theorem Tfill_previous (t : TransData) (f : FlowData) : (t.fill f).previousFlowRate = f.previousFlowRate := by
  unfold TransData.fill
  cases t.absLosses with
  | none => rfl
  | some a => simp only; split <;> rfl

theorem Tfill2_previous (cfg : Cfg) (t : TransData) (f : FlowData) : (t.fillIn2 cfg f).previousFlowRate = f.previousFlowRate := by
  unfold TransData.fillIn2
  split <;> rfl

theorem trans_comp_sensible {sys : Sys} {t : TransData} (ht : t.Sane sys) : (t.comp sys.cfg).Sane sys := by
  have hfl : (t.comp sys.cfg).inputs ++ (t.comp sys.cfg).outputs = (t.fill t.in1 :: (t.in2.map fun f => t.fillIn2 sys.cfg (t.fill f)).toList) ++
    t.fill t.out1 :: (t.out2.map t.fill).toList := rfl
  have hfs := ht.flows.flows
  refine ⟨⟨?_, ?_⟩, ?_⟩
  · rw [hfl]
    intro f hf
    simp only [List.mem_append, List.mem_cons, Option.mem_toList, Option.mem_def, Option.map_eq_some_iff] at hf
    rcases hf with (rfl | ⟨f', hf', rfl⟩) | rfl | ⟨f', hf', rfl⟩
    · exact Tfill_sensible (hfs _ (by simp))
    · exact Tfill2_sensible (Tfill_sensible (hfs _ (by simp [hf'])))
    · exact Tfill_sensible (hfs _ (by simp))
    · exact Tfill_sensible (hfs _ (by simp [hf']))
  · intro p hp
    obtain ⟨_, h2⟩ := ht.flows.onOff p hp
    refine ⟨by rw [hfl]; simp, ?_⟩
    have : ((t.comp sys.cfg).inputs ++ (t.comp sys.cfg).outputs).filterMap (·.previousFlowRate) =
        ((t.in1 :: t.in2.toList) ++ t.out1 :: t.out2.toList).filterMap (·.previousFlowRate) := by
      rw [hfl]
      cases t.in2 <;> cases t.out2 <;> simp [List.filterMap_cons, Tfill_previous, Tfill2_previous]
    rw [this]
    exact h2
  · show (match t.in2 with | some f => if t.preventBoth then [t.in1.label, f.label] else [] | none => []) = [] ∨ _
    cases h2 : t.in2 with
    | none => exact Or.inl rfl
    | some f =>
      cases hp : t.preventBoth with
      | false => exact Or.inl rfl
      | true =>
        refine Or.inr ?_
        have e : (t.comp sys.cfg).prevent = [t.in1.label, f.label] := by
          show (match t.in2 with | some f => if t.preventBoth then [t.in1.label, f.label] else [] | none => []) = _
          rw [h2, hp]; rfl
        rw [e, hfl, h2]
        refine ⟨by simp, fun l hl => ?_⟩
        simp only [List.mem_cons, List.not_mem_nil, or_false] at hl
        rcases hl with rfl | rfl
        · exact ⟨_, by simp, (fill_size t t.in1).2⟩
        · exact ⟨t.fillIn2 sys.cfg (t.fill f), by simp, by rw [(fillIn2_size _ _ _).2, (fill_size t f).2]⟩

end Flix
