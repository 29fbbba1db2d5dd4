import Verif.Lemmas.RefinePlan

/-! # From a solution of a component's model to one on a finer grid -/

namespace Flix

variable {φ s : Nat → Nat} {sys fine : Sys}

/-- What is decided about an investment is the same: size, decision and the effects in segments. -/
structure SameInvest (el : String) (q : InvestParams) (σ τ : Assignment) : Prop where
  size : τ (sizeL el) 0 = σ (sizeL el) 0
  built : q.optional = true → τ (investedL el) 0 = σ (investedL el) 0
  shares : ∀ e ∈ q.segEffects, τ (segShareL el e) 0 = σ (segShareL el e) 0

theorem SameInvest.symm {el : String} {q : InvestParams} {σ τ : Assignment} (h : SameInvest el q σ τ) : SameInvest el q τ σ :=
  ⟨h.size.symm, fun ho => (h.built ho).symm, fun e he => (h.shares e he).symm⟩

/-- The variables about the capacity are variables of the storage. -/
theorem capacity_label {x : StorageData} {o : StorageOut} (h : storageModel sys x = .ok o) {q : InvestParams} (hq : x.capacity = .invest q) :
    capacityL x.label ∈ o.comp.tree.labels ∧ (q.optional = true → builtL x.label ∈ o.comp.tree.labels) ∧
      ∀ e ∈ q.segEffects, segShareL x.label e ∈ o.comp.tree.labels := by
  unfold storageModel at h
  peel h with o0, h0
  peel h with ab, hab
  obtain ⟨a, b⟩ := ab
  simp only at h
  peel h with c, hc
  peel h with nd, hndv
  peel h with cCharge, hcc
  peel h with inv, hinv
  peel h with cIF, hif
  simp only [except_pure, Except.ok.injEq] at h
  subst h
  unfold storageInvest at hinv
  rw [hq] at hinv
  obtain ⟨iv, hiv, rfl⟩ := map_ok.1 hinv
  have key : ∀ y, iv.tree.HasVar y → y.label ∈ (CompOut.tree { o0 with
      vars := o0.vars ++ [c, nd]
      cons := o0.cons ++ [mkEq x.label "netto_discharge" [sAll nd (.s 1), sAll a.flowRate (.s 1), sAll b.flowRate (.s (-1))], cCharge] ++ cIF
      subs := o0.subs ++ ((some iv).map InvestOut.tree).toList
      shares := o0.shares ++ ((some iv).map (·.shares)).getD [] }).labels := by
    rintro y ⟨m, hm, hy⟩
    exact hasVar_labels ⟨m, .sub (s := iv.tree) (by simp) hm, hy⟩
  obtain ⟨_, _, _, _, hsv, _, hvars, _⟩ := invest_inv hiv
  obtain ⟨d1, d2⟩ := invest_decision_labels hiv
  refine ⟨?_, fun ho => ?_, fun e he => key _ (d2 e he)⟩
  · rw [show capacityL x.label = iv.size.label from (sizeVar_iff hsv).1.symm]
    exact key _ ⟨iv.tree, .refl _, by simp [InvestOut.tree, MTree.vars, hvars]⟩
  · obtain ⟨i, _, j2, j3⟩ := d1 ho
    rw [show builtL x.label = i.label from j2.symm]
    exact key _ j3

/-- The values in `τ` are those of `σ` for every part of a step. -/
structure Comp.Spreads (φ s : Nat → Nat) (n N : Nat) (c : Comp) (σ τ : Assignment) : Prop where
  rate : ∀ f ∈ c.flows, ∀ j < N, τ (rateL c.label f.label) j = σ (rateL c.label f.label) (φ j)
  flowOn : ∀ f ∈ c.flows, f.onOff ≠ none → ∀ j < N, τ (stateL (flowFull c.label f.label)) j = σ (stateL (flowFull c.label f.label)) (φ j)
  on : c.onOff ≠ none → ∀ j < N, τ (stateL c.label) j = σ (stateL c.label) (φ j)
  charge : ∀ x, c = .storage x → ∀ t ≤ n, τ (chargeStateL x.label) (s t) = σ (chargeStateL x.label) t
  size : ∀ f ∈ c.flows, ∀ q, f.size = .invest q → SameInvest (flowFull c.label f.label) q σ τ
  capacity : ∀ x, c = .storage x → ∀ q, x.capacity = .invest q → SameInvest x.label q σ τ

theorem comp_spreads {c : CompData} {N : Nat} {σ τ : Assignment} {p : CompPlan} (hp : p.Realized c σ) (hj : (p.spread φ).Realized (c.spread N φ) τ) :
    (∀ f ∈ c.inputs ++ c.outputs, ∀ j < N, τ (rateL c.label f.label) j = σ (rateL c.label f.label) (φ j)) ∧
    (∀ f ∈ c.inputs ++ c.outputs, f.onOff ≠ none → ∀ j < N, τ (stateL (flowFull c.label f.label)) j = σ (stateL (flowFull c.label f.label)) (φ j)) ∧
    (c.onOff ≠ none → ∀ j < N, τ (stateL c.label) j = σ (stateL c.label) (φ j)) ∧
    (∀ f ∈ c.inputs ++ c.outputs, ∀ q, f.size = .invest q → SameInvest (flowFull c.label f.label) q σ τ) := by
  have mem : ∀ f ∈ c.inputs ++ c.outputs, f.spread N φ ∈ (c.spread N φ).inputs ++ (c.spread N φ).outputs := by
    intro f hf
    rw [spread_flows]
    exact List.mem_map.2 ⟨f, hf, rfl⟩
  have decl : ∀ f : FlowData, f.onOff ≠ none → (c.declared f).onOff ≠ none := by
    intro f ho
    unfold CompData.declared
    cases hq : f.onOff with
    | none => exact absurd hq ho
    | some q => exact fun h => by cases h
  refine ⟨fun f hf j _ => ?_, fun f hf ho j _ => ?_, fun ho j _ => ?_, fun f hf q hq => ?_⟩
  · rw [hp.rate f hf]
    exact congrFun (hj.rate _ (mem f hf)) j
  · rw [hp.flowOn f hf (decl f ho)]
    exact congrFun (hj.flowOn _ (mem f hf) (by
      rw [declared_spread]
      show (c.declared f).onOff.map _ ≠ none
      simpa using decl f ho)) j
  · rw [hp.on ho]
    exact congrFun (hj.on (by simpa [CompData.spread] using ho)) j
  · refine ⟨?_, fun ho => ?_, fun e he => ?_⟩
    · rw [hp.size f hf q hq]
      exact hj.size (f.spread N φ) (mem f hf) q hq
    · rw [hp.built f hf q hq ho]
      exact hj.built (f.spread N φ) (mem f hf) q hq ho
    · rw [hp.shares f hf q hq e he]
      exact hj.shares (f.spread N φ) (mem f hf) q hq e he

theorem model_spread (h : Finer φ s sys fine) (hn : 0 < sys.n) (hv : sys.Valid) (hvf : fine.Valid) (hpd : sys.prevDt.Nonneg) {c : Comp} {oc of : CompOut} (hp : c.Proper sys)
    (hl : c.Gridless sys.n) (hm : c.model sys = .ok oc) {σ : Assignment} (hs : oc.tree.Solves σ) (hmf : (c.spread fine.n φ).model fine = .ok of) (hnd : of.tree.labels.Nodup) :
    ∃ τ, of.tree.Solves τ ∧ ∀ τ' : Assignment, (∀ l ∈ of.tree.labels, τ' l = τ l) → c.Spreads φ s sys.n fine.n σ τ' := by
  have hpd' : fine.prevDt.Nonneg := by rw [h.before]; exact hpd
  have hN : fine.n ≠ 0 := (h.pos hn).ne'
  cases c with
  | plain c =>
    have hp : c.Proper sys := hp
    obtain ⟨p, p1, p2⟩ := C82_plain_sound hv hp hm hs
    obtain ⟨τ, t1, t2⟩ := C82_plain_partial hvf (comp_spread_proper h hp).fits hmf hpd' hnd (comp_spread h hn hv hvf hp p1)
    refine ⟨τ, t1, fun τ' hag => ?_⟩
    obtain ⟨u1, u2, u3, u4⟩ := comp_spreads p2 ((comp_agree hmf hag).2 _ t2)
    exact ⟨u1, u2, u3, (fun x hx => by cases hx), u4, (fun x hx => by cases hx)⟩
  | converter c =>
    obtain ⟨hp, hff, hsf⟩ : c.comp.Proper sys ∧ (∀ fs ∈ c.factors, ∀ q ∈ fs, q.2.Fits sys.n) ∧ ∀ r ∈ c.segments, ∀ q ∈ r.2, q.1.Fits sys.n ∧ q.2.Fits sys.n := hp
    have hwp := comp_spread_proper h hp
    by_cases hne : c.factors = []
    · obtain ⟨p, p1, p2, p3⟩ := C82_segments_sound hv hn.ne' hp hm hne hsf hs
      obtain ⟨τ, t1, t2⟩ := C82_segments_partial hvf hN (c := c.spread fine.n φ) hwp.fits hmf hpd' hnd (by simp [ConvData.spread, hne]) (by
        intro r hr q hq
        obtain ⟨r', hr', rfl⟩ := List.mem_map.1 hr
        obtain ⟨q', hq', rfl⟩ := List.mem_map.1 hq
        exact ⟨fits_spread _ _ _, fits_spread _ _ _⟩) (comp_spread h hn hv hvf hp p1) (by
        intro j hj
        rcases p2 (φ j) (h.owner hj).1 with ⟨w1, w2⟩ | w
        · exact .inl ⟨by simpa [ConvData.spread, CompData.spread] using w1, w2⟩
        · right
          show (p.spread φ).OnCurve ((c.comp.spread fine.n φ).inputs ++ (c.comp.spread fine.n φ).outputs) _ j
          rw [spread_flows]
          exact curve_spread h hsf hj p w)
      refine ⟨τ, t1, fun τ' hag => ?_⟩
      obtain ⟨o0, h0, hsub⟩ := converter_labels hmf
      obtain ⟨u1, u2, u3, u4⟩ := comp_spreads p3 ((comp_agree h0 fun l hl => hag l (hsub l hl)).2 _ t2)
      exact ⟨u1, u2, u3, (fun x hx => by cases hx), u4, (fun x hx => by cases hx)⟩
    · obtain ⟨p, p1, p2, p3⟩ := C82_factors_sound hv hp hm hne hff hs
      obtain ⟨τ, t1, t2⟩ := C82_factors_partial hvf (c := c.spread fine.n φ) hwp.fits hmf hpd' hnd (by simpa [ConvData.spread] using hne) (by
        intro fs hfs q hq
        obtain ⟨fs', hfs', rfl⟩ := List.mem_map.1 hfs
        obtain ⟨q', hq', rfl⟩ := List.mem_map.1 hq
        exact fits_spread _ _ _) (comp_spread h hn hv hvf hp p1) (by
        intro fs hfs j hj
        obtain ⟨fs', hfs', rfl⟩ := List.mem_map.1 hfs
        have side : ∀ l : List FlowData, (p.spread φ).side (l.map (·.spread fine.n φ)) (fs'.map fun q => (q.1, q.2.spread fine.n φ)) j = p.side l fs' (φ j) := by
          intro l
          unfold CompPlan.side
          rw [List.map_map]
          refine congrArg List.sum (List.map_congr_left fun f _ => ?_)
          show factorIn _ f.label j * (p.flow f.label).r (φ j) = factorIn _ f.label (φ j) * _
          rw [factor_spread h (hff fs' hfs') hj]
        exact (side c.comp.inputs).trans ((p2 fs' hfs' (φ j) (h.owner hj).1).trans (side c.comp.outputs).symm))
      refine ⟨τ, t1, fun τ' hag => ?_⟩
      obtain ⟨o0, h0, hsub⟩ := converter_labels hmf
      obtain ⟨u1, u2, u3, u4⟩ := comp_spreads p3 ((comp_agree h0 fun l hl => hag l (hsub l hl)).2 _ t2)
      exact ⟨u1, u2, u3, (fun x hx => by cases hx), u4, (fun x hx => by cases hx)⟩
  | storage x =>
    have hp : x.Proper sys := hp
    obtain ⟨sc1, sc2, cyc, loss⟩ := hl
    obtain ⟨o', h', rfl⟩ := map_ok.1 hm
    obtain ⟨of', hm', rfl⟩ := map_ok.1 hmf
    obtain ⟨p, p1, p2, p3, p4⟩ := C82_storage_sound hv hp h' hs
    have hwp := storage_spread_proper h hp ⟨sc1, sc2⟩
    obtain ⟨τ, t1, t2, t3, t4⟩ := C82_storage_partial hvf ⟨hwp.comp.fits _ (by simp [StorageData.comp]), hwp.comp.fits _ (by simp [StorageData.comp])⟩ hwp.fits hm' hpd' hnd
      (storage_spread h hn hv hvf hp ⟨sc1, sc2⟩ cyc loss p1)
    refine ⟨τ, t1, fun τ' hag => ?_⟩
    obtain ⟨o0, h0, hsub, hc⟩ := storage_labels hm'
    have hl3 : of'.chargeState.label = chargeStateL x.label := by
      obtain ⟨_, _, _, _, _, _, _, _, l3, _⟩ := storage_iff hvf hwp.fits hm'
      exact l3
    rw [hl3] at hc
    obtain ⟨u1, u2, u3, u4⟩ := comp_spreads (c := x.comp) p2 ((comp_agree h0 fun l hl => hag l (hsub l hl)).2 _ t2)
    refine ⟨u1, u2, fun h => absurd rfl h, fun x' hx' t ht => ?_, u4, fun x' hx' q hq => ?_⟩
    · cases hx'
      rw [hag _ hc, p3]
      exact (congrFun t3 (s t)).trans (line_first h hv _ t ht)
    · cases hx'
      obtain ⟨m1, m2, m3⟩ := capacity_label hm' (x := x.spread fine.n φ) hq
      obtain ⟨e1, e2, e3⟩ := p4 q hq
      obtain ⟨g1, g2, g3⟩ := t4 q hq
      exact ⟨(congrFun (hag _ m1) 0).trans (g1.trans e1.symm), fun ho => (congrFun (hag _ (m2 ho)) 0).trans ((g2 ho).trans (e2 ho).symm),
        fun e he => (congrFun (hag _ (m3 e he)) 0).trans ((g3 e he).trans (e3 e he).symm)⟩
  | transmission t =>
    have hp : t.Proper sys := hp
    have hl : ∀ f ∈ t.in1 :: t.out1 :: (t.in2.toList ++ t.out2.toList), ∀ q, f.size ≠ .invest q := hl
    obtain ⟨o', h', rfl⟩ := map_ok.1 hm
    obtain ⟨of', hm', rfl⟩ := map_ok.1 hmf
    obtain ⟨p, p1, p2⟩ := C82_transmission_sound hv hp h' hs
    have hwp := trans_spread_proper h hp
    have hfit : ∀ f ∈ (t.spread fine.n φ).flows, f.Fits fine.n := by
      intro f hf
      refine hwp.plain.fits f ?_
      simp only [TransData.flows, List.mem_cons, List.mem_append, Option.mem_toList] at hf
      simp only [TransData.plain, List.mem_cons, List.mem_append, Option.mem_toList]
      tauto
    obtain ⟨τ, t1, _, t2⟩ := C82_transmission_partial hvf hwp.big hfit hwp.fits hm' hpd' hnd (trans_spread h hn hv hvf hp hl p1)
    refine ⟨τ, t1, fun τ' hag => ?_⟩
    obtain ⟨o0, h0, hsub⟩ := trans_joined_labels hm'
    obtain ⟨r1, r2, r3⟩ := trans_realized ((comp_agree h0 fun l hl => hag l (hsub l hl)).2 _ t2)
    obtain ⟨w1, w2, w3⟩ := trans_realized p2
    have mem : ∀ f ∈ t.plain.inputs ++ t.plain.outputs, f.spread fine.n φ ∈ (t.spread fine.n φ).plain.inputs ++ (t.spread fine.n φ).plain.outputs := by
      intro f hf
      rw [trans_spread_plain, spread_flows]
      exact List.mem_map.2 ⟨f, hf, rfl⟩
    refine ⟨fun f hf i _ => ?_, fun f hf ho i _ => ?_, fun ho i _ => ?_, (fun s hs => by cases hs), fun f hf q hq => absurd hq (hl f (mem_plain.1 hf) q), (fun s hs => by cases hs)⟩
    · show _ = σ (rateL t.label f.label) _
      rw [w1 f hf]
      exact congrFun (r1 _ (mem f hf)) i
    · show _ = σ (stateL (flowFull t.label f.label)) _
      rw [w2 f hf ho]
      exact congrFun (r2 _ (mem f hf) (by
        show f.onOff.map _ ≠ none
        simpa using ho)) i
    · show _ = σ (stateL t.label) _
      rw [w3 ho]
      exact congrFun (r3 (by
        show t.onOff.map _ ≠ none
        have : t.onOff ≠ none := ho
        simpa using this)) i

end Flix
