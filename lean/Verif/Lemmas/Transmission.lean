import Verif.Lemmas.Prevent

/-! # The transmission model -/

namespace Flix

/-- Relative loss in step `k`; none given means 0. -/
def TransData.relAt (t : TransData) (k : Nat) : ℚ := (t.relLosses.map fun r => r.at k).getD 0

/-- Absolute loss in step `k`; none given means 0. -/
def TransData.absAt (t : TransData) (k : Nat) : ℚ := (t.absLosses.map fun r => r.at k).getD 0

/-- The series given by the user have one entry per step. -/
structure TransData.Fits (n : Nat) (t : TransData) : Prop where
  rel : ∀ r, t.relLosses = some r → r.Fits n
  abs : ∀ r, t.absLosses = some r → r.Fits n

/-- One direction, with the on variable of the input. -/
def DirRow (n : Nat) (t : TransData) (σ : Assignment) (i o : FlowOut) : Prop :=
  ∀ k < n, σ o.flowRate.label k = σ i.flowRate.label k * (1 - t.relAt k) - t.absAt k * ((i.onOff.map fun x => σ x.on.label k).getD 0)

theorem onVar_ok {f : FlowOut} {x : Var} (h : f.onVar = .ok x) : ∃ oo, f.onOff = some oo ∧ oo.on = x := by
  unfold FlowOut.onVar at h
  split at h
  · rename_i oo ho
    cases h
    exact ⟨oo, ho, rfl⟩
  · cases h

theorem transCon_iff {n : Nat} {t : TransData} (ht : t.Fits n) {name : String} {i o : FlowOut} {r : ConReq} (hi : i.flowRate.length = n)
    (ho : o.flowRate.length = n) (hon : ∀ oo, i.onOff = some oo → oo.on.length = n) (h : transCon t name i o = .ok r) :
    (t.absLosses ≠ none → ∃ oo, i.onOff = some oo) ∧ ∀ σ : Assignment, r.Ok σ ↔ DirRow n t σ i o := by
  unfold transCon at h
  peel h with extra, he
  simp only [except_pure, Except.ok.injEq] at h
  subst h
  have hrel : ∃ eff : Num, t.efficiency = eff ∧ eff.Fits n ∧ ∀ k < n, eff.at k = 1 - t.relAt k := by
    unfold TransData.relAt TransData.efficiency
    cases hr : t.relLosses with
    | none => exact ⟨_, rfl, fits_s _ _, by simp⟩
    | some r => exact ⟨_, rfl, fits_map.2 (ht.rel r hr), fun k hk => by rw [at_map (ht.rel r hr) hk]; rfl⟩
  obtain ⟨eff, heq, hef, hev⟩ := hrel
  rw [heq]
  have hbase : ∀ op ∈ [sAll i.flowRate eff, sAll o.flowRate (.s (-1))], op.Good n := by
    intro op hop
    simp only [List.mem_cons, List.not_mem_nil, or_false] at hop
    rcases hop with rfl | rfl
    · exact good_sAll hi hef
    · exact good_sAll ho (fits_s _ _)
  unfold absLossOps at he
  cases ha : t.absLosses with
  | none =>
    rw [ha] at he
    simp only [Except.ok.injEq] at he
    subst he
    refine ⟨by simp, fun σ => ?_⟩
    rw [List.append_nil, ok_eq (n := n) hbase ⟨_, List.mem_cons_self, len_sAll' hi hef⟩]
    unfold DirRow TransData.absAt
    refine forall₂_congr fun k hk => ?_
    simp only [opsLhs_cons, opsRhs_cons, lhs_sAll (x := i.flowRate) (hi ▸ hk), lhs_sAll (x := o.flowRate) (ho ▸ hk), rhs_sAll, opsLhs_nil, opsRhs_nil, at_s,
      hev k hk, ha, Option.map_none, Option.getD_none]
    constructor <;> intro h <;> linarith
  | some a =>
    rw [ha] at he
    simp only at he
    peel he with x, hx
    simp only [except_pure, Except.ok.injEq] at he
    subst he
    obtain ⟨oo, hoo, rfl⟩ := onVar_ok hx
    have hol := hon oo hoo
    have haf := ht.abs a ha
    refine ⟨fun _ => ⟨oo, hoo⟩, fun σ => ?_⟩
    rw [ok_eq (n := n) (by
      intro op hop
      rcases List.mem_append.1 hop with hop | hop
      · exact hbase op hop
      · rw [List.mem_singleton] at hop; subst hop; exact good_sAll hol (fits_map.2 haf)) ⟨_, List.mem_append_left _ List.mem_cons_self, len_sAll' hi hef⟩]
    unfold DirRow TransData.absAt
    refine forall₂_congr fun k hk => ?_
    rw [hoo]
    simp only [List.cons_append, List.nil_append, opsLhs_cons, opsRhs_cons, lhs_sAll (x := i.flowRate) (hi ▸ hk), lhs_sAll (x := o.flowRate) (ho ▸ hk),
      lhs_sAll (x := oo.on) (hol ▸ hk), rhs_sAll, opsLhs_nil, opsRhs_nil, at_s,
      hev k hk, ha, Option.map_some, Option.getD_some, at_map haf hk]
    constructor <;> intro h <;> linarith

/-- The model of one flow of a transmission. -/
def TransFlow (sys : Sys) (t : TransData) (f : FlowData) (o : FlowOut) : Prop :=
  flowModel sys (flowFull t.label f.label) (fillOnOff (t.comp sys.cfg) f) = .ok o

theorem TransFlow.shape {sys : Sys} {t : TransData} {f : FlowData} {o : FlowOut} (h : TransFlow sys t f o) :
    o.flowRate.label = rateL t.label f.label ∧ o.flowRate.length = sys.n ∧ ∀ oo, o.onOff = some oo → oo.on.length = sys.n := by
  obtain ⟨h1, h2, _⟩ := flow_inv h
  obtain ⟨hl, hn, _⟩ := flowRate_ok h1
  refine ⟨by rw [hl]; rfl, hn, fun oo ho => ?_⟩
  unfold flowOnOff at h2
  rw [ho] at h2
  split at h2
  · cases h2
  · obtain ⟨x, hx, he⟩ := map_ok.1 h2
    cases he
    exact (onOff_on_length hx).1

theorem trans_iff {sys : Sys} {t : TransData} {o : TransOut} (hf : t.Fits sys.n) (h : transmissionModel sys t = .ok o) :
    ∃ o0, compModel sys (t.comp sys.cfg) = .ok o0 ∧ o.comp.inputs = o0.inputs ∧ o.comp.outputs = o0.outputs ∧ o.comp.shares = o0.shares ∧ o.comp.on = o0.on ∧
      (o.in1 ∈ o0.flows.map (·.2) ∧ TransFlow sys t (t.fill t.in1) o.in1) ∧ (o.out1 ∈ o0.flows.map (·.2) ∧ TransFlow sys t (t.fill t.out1) o.out1) ∧
      (∀ f, t.in2 = some f → ∃ i2, o.in2 = some i2 ∧ i2 ∈ o0.flows.map (·.2) ∧ TransFlow sys t (t.fillIn2 sys.cfg (t.fill f)) i2) ∧
      (t.in2 = none → o.in2 = none) ∧
      (∀ f, t.out2 = some f → ∃ o2, o.out2 = some o2 ∧ o2 ∈ o0.flows.map (·.2) ∧ TransFlow sys t (t.fill f) o2) ∧
      (t.out2 = none → o.out2 = none) ∧
      (t.absLosses ≠ none → ∃ oo, o.in1.onOff = some oo) ∧
      (∀ i2, o.in2 = some i2 → ∃ o2, o.out2 = some o2 ∧ (t.absLosses ≠ none → ∃ oo, i2.onOff = some oo) ∧
        (∀ q, t.in1.size = .invest q → ∃ a b, o.in1.invest = some a ∧ i2.invest = some b)) ∧
      ∀ σ : Assignment, o.comp.tree.Solves σ ↔ o0.tree.Solves σ ∧ DirRow sys.n t σ o.in1 o.out1 ∧
        (∀ i2 o2, o.in2 = some i2 → o.out2 = some o2 → DirRow sys.n t σ i2 o2) ∧
        (∀ i2 q a b, o.in2 = some i2 → t.in1.size = .invest q → o.in1.invest = some a → i2.invest = some b → σ a.size.label 0 = σ b.size.label 0) := by
  unfold transmissionModel at h
  peel h with o0, h0
  peel h with q, hq
  obtain ⟨i1, i2, o1, o2⟩ := q
  simp only at h
  peel h with c1, h1
  peel h with c2, h2
  simp only [except_pure, Except.ok.injEq] at h
  subst h
  obtain ⟨r1, r2, _⟩ := comp_inv h0
  have hfl : ∀ (f : FlowData) (p : FlowData × FlowOut), (p.1 = fillOnOff (t.comp sys.cfg) f ∧
      flowModel sys (flowFull (t.comp sys.cfg).label f.label) (fillOnOff (t.comp sys.cfg) f) = .ok p.2) → TransFlow sys t f p.2 := fun f p hp => hp.2
  unfold transFlows at hq
  split at hq
  · rename_i a as b bs hin hout
    simp only [Except.ok.injEq, Prod.mk.injEq] at hq
    obtain ⟨e1, e2, e3, e4⟩ := hq
    rw [hin] at r1
    rw [hout] at r2
    rw [show (t.comp sys.cfg).inputs = t.fill t.in1 :: (t.in2.map fun f => t.fillIn2 sys.cfg (t.fill f)).toList from rfl] at r1
    rw [show (t.comp sys.cfg).outputs = t.fill t.out1 :: (t.out2.map t.fill).toList from rfl] at r2
    generalize hcomp : t.comp sys.cfg = cd at r1 r2 hfl
    rw [List.forall₂_cons] at r1 r2
    obtain ⟨ra, ras⟩ := r1
    obtain ⟨rb, rbs⟩ := r2
    have t1 : TransFlow sys t (t.fill t.in1) i1 := by rw [← e1]; exact hfl _ _ ra
    have t3 : TransFlow sys t (t.fill t.out1) o1 := by rw [← e3]; exact hfl _ _ rb
    have m1 : i1 ∈ o0.flows.map (·.2) := by
      rw [← e1]; unfold CompOut.flows; rw [hin]; simp
    have m3 : o1 ∈ o0.flows.map (·.2) := by
      rw [← e3]; unfold CompOut.flows; rw [hout]; simp
    have t2 : (∀ f, t.in2 = some f → ∃ x, i2 = some x ∧ x ∈ o0.flows.map (·.2) ∧ TransFlow sys t (t.fillIn2 sys.cfg (t.fill f)) x) ∧ (t.in2 = none → i2 = none) := by
      cases ht2 : t.in2 with
      | none =>
        rw [ht2] at ras
        simp at ras
        subst ras
        simp [← e2]
      | some f =>
        rw [ht2] at ras
        simp only [Option.map_some, Option.toList_some] at ras
        match as, ras with
        | [x], ras =>
          rw [List.forall₂_cons] at ras
          refine ⟨?_, by simp⟩
          intro f' hf'; cases hf'
          refine ⟨x.2, by rw [← e2]; rfl, ?_, hfl _ _ ras.1⟩
          unfold CompOut.flows; rw [hin]; simp
        | x :: y :: as, ras => rw [List.forall₂_cons] at ras; cases ras.2
    have t4 : (∀ f, t.out2 = some f → ∃ x, o2 = some x ∧ x ∈ o0.flows.map (·.2) ∧ TransFlow sys t (t.fill f) x) ∧ (t.out2 = none → o2 = none) := by
      cases ht2 : t.out2 with
      | none =>
        rw [ht2] at rbs
        simp at rbs
        subst rbs
        simp [← e4]
      | some f =>
        rw [ht2] at rbs
        simp only [Option.map_some, Option.toList_some] at rbs
        match bs, rbs with
        | [x], rbs =>
          rw [List.forall₂_cons] at rbs
          refine ⟨?_, by simp⟩
          intro f' hf'; cases hf'
          refine ⟨x.2, by rw [← e4]; rfl, ?_, hfl _ _ rbs.1⟩
          unfold CompOut.flows; rw [hout]; simp
        | x :: y :: as, rbs => rw [List.forall₂_cons] at rbs; cases rbs.2
    obtain ⟨_, n1, on1⟩ := t1.shape
    obtain ⟨_, n3, _⟩ := t3.shape
    obtain ⟨ha, hd1⟩ := transCon_iff hf n1 n3 on1 h1
    have hsplit : ∀ σ : Assignment, (CompOut.tree { o0 with cons := o0.cons ++ [c1] ++ c2 }).Solves σ ↔ o0.tree.Solves σ ∧ c1.Ok σ ∧ ∀ r ∈ c2, r.Ok σ := by
      intro σ
      simp only [CompOut.tree, MTree.Solves, List.mem_append, or_imp, forall_and, List.forall_mem_cons, List.not_mem_nil, false_imp_iff, implies_true, and_true]
      tauto
    refine ⟨o0, hcomp ▸ h0, rfl, rfl, rfl, rfl, ⟨m1, t1⟩, ⟨m3, t3⟩, t2.1, t2.2, t4.1, t4.2, ha, ?_⟩
    unfold transSecond at h2
    cases i2 with
    | none =>
      simp only [Except.ok.injEq] at h2
      subst h2
      refine ⟨by simp, fun σ => ?_⟩
      rw [hsplit σ, hd1 σ]
      simp
    | some x =>
      obtain ⟨f2, hf2⟩ : ∃ f, t.in2 = some f := by
        cases ht2 : t.in2 with
        | none => have := t2.2 ht2; simp at this
        | some f => exact ⟨f, rfl⟩
      obtain ⟨x', hx', _, tx⟩ := t2.1 f2 hf2
      cases hx'
      obtain ⟨_, nx, onx⟩ := tx.shape
      cases o2 with
      | none => cases h2
      | some y =>
        obtain ⟨g2, hg2⟩ : ∃ f, t.out2 = some f := by
          cases ht2 : t.out2 with
          | none => have := t4.2 ht2; simp at this
          | some f => exact ⟨f, rfl⟩
        obtain ⟨y', hy', _, ty⟩ := t4.1 g2 hg2
        cases hy'
        obtain ⟨_, ny, _⟩ := ty.shape
        simp only at h2
        peel h2 with cc, hcc
        obtain ⟨hax, hd2⟩ := transCon_iff hf nx ny onx hcc
        split at h2
        · rename_i q hq
          split at h2
          · rename_i a b ha1 hb1
            simp only [except_pure, Except.ok.injEq] at h2
            subst h2
            refine ⟨?_, fun σ => ?_⟩
            · intro z hz; cases hz
              exact ⟨y, rfl, hax, fun _ _ => ⟨a, b, ha1, hb1⟩⟩
            · have hsz : ∀ {el : String} {fd : FlowData} {fo : FlowOut} {iv : InvestOut}, flowModel sys el fd = .ok fo → fo.invest = some iv → iv.size.length = 1 := by
                intro el fd fo iv hm hiv
                obtain ⟨_, _, h3, _⟩ := flow_inv hm
                rw [hiv] at h3
                obtain ⟨q, _, hq⟩ := flowInvest_some h3
                obtain ⟨_, _, _, _, hs, _⟩ := invest_inv hq
                exact (sizeVar_iff hs).2.1
              have la : a.size.length = 1 := hsz t1 ha1
              have lb : b.size.length = 1 := hsz tx hb1
              have heq : (mkEq t.label "equal_size_in_both_directions" [sAll a.size (.s 1), sAll b.size (.s (-1))]).Ok σ ↔ σ a.size.label 0 = σ b.size.label 0 := by
                rw [ok_eq1 (by
                  intro op hop
                  simp only [List.mem_cons, List.not_mem_nil, or_false] at hop
                  rcases hop with rfl | rfl
                  · exact good_sAll1 la (fits_s _ _)
                  · exact good_sAll1 lb (fits_s _ _)) (by simp)]
                simp only [opsLhs_cons, opsRhs_cons, lhs_sAll1 la, lhs_sAll1 lb, rhs_sAll, opsLhs_nil, opsRhs_nil, at_s]
                constructor <;> intro h <;> linarith
              rw [hsplit σ, hd1 σ]
              simp only [List.forall_mem_cons, List.not_mem_nil, false_imp_iff, implies_true, and_true, hd2 σ, heq]
              refine and_congr_right fun _ => and_congr_right fun _ => ?_
              constructor
              · rintro ⟨e1, e2⟩
                refine ⟨fun _ _ hi ho => ?_, fun _ _ _ _ hi _ ha hb => ?_⟩
                · cases hi; cases ho; exact e1
                · cases hi; rw [ha1] at ha; rw [hb1] at hb; cases ha; cases hb; exact e2
              · rintro ⟨e1, e2⟩
                exact ⟨e1 x y rfl rfl, e2 x q a b rfl hq ha1 hb1⟩
          · cases h2
        · rename_i hq
          simp only [except_pure, Except.ok.injEq] at h2
          subst h2
          refine ⟨?_, fun σ => ?_⟩
          · intro z hz; cases hz
            exact ⟨y, rfl, hax, fun q hh => absurd hh (hq q)⟩
          · rw [hsplit σ, hd1 σ]
            simp only [List.forall_mem_cons, List.not_mem_nil, false_imp_iff, implies_true, and_true, hd2 σ]
            refine and_congr_right fun _ => and_congr_right fun _ => ?_
            constructor
            · intro e1
              refine ⟨fun _ _ hi ho => ?_, fun _ q _ _ _ hh => absurd hh (hq q)⟩
              cases hi; cases ho; exact e1
            · rintro ⟨e1, _⟩
              exact e1 x y rfl rfl
  · cases hq

end Flix
