import Verif.Lemmas.Transmission
import Verif.Lemmas.Check
import Verif.Props.Storage

/-!
# C34: prevented simultaneous use; C35, C36: transmissions
-/

namespace Flix

variable {sys : Sys} {σ : Assignment}

/-! ## C34 -/

/-- **C34.**  Of two different flows that must not be used simultaneously one is zero, in every step of every solution. -/
theorem C34 (hv : sys.Valid) {c : CompData} {o : CompOut} (hf : ∀ f ∈ c.inputs ++ c.outputs, f.Fits sys.n) (h : compModel sys c = .ok o)
    (hs : o.tree.Solves σ) :
    ∀ t < sys.n, ∀ a ∈ c.prevent, ∀ b ∈ c.prevent, a ≠ b → σ (rateL c.label a) t = 0 ∨ σ (rateL c.label b) t = 0 := by
  intro t ht a ha b hb hab
  have hp := ((comp_prevent hv hf h (List.ne_nil_of_mem ha) σ).1 hs).2.2 t ht
  haveI : Std.Symm fun x y => σ (rateL c.label x) t = 0 ∨ σ (rateL c.label y) t = 0 := ⟨fun _ _ h => h.symm⟩
  exact hp.forall ha hb hab

/-- **C34 (nothing else is required).** -/
theorem C34_exact (hv : sys.Valid) {c : CompData} {o : CompOut} (hf : ∀ f ∈ c.inputs ++ c.outputs, f.Fits sys.n) (h : compModel sys c = .ok o)
    (hp : c.prevent ≠ []) (hnd : c.prevent.Nodup) (hfl : ∀ p ∈ o.flows, p.2.tree.Solves σ) (hon : ∀ oo, o.on = some oo → oo.tree.Solves σ)
    (hex : ∀ t < sys.n, ∀ a ∈ c.prevent, ∀ b ∈ c.prevent, a ≠ b → σ (rateL c.label a) t = 0 ∨ σ (rateL c.label b) t = 0) : o.tree.Solves σ := by
  refine (comp_prevent hv hf h hp σ).2 ⟨hfl, hon, fun t ht => ?_⟩
  have hnd' := hnd
  rw [List.Nodup] at hnd'
  exact hnd'.imp_of_mem fun ha hb hab => hex t ht _ ha _ hb hab

/-- **C34 (storage).** -/
theorem C34_storage (hv : sys.Valid) {s : StorageData} {o : StorageOut} (hs : s.Fits sys.n) (hc : s.charging.Fits sys.n) (hd : s.discharging.Fits sys.n)
    (hp : s.preventSimultaneous = true) (hne : s.charging.label ≠ s.discharging.label) (h : storageModel sys s = .ok o) (hsol : o.comp.tree.Solves σ) :
    ∀ t < sys.n, σ (rateL s.label s.charging.label) t = 0 ∨ σ (rateL s.label s.discharging.label) t = 0 := by
  obtain ⟨o0, h0, _, _, _, _, _, _, _, _, _, _, _, _, hiff⟩ := storage_iff hv hs h
  intro t ht
  refine C34 hv (c := s.comp) (by simp [StorageData.comp, hc, hd]) h0 ((hiff σ).1 hsol).1 t ht _ ?_ _ ?_ hne <;> simp [StorageData.comp, hp]

/-- **C34 (source and sink).** -/
theorem C34_sourceAndSink (hv : sys.Valid) {label : String} {src snk : FlowData} {o : CompOut} (h1 : src.Fits sys.n) (h2 : snk.Fits sys.n)
    (hne : src.label ≠ snk.label) (h : compModel sys (sourceAndSink label src snk) = .ok o) (hsol : o.tree.Solves σ) :
    ∀ t < sys.n, σ (rateL label src.label) t = 0 ∨ σ (rateL label snk.label) t = 0 := by
  intro t ht
  exact C34 hv (by simp [sourceAndSink, h1, h2]) h hsol t ht src.label (by simp [sourceAndSink]) snk.label (by simp [sourceAndSink]) hne

/-! ## Transmission -/

theorem fill_label (t : TransData) (f : FlowData) : (t.fill f).label = f.label := by
  unfold TransData.fill; cases t.absLosses <;> simp; split <;> rfl

theorem fillIn2_label (cfg : Cfg) (t : TransData) (f : FlowData) : (t.fillIn2 cfg f).label = f.label := by
  unfold TransData.fillIn2; split <;> rfl

theorem fill_fits {n : Nat} {t : TransData} {f : FlowData} (h : f.Fits n) : (t.fill f).Fits n := by
  unfold TransData.fill
  cases t.absLosses with
  | none => exact h
  | some a =>
    simp only
    split
    · refine ⟨h.relMin, h.relMax, h.prof, ?_⟩
      intro q hq
      simp at hq; subst hq
      constructor <;> intro m hm <;> simp at hm
    · exact h

theorem fillIn2_fits {cfg : Cfg} {n : Nat} {t : TransData} {f : FlowData} (h : f.Fits n) : (t.fillIn2 cfg f).Fits n := by
  unfold TransData.fillIn2
  split
  · exact h
  · exact ⟨h.relMin, h.relMax, h.prof, h.onOff⟩
  · exact h

/-- The flows given by the user. -/
def TransData.flows (t : TransData) : List FlowData := t.in1 :: t.out1 :: (t.in2.toList ++ t.out2.toList)

theorem comp_fits {cfg : Cfg} {n : Nat} {t : TransData} (h : ∀ f ∈ t.flows, f.Fits n) : ∀ f ∈ (t.comp cfg).inputs ++ (t.comp cfg).outputs, f.Fits n := by
  intro f hf
  simp only [TransData.comp, List.mem_append, List.mem_cons, Option.mem_toList, Option.map_eq_some_iff] at hf
  have hm : ∀ g, g ∈ t.flows → g.Fits n := h
  rcases hf with (rfl | ⟨g, hg, rfl⟩) | (rfl | ⟨g, hg, rfl⟩)
  · exact fill_fits (hm _ (by simp [TransData.flows]))
  · exact fillIn2_fits (fill_fits (hm _ (by simp [TransData.flows, hg])))
  · exact fill_fits (hm _ (by simp [TransData.flows]))
  · exact fill_fits (hm _ (by simp [TransData.flows, hg]))

/-- One direction: from the row with the on variable to the flow rates alone. -/
theorem direction_state (hv : sys.Valid) {t : TransData} {f : FlowData} {i o : FlowOut} (hf : f.Fits sys.n) (hi : TransFlow sys t f i)
    (habs : t.absLosses ≠ none → ∃ oo, i.onOff = some oo) (hs : i.tree.Solves σ) (hrow : DirRow sys.n t σ i o) :
    ∀ k < sys.n, (σ i.flowRate.label k = 0 ∧ σ o.flowRate.label k = 0) ∨
      (σ i.flowRate.label k ≠ 0 ∧ σ o.flowRate.label k = σ i.flowRate.label k * (1 - t.relAt k) - t.absAt k) := by
  intro k hk
  have hr := hrow k hk
  cases ha : t.absLosses with
  | none =>
    have h0 : t.absAt k = 0 := by unfold TransData.absAt; rw [ha]; rfl
    rw [h0, zero_mul, sub_zero] at hr
    by_cases hz : σ i.flowRate.label k = 0
    · exact Or.inl ⟨hz, by rw [hr, hz, zero_mul]⟩
    · exact Or.inr ⟨hz, by rw [hr, h0, sub_zero]⟩
  | some a =>
    obtain ⟨oo, hoo⟩ := habs (by simp [ha])
    have hq : ∃ q, (fillOnOff (t.comp sys.cfg) f).onOff = some q := by
      obtain ⟨_, h2, _⟩ := flow_inv hi
      unfold flowOnOff at h2
      cases hq : (fillOnOff (t.comp sys.cfg) f).onOff with
      | none => rw [hq, hoo] at h2; cases h2
      | some q => exact ⟨q, rfl⟩
    obtain ⟨q, hq⟩ := hq
    obtain ⟨oo', h1, _, _, h4⟩ := flow_state hv (fillOnOff_fits hf) hi hq hs
    rw [hoo] at h1
    cases h1
    rw [hoo] at hr
    simp only [Option.map_some, Option.getD_some] at hr
    have heps := hv.heps
    rcases h4 k hk with ⟨e1, e2⟩ | ⟨e1, e2, _⟩
    · refine Or.inl ⟨e2, ?_⟩
      rw [hr, e1, e2]; ring
    · refine Or.inr ⟨by intro h0; rw [h0] at e2; linarith, ?_⟩
      rw [hr, e1, mul_one]

/-- **C35 (first direction).** -/
theorem C35_first (hv : sys.Valid) {t : TransData} {o : TransOut} (hf : t.Fits sys.n) (hfl : ∀ f ∈ t.flows, f.Fits sys.n) (h : transmissionModel sys t = .ok o)
    (hs : o.comp.tree.Solves σ) :
    ∀ k < sys.n, (σ (rateL t.label t.in1.label) k = 0 ∧ σ (rateL t.label t.out1.label) k = 0) ∨
      (σ (rateL t.label t.in1.label) k ≠ 0 ∧
        σ (rateL t.label t.out1.label) k = σ (rateL t.label t.in1.label) k * (1 - t.relAt k) - t.absAt k) := by
  obtain ⟨o0, h0, _, _, _, _, ⟨m1, t1⟩, ⟨_, t3⟩, _, _, _, _, ha, _, hiff⟩ := trans_iff hf h
  obtain ⟨s0, d1, _⟩ := (hiff σ).1 hs
  obtain ⟨p, hp, he⟩ := List.mem_map.1 m1
  have hflow := ((comp_solves h0 σ).2 s0).1 p hp
  rw [he] at hflow
  have := direction_state hv (fill_fits (hfl t.in1 (by simp [TransData.flows]))) t1 ha hflow d1
  rwa [t1.shape.1, t3.shape.1, fill_label, fill_label] at this

/-- **C35 (second direction).** -/
theorem C35_second (hv : sys.Valid) {t : TransData} {o : TransOut} (hf : t.Fits sys.n) (hfl : ∀ f ∈ t.flows, f.Fits sys.n) (h : transmissionModel sys t = .ok o)
    (hs : o.comp.tree.Solves σ) {i2 : FlowData} (hi2 : t.in2 = some i2) :
    ∃ o2, t.out2 = some o2 ∧ ∀ k < sys.n, (σ (rateL t.label i2.label) k = 0 ∧ σ (rateL t.label o2.label) k = 0) ∨
      (σ (rateL t.label i2.label) k ≠ 0 ∧ σ (rateL t.label o2.label) k = σ (rateL t.label i2.label) k * (1 - t.relAt k) - t.absAt k) := by
  obtain ⟨o0, h0, _, _, _, _, _, _, t2, _, t4, t4', _, h2, hiff⟩ := trans_iff hf h
  obtain ⟨s0, _, d2, _⟩ := (hiff σ).1 hs
  obtain ⟨x, hx, mx, tx⟩ := t2 i2 hi2
  obtain ⟨y, hy, hax, _⟩ := h2 x hx
  obtain ⟨g, hg⟩ : ∃ g, t.out2 = some g := by
    cases ho : t.out2 with
    | none => rw [t4' ho] at hy; cases hy
    | some g => exact ⟨g, rfl⟩
  obtain ⟨y', hy', _, ty⟩ := t4 g hg
  rw [hy] at hy'
  cases hy'
  obtain ⟨p, hp, he⟩ := List.mem_map.1 mx
  have hflow := ((comp_solves h0 σ).2 s0).1 p hp
  rw [he] at hflow
  refine ⟨g, hg, ?_⟩
  have := direction_state hv (fillIn2_fits (fill_fits (hfl i2 (by simp [TransData.flows, hi2])))) tx hax hflow (d2 x y hx hy)
  rwa [tx.shape.1, ty.shape.1, fillIn2_label, fill_label, fill_label] at this

/-- **C34 (transmission).**  A line used in one direction at a time. -/
theorem C34_transmission (hv : sys.Valid) {t : TransData} {o : TransOut} (hf : t.Fits sys.n) (hfl : ∀ f ∈ t.flows, f.Fits sys.n)
    (h : transmissionModel sys t = .ok o) (hs : o.comp.tree.Solves σ) {i2 : FlowData} (hi2 : t.in2 = some i2) (hp : t.preventBoth = true)
    (hne : t.in1.label ≠ i2.label) : ∀ k < sys.n, σ (rateL t.label t.in1.label) k = 0 ∨ σ (rateL t.label i2.label) k = 0 := by
  obtain ⟨o0, h0, _, _, _, _, _, _, _, _, _, _, _, _, hiff⟩ := trans_iff hf h
  intro k hk
  refine C34 hv (comp_fits hfl) h0 ((hiff σ).1 hs).1 k hk t.in1.label ?_ i2.label ?_ hne <;> simp [TransData.comp, hi2, hp, fill_label, fillIn2_label]

/-- **C35 (zero losses, as far as it holds).**  If a model with absolute losses that are all zero is built, it loses nothing but the
relative share. -/
theorem C35_zero_partial (hv : sys.Valid) {t : TransData} {o : TransOut} (hf : t.Fits sys.n) (hfl : ∀ f ∈ t.flows, f.Fits sys.n)
    (h : transmissionModel sys t = .ok o) (hs : o.comp.tree.Solves σ) (hz : ∀ k < sys.n, t.absAt k = 0) :
    ∀ k < sys.n, σ (rateL t.label t.out1.label) k = σ (rateL t.label t.in1.label) k * (1 - t.relAt k) := by
  intro k hk
  rcases C35_first hv hf hfl h hs k hk with ⟨h1, h2⟩ | ⟨_, h2⟩
  · rw [h1, h2]; ring
  · rw [h2, hz k hk, sub_zero]

/-- **C35 (zero losses, wrong).**  Absolute losses that are all zero cannot be modelled at all, unless something else demands on/off
variables: the model refers to the on variable of the input, which is only created for losses other than zero. -/
theorem C35_zero_wrong {t : TransData} {a : Num} (ha : t.absLosses = some a) (hz : a.anyNonzero = false) (h1 : t.in1.onOff = none) (h2 : t.onOff = none)
    (h3 : t.in2 = none ∨ t.preventBoth = false) : ¬ ∃ o, transmissionModel sys t = .ok o := by
  rintro ⟨o, h⟩
  unfold transmissionModel at h
  peel h with o0, h0
  peel h with q, hq
  obtain ⟨i1, i2, o1, o2⟩ := q
  simp only at h
  peel h with c1, hc1
  unfold transCon at hc1
  peel hc1 with extra, he
  unfold absLossOps at he
  rw [ha] at he
  simp only at he
  peel he with x, hx
  obtain ⟨oo, hoo, _⟩ := onVar_ok hx
  obtain ⟨r1, _⟩ := comp_inv h0
  unfold transFlows at hq
  split at hq
  · rename_i a' as b bs hin hout
    simp only [Except.ok.injEq, Prod.mk.injEq] at hq
    obtain ⟨e1, _⟩ := hq
    rw [hin, show (t.comp sys.cfg).inputs = t.fill t.in1 :: (t.in2.map fun f => t.fillIn2 sys.cfg (t.fill f)).toList from rfl, List.forall₂_cons] at r1
    obtain ⟨_, h5, _⟩ := flow_inv r1.1.2
    rw [e1, hoo] at h5
    have hprev : (t.comp sys.cfg).prevent = [] := by
      unfold TransData.comp
      rcases h3 with h3 | h3
      · rw [h3]
      · rw [h3]; cases t.in2 <;> rfl
    have hnone : (fillOnOff (t.comp sys.cfg) (t.fill t.in1)).onOff = none := by
      have hfill : t.fill t.in1 = t.in1 := by unfold TransData.fill; rw [ha]; simp [hz]
      have hco : (t.comp sys.cfg).onOff = none := h2
      unfold fillOnOff
      rw [hfill, hprev, hco]
      simp [h1]
    unfold flowOnOff at h5
    rw [hnone] at h5
    cases h5
  · cases hq

/-- **C36 (one size).** -/
theorem C36_one_size {t : TransData} {o : TransOut} (hf : t.Fits sys.n) (h : transmissionModel sys t = .ok o)
    (hs : o.comp.tree.Solves σ) {q : InvestParams} (hq : t.in1.size = .invest q) {i2 : FlowData} (hi2 : t.in2 = some i2) :
    σ (flowFull t.label t.in1.label ++ "__" ++ "Investment" ++ "_" ++ "size") 0 = σ (flowFull t.label i2.label ++ "__" ++ "Investment" ++ "_" ++ "size") 0 := by
  obtain ⟨o0, h0, _, _, _, _, ⟨_, t1⟩, _, t2, _, _, _, _, h2, hiff⟩ := trans_iff hf h
  obtain ⟨_, _, _, hsz⟩ := (hiff σ).1 hs
  obtain ⟨x, hx, _, tx⟩ := t2 i2 hi2
  obtain ⟨_, _, _, hinv⟩ := h2 x hx
  obtain ⟨a, b, ha, hb⟩ := hinv q hq
  have e := hsz x q a b hx hq ha hb
  have hlab : ∀ {el : String} {fd : FlowData} {fo : FlowOut} {iv : InvestOut}, flowModel sys el fd = .ok fo → fo.invest = some iv →
      iv.size.label = el ++ "__" ++ "Investment" ++ "_" ++ "size" := by
    intro el fd fo iv hm hiv
    obtain ⟨_, _, h3, _⟩ := flow_inv hm
    rw [hiv] at h3
    obtain ⟨q, _, hq⟩ := flowInvest_some h3
    obtain ⟨_, _, _, _, hs, _⟩ := invest_inv hq
    exact (sizeVar_iff hs).1
  rw [hlab t1 ha, hlab tx hb, fill_label, fillIn2_label, fill_label] at e
  exact e

/-! ## Examples and counterexamples -/

/-- A line in both directions with losses. -/
def exTrans : TransData :=
  { label := "tr", in1 := { label := "i1", bus := "A", size := .invest { optional := false, maximumSize := some 100 } }, out1 := { label := "o1", bus := "B", size := .num 100 },
    in2 := some { label := "i2", bus := "B" }, out2 := some { label := "o2", bus := "A", size := .num 100 }, relLosses := some (.v [1 / 10, 1 / 2, 1 / 10]), absLosses := some (.s 2) }

/-- Values for the on/off model of one flow. -/
def onOffTable (el : String) (on swOn swOff : List ℚ) (hours nr : ℚ) : List (String × List ℚ) :=
  [(el ++ "__OnOff_on", on), (el ++ "__OnOff_totalOnHours", [hours]), (el ++ "__OnOff_switchOn", swOn), (el ++ "__OnOff_switchOff", swOff), (el ++ "__OnOff_nrSwitchOn", [nr])]

def exTransSol : Assignment := tableSol (
  [("tr__i1_flow_rate", [10, 0, 0]), ("tr__i1_sumFlowHours", [10]), ("tr__o1_flow_rate", [7, 0, 0]), ("tr__o1_sumFlowHours", [7]),
   ("tr__i2_flow_rate", [0, 20, 0]), ("tr__i2_sumFlowHours", [20]), ("tr__o2_flow_rate", [0, 8, 0]), ("tr__o2_sumFlowHours", [8]),
   ("tr__i1__Investment_size", [50]), ("tr__i2__Investment_size", [50]), ("tr__i2__Investment_isInvested", [1])] ++
  onOffTable "tr__i1" [1, 0, 0] [1, 0, 0] [0, 1, 0] 1 1 ++ onOffTable "tr__o1" [1, 0, 0] [1, 0, 0] [0, 1, 0] 1 1 ++
  onOffTable "tr__i2" [0, 1, 0] [0, 1, 0] [0, 0, 1] 1 1 ++ onOffTable "tr__o2" [0, 1, 0] [0, 1, 0] [0, 0, 1] 1 1)

theorem exTrans_ok : ∃ o, transmissionModel exSys exTrans = .ok o ∧ o.comp.tree.Solves exTransSol :=
  builds_and_solves (f := fun o : TransOut => o.comp.tree) (by decide +kernel)

example : exTrans.Fits 3 := by constructor <;> simp [exTrans, Num.Fits, Num.len, Num.isScalar]
example : ∀ f ∈ exTrans.flows, f.Fits 3 := by
  intro f hf
  simp only [TransData.flows, exTrans, Option.toList_some, List.mem_cons, List.mem_append, List.not_mem_nil, or_false] at hf
  rcases hf with rfl | rfl | rfl | rfl <;> constructor <;> simp

/-- Zero absolute losses: cannot be built, although the same line without absolute losses can. -/
example : (∃ o, transmissionModel exSys { exTrans with preventBoth := false, absLosses := none } = .ok o) ∧
    transmissionModel exSys { exTrans with preventBoth := false, absLosses := some (.s 0) } = .error .attribute :=
  ⟨builds (by decide +kernel), by rfl⟩

theorem isInvest_iff (z : SizeArg) : z.isInvest = true ↔ ∃ q, z = .invest q := by
  cases z <;> simp [SizeArg.isInvest]

/-- **C36 (the checks).**  The lines that would pass are exactly those between two buses in which no flow but the first input has an
investment. -/
theorem C36_checks (t : TransData) : t.plausibilityChecks = .ok () ↔
    (∀ f, t.in2 = some f → f.bus = t.out1.bus) ∧ (∀ f, t.out2 = some f → f.bus = t.in1.bus) ∧
    ∀ q, t.out1.size ≠ .invest q ∧ (∀ f, t.in2 = some f → f.size ≠ .invest q) ∧ ∀ f, t.out2 = some f → f.size ≠ .invest q := by
  unfold TransData.plausibilityChecks
  by_cases h1 : t.in2.any (fun f => f.bus != t.out1.bus) = true
  · rw [if_pos h1]
    simp only [Option.any_eq_true_iff_get, bne_iff_ne] at h1
    refine ⟨fun h => (nomatch h), fun h => ?_⟩
    obtain ⟨hs, hb⟩ := h1
    exact absurd (h.1 _ (Option.some_get hs).symm) hb
  · rw [if_neg h1]
    have h1' : ∀ f, t.in2 = some f → f.bus = t.out1.bus := by
      intro f hf
      rw [hf] at h1
      simpa using h1
    by_cases h2 : t.out2.any (fun f => f.bus != t.in1.bus) = true
    · rw [if_pos h2]
      simp only [Option.any_eq_true_iff_get, bne_iff_ne] at h2
      refine ⟨fun h => (nomatch h), fun h => ?_⟩
      obtain ⟨hs, hb⟩ := h2
      exact absurd (h.2.1 _ (Option.some_get hs).symm) hb
    · rw [if_neg h2]
      have h2' : ∀ f, t.out2 = some f → f.bus = t.in1.bus := by
        intro f hf
        rw [hf] at h2
        simpa using h2
      have e : (t.out1.size.isInvest || t.in2.any (·.size.isInvest) || t.out2.any (·.size.isInvest)) = true ↔
          ∃ q, t.out1.size = .invest q ∨ (∃ f, t.in2 = some f ∧ f.size = .invest q) ∨ ∃ f, t.out2 = some f ∧ f.size = .invest q := by
        cases t.in2 <;> cases t.out2 <;> simp [isInvest_iff, exists_or]
        all_goals tauto
      by_cases h3 : (t.out1.size.isInvest || t.in2.any (·.size.isInvest) || t.out2.any (·.size.isInvest)) = true
      · rw [if_pos h3]
        obtain ⟨q, hq⟩ := e.1 h3
        refine ⟨fun h => (nomatch h), fun h => ?_⟩
        obtain ⟨a, b, c⟩ := h.2.2 q
        rcases hq with hq | ⟨f, hf, hq⟩ | ⟨f, hf, hq⟩
        · exact absurd hq a
        · exact absurd hq (b f hf)
        · exact absurd hq (c f hf)
      · rw [if_neg h3]
        refine ⟨fun _ => ⟨h1', h2', fun q => ?_⟩, fun _ => rfl⟩
        exact ⟨fun a => h3 (e.2 ⟨q, .inl a⟩), fun f hf a => h3 (e.2 ⟨q, .inr (.inl ⟨f, hf, a⟩)⟩),
          fun f hf a => h3 (e.2 ⟨q, .inr (.inr ⟨f, hf, a⟩)⟩)⟩

/-- The example line passes. -/
example : exTrans.plausibilityChecks = .ok () := (C36_checks _).2 ⟨by simp [exTrans], by simp [exTrans], by simp [exTrans]⟩

/-- **C36 (wrong).**  A line with a second investment and between different buses is modelled although the checks would refuse it. -/
theorem C36_refused_wrong : ∃ t o, t.plausibilityChecks = .error .assertion ∧
    ({ t with in2 := t.in2.map fun f => { f with bus := t.out1.bus } } : TransData).plausibilityChecks = .error .value ∧ transmissionModel exSys t = .ok o := by
  have h : ∃ o, transmissionModel exSys { exTrans with in2 := some { label := "i2", bus := "C", size := .invest {} } } = .ok o := builds (by decide +kernel)
  obtain ⟨o, ho⟩ := h
  exact ⟨_, o, by decide +kernel, by decide +kernel, ho⟩

/-- A source and sink with both flows. -/
example : ∃ o, compModel exSys (sourceAndSink "ss" { label := "src", size := .num 10 } { label := "snk", size := .num 10 }) = .ok o ∧
    o.tree.Solves (tableSol ([("ss__src_flow_rate", [3, 0, 0]), ("ss__src_sumFlowHours", [3]), ("ss__snk_flow_rate", [0, 4, 0]), ("ss__snk_sumFlowHours", [4])] ++
      onOffTable "ss__src" [1, 0, 0] [1, 0, 0] [0, 1, 0] 1 1 ++ onOffTable "ss__snk" [0, 1, 0] [0, 1, 0] [0, 0, 1] 1 1)) := builds_and_solves (by decide +kernel)

end Flix
