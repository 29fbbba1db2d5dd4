import Verif.Lemmas.Invest

/-! # The flow model row by row -/

namespace Flix

/-- Series given for a flow have one entry per time step (an assumption on the data; other lengths are refused only later, utils.py:33-34). -/
structure FlowData.Fits (n : Nat) (f : FlowData) : Prop where
  relMin : f.relMin.Fits n
  relMax : f.relMax.Fits n
  prof : ∀ g, f.fixedProfile = some g → g.Fits n
  onOff : ∀ q, f.onOff = some q → q.Fits n

theorem FlowData.Fits.relBounds {n : Nat} {f : FlowData} (h : f.Fits n) : f.relBounds.1.Fits n ∧ f.relBounds.2.Fits n := by
  unfold FlowData.relBounds
  cases hf : f.fixedProfile with
  | none => exact ⟨h.relMin, h.relMax⟩
  | some g => exact ⟨h.prof g hf, h.prof g hf⟩

theorem FlowData.Fits.absBounds {n : Nat} {f : FlowData} (h : f.Fits n) (cfg : Cfg) :
    (f.absBounds cfg).1.Fits n ∧ (f.absBounds cfg).2.Fits n := by
  unfold FlowData.absBounds
  obtain ⟨h1, h2⟩ := h.relBounds
  cases f.effSize cfg with
  | num x => simp [h1, h2]
  | invest q =>
    cases hq : q.fixedSize <;> simp [h1, h2, hq]

theorem flow_inv {sys : Sys} {el : String} {f : FlowData} {o : FlowOut} (h : flowModel sys el f = .ok o) :
    flowRateVar sys el f = .ok o.flowRate ∧ flowOnOff sys el f o.flowRate = .ok o.onOff ∧
    flowInvest sys el f o.flowRate (o.onOff.map (·.on)) = .ok o.invest ∧
    o.sumFlowHours = { label := el ++ "_" ++ "sumFlowHours", length := 1, lb := f.flowHoursTotalMin.map .s,
                       ub := f.flowHoursTotalMax.map .s } ∧
    o.tree = .node [o.flowRate, o.sumFlowHours]
      (mkEq el "sumFlowHours" [sSum o.flowRate (.v sys.dt), sAll o.sumFlowHours (.s (-1))] ::
        loadFactorCons sys el f o.sumFlowHours o.invest)
      ((o.onOff.map OnOffOut.tree).toList ++ (o.invest.map InvestOut.tree).toList) ∧
    ∃ sh, sharesTo .operation el "effects_per_flow_hour" f.effectsPerFlowHour (.v sys.dt) (some o.flowRate) = .ok sh ∧
      o.shares = (o.onOff.map (·.shares)).getD [] ++ (o.invest.map (·.shares)).getD [] ++ sh := by
  unfold flowModel at h
  peel h with rate, h1
  peel h with oo, h2
  peel h with inv, h3
  peel h with s, h4
  peel h with sh, h5
  simp only [except_pure, Except.ok.injEq] at h
  subst h
  have := (mkVar_ok h4).1
  refine ⟨h1, h2, h3, ?_, rfl, sh, h5, rfl⟩
  simpa using this

theorem flowRate_ok {sys : Sys} {el : String} {f : FlowData} {x : Var} (h : flowRateVar sys el f = .ok x) :
    x.label = el ++ "_" ++ "flow_rate" ∧ x.length = sys.n ∧ x.fixedValue = none ∧ x.isBinary = false ∧
    x.previous = (if sys.n > 1 then f.previousFlowRate else none) ∧
    x.lb = (if f.onOff.isSome then some (.s 0) else some (f.absBounds sys.cfg).1) ∧
    x.ub = (if f.onOff.isSome then none else some (f.absBounds sys.cfg).2) := by
  unfold flowRateVar at h
  cases ho : f.onOff <;> rw [ho] at h <;> have hm := (mkVar_ok h).1 <;> rw [hm] <;> simp

theorem solvesAll_append {σ : Assignment} {a b : List MTree} :
    MTree.SolvesAll σ (a ++ b) ↔ MTree.SolvesAll σ a ∧ MTree.SolvesAll σ b := by
  induction a with
  | nil => simp [MTree.SolvesAll]
  | cons t a ih => simp [MTree.SolvesAll, ih, and_assoc]

theorem solvesAll_iff {σ : Assignment} {ts : List MTree} : MTree.SolvesAll σ ts ↔ ∀ t ∈ ts, t.Solves σ := by
  induction ts with
  | nil => simp [MTree.SolvesAll]
  | cons t a ih => simp [MTree.SolvesAll, ih]

/-- The number used as size of a flow without an investment. -/
def FlowData.fixSize (cfg : Cfg) (f : FlowData) : ℚ := match f.effSize cfg with | .num x => x | .invest _ => 0

/-- What a flow model says about an assignment. -/
structure FlowRows (sys : Sys) (f : FlowData) (o : FlowOut) (σ : Assignment) : Prop where
  lower : f.onOff = none → ∀ t < sys.n, (f.absBounds sys.cfg).1.at t ≤ σ o.flowRate.label t
  upper : f.onOff = none → ∀ t < sys.n, σ o.flowRate.label t ≤ (f.absBounds sys.cfg).2.at t
  nonneg : f.onOff ≠ none → ∀ t < sys.n, 0 ≤ σ o.flowRate.label t
  sum : σ o.sumFlowHours.label 0 = ∑ k ∈ Finset.range sys.n, sys.width k * σ o.flowRate.label k
  sumMin : ∀ m, f.flowHoursTotalMin = some m → m ≤ σ o.sumFlowHours.label 0
  sumMax : ∀ m, f.flowHoursTotalMax = some m → σ o.sumFlowHours.label 0 ≤ m
  loadMax : ∀ lf, f.loadFactorMax = some lf → ∀ i, o.invest = some i →
    σ o.sumFlowHours.label 0 ≤ sys.total * lf * σ i.size.label 0
  loadMax' : ∀ lf, f.loadFactorMax = some lf → o.invest = none →
    σ o.sumFlowHours.label 0 ≤ f.fixSize sys.cfg * (sys.total * lf)
  loadMin : ∀ lf, f.loadFactorMin = some lf → ∀ i, o.invest = some i →
    sys.total * lf * σ i.size.label 0 ≤ σ o.sumFlowHours.label 0
  loadMin' : ∀ lf, f.loadFactorMin = some lf → o.invest = none →
    f.fixSize sys.cfg * (sys.total * lf) ≤ σ o.sumFlowHours.label 0
  onOff : ∀ oo, o.onOff = some oo → oo.tree.Solves σ
  invest : ∀ i, o.invest = some i → i.tree.Solves σ

theorem loadFactor_iff {sys : Sys} {el : String} {f : FlowData} {s : Var} {inv : Option InvestOut} (hs : s.length = 1)
    (hi : ∀ i, inv = some i → i.size.length = 1) (σ : Assignment) :
    (∀ c ∈ loadFactorCons sys el f s inv, c.Ok σ) ↔
      (∀ lf, f.loadFactorMax = some lf → ∀ i, inv = some i → σ s.label 0 ≤ sys.total * lf * σ i.size.label 0) ∧
      (∀ lf, f.loadFactorMax = some lf → inv = none → σ s.label 0 ≤ f.fixSize sys.cfg * (sys.total * lf)) ∧
      (∀ lf, f.loadFactorMin = some lf → ∀ i, inv = some i → sys.total * lf * σ i.size.label 0 ≤ σ s.label 0) ∧
      (∀ lf, f.loadFactorMin = some lf → inv = none → f.fixSize sys.cfg * (sys.total * lf) ≤ σ s.label 0) := by
  have hfs : (match f.effSize sys.cfg with | .num x => x | .invest _ => 0) = f.fixSize sys.cfg := rfl
  unfold loadFactorCons
  simp only [hfs, List.mem_append, or_imp, forall_and]
  have hI : ∀ (l : String) (a b : ℚ) (i : InvestOut), inv = some i → ((mkIneq el l [sAll s (.s a), sAll i.size (.s b)]).Ok σ ↔
      a * σ s.label 0 + b * σ i.size.label 0 ≤ 0) := by
    intro l a b i hii
    rw [ok_ineq1]
    · simp [lhs_sAll1 hs, lhs_sAll1 (hi i hii)]
    · intro op ho
      simp only [List.mem_cons, List.not_mem_nil, or_false] at ho
      rcases ho with rfl | rfl
      · exact good_sAll1 hs (by simp)
      · exact good_sAll1 (hi i hii) (by simp)
    · simp
  have hC : ∀ (l : String) (a b : ℚ), ((mkIneq el l [sAll s (.s a), Op.const (.s b)]).Ok σ ↔ a * σ s.label 0 ≤ b) := by
    intro l a b
    rw [ok_ineq1]
    · simp [lhs_sAll1 hs]
    · intro op ho
      simp only [List.mem_cons, List.not_mem_nil, or_false] at ho
      rcases ho with rfl | rfl
      · exact good_sAll1 hs (by simp)
      · exact good_const (by simp)
    · simp
  have key1 : (∀ c ∈ (match f.loadFactorMax with
      | none => []
      | some lf => [mkIneq el "load_factor_max" (sAll s (.s 1) ::
         match inv with
         | some o => [sAll o.size (.s (-1 * (sys.total * lf)))]
         | none => [.const (.s (f.fixSize sys.cfg * (sys.total * lf)))])]), c.Ok σ) ↔
      (∀ lf, f.loadFactorMax = some lf → ∀ i, inv = some i → σ s.label 0 ≤ sys.total * lf * σ i.size.label 0) ∧
      (∀ lf, f.loadFactorMax = some lf → inv = none → σ s.label 0 ≤ f.fixSize sys.cfg * (sys.total * lf)) := by
    cases f.loadFactorMax with
    | none => simp
    | some lf =>
      cases hinv : inv with
      | none => simp [hC]
      | some i =>
        simp only [List.forall_mem_cons, List.not_mem_nil, false_imp_iff, implies_true, and_true, Option.some.injEq, forall_eq',
          reduceCtorEq]
        rw [hI _ _ _ i hinv]
        constructor <;> intro h <;> linarith
  have key2 : (∀ c ∈ (match f.loadFactorMin with
      | none => []
      | some lf => [mkIneq el "load_factor_min" (sAll s (.s (-1)) ::
         match inv with
         | some o => [sAll o.size (.s (sys.total * lf))]
         | none => [.const (.s (-1 * f.fixSize sys.cfg * (sys.total * lf)))])]), c.Ok σ) ↔
      (∀ lf, f.loadFactorMin = some lf → ∀ i, inv = some i → sys.total * lf * σ i.size.label 0 ≤ σ s.label 0) ∧
      (∀ lf, f.loadFactorMin = some lf → inv = none → f.fixSize sys.cfg * (sys.total * lf) ≤ σ s.label 0) := by
    cases f.loadFactorMin with
    | none => simp
    | some lf =>
      cases hinv : inv with
      | none =>
        simp only [List.forall_mem_cons, List.not_mem_nil, false_imp_iff, implies_true, and_true, Option.some.injEq, forall_eq',
          reduceCtorEq, true_and, forall_true_left]
        rw [hC]
        constructor <;> intro h <;> linarith
      | some i =>
        simp only [List.forall_mem_cons, List.not_mem_nil, false_imp_iff, implies_true, and_true, Option.some.injEq, forall_eq',
          reduceCtorEq]
        rw [hI _ _ _ i hinv]
        constructor <;> intro h <;> linarith
  refine Iff.trans (and_congr key1 key2) ?_
  rw [and_assoc]

theorem flowInvest_some {sys : Sys} {el : String} {f : FlowData} {x : Var} {on : Option Var} {i : InvestOut}
    (h : flowInvest sys el f x on = .ok (some i)) :
    ∃ q, f.size = .invest q ∧ investModel sys.cfg el q x f.relBounds.1 f.relBounds.2 f.fixedProfile on = .ok i := by
  unfold flowInvest FlowData.effSize at h
  cases hs : f.size with
  | unset => simp [hs] at h
  | num x => simp [hs] at h
  | invest q =>
    simp only [hs] at h
    obtain ⟨a, h1, h2⟩ := map_ok.1 h
    cases h2
    exact ⟨q, rfl, h1⟩

theorem flowInvest_none {sys : Sys} {el : String} {f : FlowData} {x : Var} {on : Option Var}
    (h : flowInvest sys el f x on = .ok none) : ∀ q, f.size ≠ .invest q := by
  intro q hq
  unfold flowInvest FlowData.effSize at h
  simp only [hq] at h
  obtain ⟨a, h1, h2⟩ := map_ok.1 h
  cases h2

theorem flowOnOff_some {sys : Sys} {el : String} {f : FlowData} {x : Var} {oo : OnOffOut}
    (h : flowOnOff sys el f x = .ok (some oo)) :
    ∃ q, f.onOff = some q ∧ onOffModel sys el q [(x, f.absBounds sys.cfg)] = .ok oo := by
  unfold flowOnOff at h
  cases hs : f.onOff with
  | none => simp [hs] at h
  | some q =>
    simp only [hs] at h
    obtain ⟨a, h1, h2⟩ := map_ok.1 h
    cases h2
    exact ⟨q, rfl, h1⟩

theorem flowOnOff_none {sys : Sys} {el : String} {f : FlowData} {x : Var}
    (h : flowOnOff sys el f x = .ok none) : f.onOff = none := by
  unfold flowOnOff at h
  cases hs : f.onOff with
  | none => rfl
  | some q =>
    simp only [hs] at h
    obtain ⟨a, h1, h2⟩ := map_ok.1 h
    cases h2

theorem onOff_on_length {sys : Sys} {el : String} {q : OnOffParams} {ds} {oo : OnOffOut} (h : onOffModel sys el q ds = .ok oo) :
    oo.on.length = sys.n ∧ oo.on.label = ooP el ++ "_" ++ "on" ∧ oo.on.isBinary = true := by
  obtain ⟨_, _, _, _, _, _, _, _, _, _, hon, _⟩ := onOff_inv h
  rw [hon]; simp

/-- The complete meaning of a flow model. -/
theorem flow_iff {sys : Sys} (hv : sys.Valid) {el : String} {f : FlowData} {o : FlowOut} (hf : f.Fits sys.n)
    (h : flowModel sys el f = .ok o) (σ : Assignment) : o.tree.Solves σ ↔ FlowRows sys f o σ := by
  obtain ⟨h1, h2, h3, h4, h5, _⟩ := flow_inv h
  obtain ⟨hl, hlen, hfv, hbin, _, hlb, hub⟩ := flowRate_ok h1
  obtain ⟨ha1, ha2⟩ := hf.absBounds sys.cfg
  have hsl : o.sumFlowHours.length = 1 := by rw [h4]
  have hil : ∀ i, o.invest = some i → i.size.length = 1 := by
    intro i hi
    rw [hi] at h3
    obtain ⟨q, _, hq⟩ := flowInvest_some h3
    obtain ⟨_, _, _, _, hs, _⟩ := invest_inv hq
    exact (sizeVar_iff hs).2.1
  have hrate : o.flowRate.Ok σ ↔ (f.onOff = none → ∀ t < sys.n, (f.absBounds sys.cfg).1.at t ≤ σ o.flowRate.label t) ∧
      (f.onOff = none → ∀ t < sys.n, σ o.flowRate.label t ≤ (f.absBounds sys.cfg).2.at t) ∧
      (f.onOff ≠ none → ∀ t < sys.n, 0 ≤ σ o.flowRate.label t) := by
    rw [var_iff hfv]
    · rw [hlen, hlb, hub, hbin]
      cases ho : f.onOff with
      | none => simp [forall_and]
      | some q => simp
    · rw [hlb, hlen]; split
      · exact fitsBound_some (by simp)
      · exact fitsBound_some ha1
    · rw [hub, hlen]; split
      · exact fitsBound_none _
      · exact fitsBound_some ha2
  have hsum := scalar_var_iff (σ := σ) (x := o.sumFlowHours) (a := f.flowHoursTotalMin) (b := f.flowHoursTotalMax)
    (by rw [h4]) hsl (by rw [h4]) (by rw [h4]) (by rw [h4])
  have hcs : (mkEq el "sumFlowHours" [sSum o.flowRate (.v sys.dt), sAll o.sumFlowHours (.s (-1))]).Ok σ ↔
      σ o.sumFlowHours.label 0 = ∑ k ∈ Finset.range sys.n, sys.width k * σ o.flowRate.label k := by
    rw [ok_eq1]
    · have : (sSum o.flowRate (.v sys.dt)).lhs σ 0 = ∑ k ∈ Finset.range sys.n, sys.width k * σ o.flowRate.label k := by
        rw [lhs_sum hlen (Or.inr (by simp [hv.hdt]))]
        refine Finset.sum_congr rfl fun k hk => ?_
        rw [at_v (by rw [hv.hdt]; exact Finset.mem_range.1 hk)]; rfl
      simp only [opsLhs_cons, opsRhs_cons, this, lhs_sAll1 hsl, rhs_sSum, rhs_sAll, opsLhs_nil, opsRhs_nil, at_s]
      constructor <;> intro h <;> linarith
    · intro op ho
      simp only [List.mem_cons, List.not_mem_nil, or_false] at ho
      rcases ho with rfl | rfl
      · exact good_sSum (Or.inr (by simp [hv.hdt, hlen]))
      · exact good_sAll1 hsl (by simp)
    · simp
  have hsub : MTree.SolvesAll σ ((o.onOff.map OnOffOut.tree).toList ++ (o.invest.map InvestOut.tree).toList) ↔
      (∀ oo, o.onOff = some oo → oo.tree.Solves σ) ∧ (∀ i, o.invest = some i → i.tree.Solves σ) := by
    rw [solvesAll_append]
    cases o.onOff <;> cases o.invest <;> simp [MTree.SolvesAll]
  rw [h5, MTree.Solves, hsub]
  simp only [List.forall_mem_cons, List.not_mem_nil, false_imp_iff, implies_true, and_true]
  rw [hrate, hsum, hcs, loadFactor_iff hsl hil]
  constructor
  · rintro ⟨⟨⟨a1, a2, a3⟩, b1, b2⟩, ⟨c, d1, d2, d3, d4⟩, e1, e2⟩
    exact ⟨a1, a2, a3, c, b1, b2, d1, d2, d3, d4, e1, e2⟩
  · rintro ⟨a1, a2, a3, c, b1, b2, d1, d2, d3, d4, e1, e2⟩
    exact ⟨⟨⟨a1, a2, a3⟩, b1, b2⟩, ⟨c, d1, d2, d3, d4⟩, e1, e2⟩

end Flix
