import Verif.Lemmas.Bus
import Verif.Spec.Components
import Verif.Lemmas.Collection

/-! # The linear converter model -/

namespace Flix

/-- The flows of a component: data, label and length of the flow rates. -/
theorem comp_rates {sys : Sys} {c : CompData} {o : CompOut} (h : compModel sys c = .ok o) :
    List.Forall₂ (fun f q => q.1.label = f.label ∧ q.2.flowRate.label = rateL c.label f.label ∧ q.2.flowRate.length = sys.n) c.inputs o.inputs ∧
    List.Forall₂ (fun f q => q.1.label = f.label ∧ q.2.flowRate.label = rateL c.label f.label ∧ q.2.flowRate.length = sys.n) c.outputs o.outputs := by
  obtain ⟨h1, h2, _⟩ := comp_inv h
  have : ∀ f (q : FlowData × FlowOut), (q.1 = fillOnOff c f ∧ flowModel sys (flowFull c.label f.label) (fillOnOff c f) = .ok q.2) →
      (q.1.label = f.label ∧ q.2.flowRate.label = rateL c.label f.label ∧ q.2.flowRate.length = sys.n) := by
    rintro f q ⟨ha, hb⟩
    obtain ⟨hl, hn, _⟩ := flowRate_ok (flow_inv hb).1
    refine ⟨by rw [ha, fillOnOff_label], ?_, hn⟩
    rw [hl]; rfl
  exact ⟨forall₂_imp' h1 fun f _ q hq => this f q hq, forall₂_imp' h2 fun f _ q hq => this f q hq⟩

theorem mul_fits' {n : Nat} {a b r : Num} (h : Num.mul a b = .ok r) (ha : a.Fits n) (hb : b.Fits n) :
    r.Fits n ∧ ∀ t < n, r.at t = a.at t * b.at t := by
  obtain ⟨c, hc, h1, h2⟩ := zip_fits (f := (· * ·)) ha hb
  have : r = c := by
    have := h.symm.trans hc
    simpa using this
  exact this ▸ ⟨h1, h2⟩

/-- Reciprocals exist only where no entry is zero. -/
theorem Num.inv_ok {n : Nat} {a r : Num} (h : a.inv = .ok r) (ha : a.Fits n) :
    r.Fits n ∧ ∀ t < n, a.at t ≠ 0 ∧ r.at t = 1 / a.at t := by
  cases a with
  | s x =>
    simp only [Num.inv] at h
    split at h
    · cases h
    · rename_i hx
      cases h
      exact ⟨fits_s _ _, fun t _ => ⟨hx, rfl⟩⟩
  | v xs =>
    simp only [Num.inv] at h
    split at h
    · cases h
    · rename_i hx
      cases h
      refine ⟨(fits_map (f := fun x => 1 / x)).2 ha, fun t ht => ⟨?_, at_map (f := fun x => 1 / x) ha ht⟩⟩
      have hz : ∀ x ∈ xs, x ≠ 0 := by
        intro x hxm h0
        apply hx
        rw [List.any_eq_true]
        exact ⟨x, hxm, by simp [h0]⟩
      have hl : xs.length = n := by
        rcases ha with h | h
        · simp [Num.isScalar] at h
        · exact h
      have hmem : ∀ (ys : List ℚ), ys.length = n → (∀ x ∈ ys, x ≠ 0) → (Num.v ys).at t ≠ 0 := by
        intro ys hy hne
        match ys, hy, hne with
        | [], hy, _ => simp at hy; omega
        | [y], _, hne => exact hne y List.mem_cons_self
        | y :: z :: ys, hy, hne =>
          simp only [Num.at, List.getD_eq_getElem?_getD, List.getElem?_eq_getElem (by omega : t < (y :: z :: ys).length), Option.getD_some]
          exact hne _ (List.getElem_mem _)
      exact hmem xs hl hz

/-- The weighted sum over one side of a conversion, on the modelled flows. -/
def convSum (σ : Assignment) (flows : List (FlowData × FlowOut)) (fs : Factors) (t : Nat) : ℚ :=
  (flows.map fun q => (((fs.get q.1.label).map fun f => f.at t).getD 0) * σ q.2.flowRate.label t).sum

theorem conversion_iff {n : Nat} {ins outs : List (FlowData × FlowOut)} {fs : Factors} {p l : String}
    (hin : ∀ q ∈ ins, q.2.flowRate.length = n) (hout : ∀ q ∈ outs, q.2.flowRate.length = n)
    (hf : ∀ q ∈ fs, q.2.Fits n) (σ : Assignment) :
    (mkEq p l (conversionOps ins outs fs)).Ok σ ↔ ∀ t < n, convSum σ ins fs t = convSum σ outs fs t := by
  have hget : ∀ s φ, fs.get s = some φ → φ.Fits n := by
    intro s φ h
    unfold Factors.get at h
    obtain ⟨q, hq, rfl⟩ := Option.map_eq_some_iff.1 h
    exact hf q (List.mem_of_find?_eq_some hq)
  have hlhs : ∀ (g : Num → Num) (k : ℚ), (∀ φ : Num, φ.Fits n → ∀ t < n, (g φ).at t = k * φ.at t) → ∀ (qs : List (FlowData × FlowOut)),
      (∀ q ∈ qs, q.2.flowRate.length = n) → ∀ t < n,
      opsLhs σ t (qs.filterMap fun q => (fs.get q.1.label).map fun f => sAll q.2.flowRate (g f)) = k * convSum σ qs fs t := by
    intro g k hg qs hqs t ht
    induction qs with
    | nil => simp [convSum]
    | cons q qs ih =>
      have ih := ih fun q hq => hqs q (List.mem_cons_of_mem _ hq)
      rw [List.filterMap_cons]
      unfold convSum at ih ⊢
      cases hq : fs.get q.1.label with
      | none => simp only [Option.map_none, List.map_cons, List.sum_cons, hq, Option.getD_none, zero_mul, zero_add]; exact ih
      | some φ =>
        simp only [Option.map_some, List.map_cons, List.sum_cons, hq, Option.getD_some, opsLhs_cons]
        rw [ih, lhs_sAll (by rw [hqs q List.mem_cons_self]; exact ht), hg φ (hget _ _ hq) t ht]
        ring
  have hrhs : ∀ (g : Num → Num) (qs : List (FlowData × FlowOut)) (t : Nat),
      opsRhs t (qs.filterMap fun q => (fs.get q.1.label).map fun f => sAll q.2.flowRate (g f)) = 0 := by
    intro g qs t
    induction qs with
    | nil => simp
    | cons q qs ih =>
      rw [List.filterMap_cons]
      cases fs.get q.1.label with
      | none => exact ih
      | some φ => simp only [Option.map_some, opsRhs_cons, rhs_sAll, ih, add_zero]
  have hgood : ∀ (g : Num → Num), (∀ φ : Num, φ.Fits n → (g φ).Fits n) → ∀ (qs : List (FlowData × FlowOut)), (∀ q ∈ qs, q.2.flowRate.length = n) →
      ∀ op ∈ (qs.filterMap fun q => (fs.get q.1.label).map fun f => sAll q.2.flowRate (g f)), op.Good n ∧ op.len = n := by
    intro g hg qs hqs op hop
    obtain ⟨q, hq, h⟩ := List.mem_filterMap.1 hop
    obtain ⟨φ, hφ, rfl⟩ := Option.map_eq_some_iff.1 h
    exact ⟨good_sAll (hqs q hq) (hg φ (hget _ _ hφ)), len_sAll' (hqs q hq) (hg φ (hget _ _ hφ))⟩
  let A := ins.filterMap fun q => (fs.get q.1.label).map fun f => sAll q.2.flowRate f
  let B := outs.filterMap fun q => (fs.get q.1.label).map fun f => sAll q.2.flowRate (f.map (-1 * ·))
  have hA : ∀ op ∈ A, op.Good n ∧ op.len = n := hgood id (fun _ h => h) ins hin
  have hB : ∀ op ∈ B, op.Good n ∧ op.len = n := hgood (fun f => f.map (-1 * ·)) (fun _ h => fits_map.2 h) outs hout
  have hval : ∀ t < n, opsLhs σ t (conversionOps ins outs fs) = convSum σ ins fs t - convSum σ outs fs t ∧ opsRhs t (conversionOps ins outs fs) = 0 := by
    intro t ht
    have h1 : opsLhs σ t A = 1 * convSum σ ins fs t := hlhs id 1 (fun φ _ t _ => by simp) ins hin t ht
    have h2 : opsLhs σ t B = -1 * convSum σ outs fs t :=
      hlhs (fun f => f.map (-1 * ·)) (-1) (fun φ hφ t ht => at_map hφ ht) outs hout t ht
    have h3 : opsRhs t A = 0 := hrhs id ins t
    have h4 : opsRhs t B = 0 := hrhs (fun f => f.map (-1 * ·)) outs t
    rw [show conversionOps ins outs fs = A ++ B ++ [.const (.s 0)] from rfl, opsLhs_append, opsLhs_append, opsRhs_append', opsRhs_append',
      h1, h2, h3, h4]
    simp
    ring
  have hops : conversionOps ins outs fs = A ++ B ++ [.const (.s 0)] := rfl
  have hgoodAll : ∀ op ∈ conversionOps ins outs fs, op.Good n := by
    intro op hop
    rw [hops] at hop
    rcases List.mem_append.1 hop with hop | hop
    · rcases List.mem_append.1 hop with hop | hop
      · exact (hA op hop).1
      · exact (hB op hop).1
    · simp at hop; subst hop; exact good_const (fits_s _ _)
  by_cases hne : A ++ B = []
  · -- nothing to convert
    have hA0 : A = [] := (List.append_eq_nil_iff.1 hne).1
    have hB0 : B = [] := (List.append_eq_nil_iff.1 hne).2
    have hz : ∀ t < n, convSum σ ins fs t = 0 ∧ convSum σ outs fs t = 0 := by
      intro t ht
      have h1 := hlhs id 1 (fun φ _ t _ => by simp) ins hin t ht
      have h2 := hlhs (fun f => f.map (-1 * ·)) (-1) (fun φ hφ t ht => at_map hφ ht) outs hout t ht
      have h1' : opsLhs σ t A = 1 * convSum σ ins fs t := h1
      have h2' : opsLhs σ t B = -1 * convSum σ outs fs t := h2
      rw [hA0] at h1'
      rw [hB0] at h2'
      simp at h1' h2'
      exact ⟨h1'.symm, h2'⟩
    rw [hops, hne]
    constructor
    · intro _ t ht; rw [(hz t ht).1, (hz t ht).2]
    · intro _
      exact ⟨_, _, rfl, rfl, by simp [Row.Holds, termsVal]⟩
  · rw [ok_eq (n := n) hgoodAll]
    · refine forall_congr' fun t => forall_congr' fun ht => ?_
      rw [(hval t ht).1, (hval t ht).2, sub_eq_zero]
    · obtain ⟨op, hop⟩ := List.exists_mem_of_ne_nil _ hne
      refine ⟨op, by rw [hops]; exact List.mem_append_left _ hop, ?_⟩
      rcases List.mem_append.1 hop with hop | hop
      · exact (hA op hop).2
      · exact (hB op hop).2

theorem converter_factors {sys : Sys} {c : ConvData} {o : CompOut} (h : converterModel sys c = .ok o) (hne : c.factors ≠ [])
    (hf : ∀ fs ∈ c.factors, ∀ q ∈ fs, q.2.Fits sys.n) :
    ∃ o0, compModel sys c.comp = .ok o0 ∧ o.inputs = o0.inputs ∧ o.outputs = o0.outputs ∧ o.on = o0.on ∧ o.shares = o0.shares ∧
      ∀ σ : Assignment, o.tree.Solves σ ↔ o0.tree.Solves σ ∧ ∀ fs ∈ c.factors, ∀ t < sys.n, convSum σ o0.inputs fs t = convSum σ o0.outputs fs t := by
  unfold converterModel at h
  peel h with o0, h0
  rw [if_pos (by cases hc : c.factors <;> simp_all)] at h
  simp only [except_pure, Except.ok.injEq] at h
  subst h
  obtain ⟨r1, r2⟩ := comp_rates h0
  have hin : ∀ q ∈ o0.inputs, q.2.flowRate.length = sys.n := by
    intro q hq; obtain ⟨f, _, _, _, h⟩ := forall₂_mem_right r1 hq; exact h
  have hout : ∀ q ∈ o0.outputs, q.2.flowRate.length = sys.n := by
    intro q hq; obtain ⟨f, _, _, _, h⟩ := forall₂_mem_right r2 hq; exact h
  refine ⟨o0, h0, rfl, rfl, rfl, rfl, fun σ => ?_⟩
  simp only [CompOut.tree, MTree.Solves]
  have hcons : (∀ r ∈ c.factors.mapIdx (fun i fs => mkEq c.comp.label ("conversion_" ++ toString i) (conversionOps o0.inputs o0.outputs fs)), r.Ok σ) ↔
      ∀ fs ∈ c.factors, ∀ t < sys.n, convSum σ o0.inputs fs t = convSum σ o0.outputs fs t := by
    constructor
    · intro hr fs hfs
      obtain ⟨i, hi, rfl⟩ := List.mem_iff_getElem.1 hfs
      have := hr (mkEq c.comp.label ("conversion_" ++ toString i) (conversionOps o0.inputs o0.outputs c.factors[i])) (by
        rw [List.mem_mapIdx]; exact ⟨i, hi, rfl⟩)
      exact (conversion_iff hin hout (hf _ hfs) σ).1 this
    · intro hr r hr'
      obtain ⟨i, hi, rfl⟩ := List.mem_mapIdx.1 hr'
      exact (conversion_iff hin hout (hf _ (List.getElem_mem hi)) σ).2 (hr _ (List.getElem_mem hi))
  rw [← hcons]
  simp only [List.mem_append, or_imp, forall_and]
  tauto

theorem convSum_eq {σ : Assignment} {comp : String} {n : Nat} {flows : List FlowData} {qs : List (FlowData × FlowOut)}
    (h : List.Forall₂ (fun f q => q.1.label = f.label ∧ q.2.flowRate.label = rateL comp f.label ∧ q.2.flowRate.length = n) flows qs)
    (fs : Factors) (t : Nat) : convSum σ qs fs t = convSide σ comp flows fs t := by
  unfold convSum convSide
  induction h with
  | nil => rfl
  | cons hq _ ih => simp only [List.map_cons, List.sum_cons, ih, hq.1, hq.2.1]

/-- The segments of a converter. -/
theorem converter_segments {sys : Sys} {c : ConvData} {o : CompOut} (h : converterModel sys c = .ok o) (he : c.factors = []) :
    ∃ o0 pts tree, compModel sys c.comp = .ok o0 ∧ segmentPoints o0.flows c.segments = .ok pts ∧
      multipleSegments c.comp.label sys.n pts (match o0.on with | some on => .use on.on | none => .no) = .ok tree ∧
      o.inputs = o0.inputs ∧ o.outputs = o0.outputs ∧ o.on = o0.on ∧ o.shares = o0.shares ∧
      ∀ σ : Assignment, o.tree.Solves σ ↔ o0.tree.Solves σ ∧ tree.Solves σ := by
  unfold converterModel at h
  peel h with o0, h0
  rw [if_neg (by simp [he])] at h
  peel h with pts, h1
  peel h with tree, h2
  simp only [except_pure, Except.ok.injEq] at h
  subst h
  refine ⟨o0, pts, tree, h0, h1, h2, rfl, rfl, rfl, rfl, fun σ => ?_⟩
  simp only [CompOut.tree, MTree.Solves, solvesAll_append, MTree.SolvesAll]
  tauto

/-- The sample points of a converter: those declared for each flow. -/
theorem segmentPoints_ok {sys : Sys} {c : CompData} {o : CompOut} {segs : List (String × List (Num × Num))} {pts : List (Var × List (Num × Num))}
    (h : compModel sys c = .ok o) (hp : segmentPoints o.flows segs = .ok pts) :
    List.Forall₂ (fun f p => p.1.label = rateL c.label f.label ∧ p.1.length = sys.n ∧
      ∃ r, segs.find? (fun r => r.1 == f.label) = some r ∧ p.2 = r.2) (c.inputs ++ c.outputs) pts := by
  obtain ⟨r1, r2⟩ := comp_rates h
  have r := List.rel_append r1 r2
  unfold segmentPoints at hp
  rw [mapM_ok] at hp
  have : ∀ {fs qs ps}, List.Forall₂ (fun (f : FlowData) (q : FlowData × FlowOut) => q.1.label = f.label ∧ q.2.flowRate.label = rateL c.label f.label ∧ q.2.flowRate.length = sys.n) fs qs →
      List.Forall₂ (fun (q : FlowData × FlowOut) p => (match segs.find? (fun r => r.1 == q.1.label) with
        | some r => Except.ok (q.2.flowRate, r.2) | none => .error Err.key) = .ok p) qs ps →
      List.Forall₂ (fun f p => p.1.label = rateL c.label f.label ∧ p.1.length = sys.n ∧
        ∃ r, segs.find? (fun r => r.1 == f.label) = some r ∧ p.2 = r.2) fs ps := by
    intro fs qs ps h1
    induction h1 generalizing ps with
    | nil => intro h2; cases h2; exact .nil
    | cons ha _ ih =>
      intro h2
      cases h2 with
      | cons hb h2 =>
        refine .cons ?_ (ih h2)
        rw [ha.1] at hb
        split at hb
        · rename_i r hr
          cases hb
          exact ⟨ha.2.1, ha.2.2, r, hr, rfl⟩
        · cases hb
  exact this r hp

end Flix
