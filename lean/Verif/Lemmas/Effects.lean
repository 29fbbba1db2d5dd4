import Verif.Lemmas.Flow
import Verif.Lemmas.SegShares
import Verif.Spec.Effects
import Mathlib.Tactic.Tauto

/-! # Share allocations row by row -/

namespace Flix

/-- Label of the variable of a share. -/
def shareLabel (el name : String) : String := el ++ "__" ++ name

/-- Length of the variable of a share. -/
def Share.varLen (c : Share) : Nat :=
  match c.var with
  | none => 1
  | some x => if c.asSum then 1 else x.length

theorem total_eq (a : Num) : a.total = ∑ k ∈ Finset.range a.len, a.at k := by
  cases a with
  | s x => simp [Num.total, Num.len, Num.at]
  | v xs =>
    have h : ∀ ys : List ℚ, ys.sum = ∑ k ∈ Finset.range ys.length, ys[k]?.getD 0 := fun ys => by
      induction ys with
      | nil => simp
      | cons y ys ih =>
        rw [List.length_cons, Finset.sum_range_succ', List.sum_cons, ih]
        simp [add_comm]
    simp only [Num.total, Num.len]
    rw [h]
    refine Finset.sum_congr rfl fun k hk => ?_
    have hk := Finset.mem_range.1 hk
    match xs, hk with
    | [x], hk => obtain rfl : k = 0 := by simpa using hk
                 rfl
    | _ :: _ :: _, _ => rfl

theorem shareVar_ok {el : String} {c : Share} {s : Var} (h : shareVar el c = .ok s) :
    s = { label := shareLabel el c.name, length := c.varLen } ∧ (c.asSum = true → ∀ x, c.var = some x → x.length ≠ 1) := by
  unfold shareVar at h
  cases hv : c.var with
  | none =>
    rw [hv] at h
    simp only at h
    split at h
    · have := checked_ok h
      refine ⟨?_, by simp⟩
      rw [this]; simp [shareLabel, Share.varLen, hv]
    · simp at h
  | some x =>
    rw [hv] at h
    simp only at h
    split at h
    · simp at h
    · rename_i hne
      split at h
      · rename_i hc
        have := checked_ok h
        refine ⟨?_, fun ha y hy => ?_⟩
        · rw [this]; simp only [shareLabel, Share.varLen, hv]
          rcases hc with hc | hc
          · simp [hc]
          · simp [hc]
        · cases hy; exact fun hl => hne ⟨hl, ha⟩
      · rename_i hc
        simp only [not_or] at hc
        unfold Var.checkedTS at h
        split at h
        · have := checked_ok h
          refine ⟨?_, fun ha => absurd ha hc.1⟩
          rw [this]; simp [shareLabel, Share.varLen, hv, hc.1]
        · simp at h

theorem weighted_eq {σ : Assignment} {x : Var} {f : Num} {t : Nat} (hf : f.Fits x.length) :
    (Op.summand x f none true).lhs σ t = weighted f (σ x.label) x.length := by
  have := lhs_sum (σ := σ) (x := x) (f := f) (i := t) rfl (by rcases hf.len with h | h <;> simp [h])
  unfold weighted
  rw [← this]; rfl

/-- A share: its variable equals the value of the share. -/
theorem singleShare_iff {el : String} {c : Share} {isTS : Bool} {n : Nat} {r : Var × MTree} (h : singleShare el c = .ok r)
    (hw : c.WellFormed isTS n) :
    r.1 = { label := shareLabel el c.name, length := c.varLen } ∧
    ∀ σ : Assignment, r.2.Solves σ ↔ ∀ t < c.varLen, σ (shareLabel el c.name) t = c.value σ t := by
  unfold singleShare at h
  peel h with s, hs
  simp only [except_pure, Except.ok.injEq] at h
  obtain ⟨hs1, hne⟩ := shareVar_ok hs
  subst h
  refine ⟨hs1, fun σ => ?_⟩
  have hfree : s.Ok σ := by
    rw [hs1, var_iff rfl (fitsBound_none _) (fitsBound_none _)]; simp
  simp only [MTree.Solves, MTree.SolvesAll, and_true, List.forall_mem_cons, List.not_mem_nil, false_imp_iff, implies_true, hfree, true_and]
  have hsl : s.length = c.varLen := by rw [hs1]
  have hsn : s.label = shareLabel el c.name := by rw [hs1]
  cases hv : c.var with
  | none =>
    have hl1 : c.varLen = 1 := by simp [Share.varLen, hv]
    simp only
    have hg : (Op.const (if c.asSum = true then .s (-1 * c.factor.total) else c.factor.map (-1 * ·))).Good 1 := by
      apply good_const
      cases ha : c.asSum with
      | true => simp
      | false =>
        simp only [Share.WellFormed, hv] at hw
        left; simpa using hw ha
    rw [ok_eq1 (by
      simp only [List.forall_mem_cons, List.not_mem_nil, false_imp_iff, implies_true, and_true]
      exact ⟨good_sAll1 (by rw [hsl, hl1]) (by simp), hg⟩) (by simp)]
    simp only [opsLhs_cons, opsRhs_cons, lhs_sAll1 (x := s) (by rw [hsl, hl1]), rhs_sAll, opsLhs_nil, opsRhs_nil, at_s, lhs_const, rhs_const, hsn,
      Share.value, hv, hl1]
    have : (if c.asSum = true then Num.s (-1 * c.factor.total) else c.factor.map (-1 * ·)).at 0 =
        -(if c.asSum = true then ∑ k ∈ Finset.range c.factor.len, c.factor.at k else c.factor.at 0) := by
      split
      · simp [total_eq]
      · exact at_neg _ _
    rw [this]
    constructor
    · intro h t ht
      have : t = 0 := by omega
      subst this; linarith
    · intro h; have := h 0 (by omega); rw [this]; ring
  | some x =>
    simp only
    simp only [Share.WellFormed, hv] at hw
    rcases hw with ⟨ha, hf⟩ | ⟨ha, hx, hf, _⟩ | ⟨ha, _, hx, hf⟩
    · have hl1 : c.varLen = 1 := by simp [Share.varLen, hv, ha]
      have hfit : c.factor.Fits x.length := hf
      rw [ha, ok_eq1 (by
        simp only [List.forall_mem_cons, List.not_mem_nil, false_imp_iff, implies_true, and_true]
        exact ⟨good_sAll1 (by rw [hsl, hl1]) (by simp), good_sSum hfit⟩) (by simp)]
      simp only [opsLhs_cons, opsRhs_cons, lhs_sAll1 (x := s) (by rw [hsl, hl1]), rhs_sAll, opsLhs_nil, opsRhs_nil, at_s, hsn,
        Share.value, hv, hl1, weighted_eq hfit, ha, if_true]
      have hr : (Op.summand x c.factor none true).rhs 0 = 0 := rfl
      rw [hr]
      constructor
      · intro h t ht
        have : t = 0 := by omega
        subst this; linarith
      · intro h; have := h 0 (by omega); rw [this]; ring
    · have hl1 : c.varLen = 1 := by simp [Share.varLen, hv, ha, hx]
      rw [ha, ok_eq1 (by
        simp only [List.forall_mem_cons, List.not_mem_nil, false_imp_iff, implies_true, and_true]
        exact ⟨good_sAll1 (by rw [hsl, hl1]) (by simp), good_sAll1 hx (Or.inr hf)⟩) (by simp)]
      have hlx : (Op.summand x c.factor none false).lhs σ 0 = c.factor.at 0 * σ x.label 0 := lhs_sAll1 (x := x) hx
      have hr : (Op.summand x c.factor none false).rhs 0 = 0 := rfl
      simp only [opsLhs_cons, opsRhs_cons, lhs_sAll1 (x := s) (by rw [hsl, hl1]), rhs_sAll, opsLhs_nil, opsRhs_nil, at_s, hsn,
        Share.value, hv, hl1, ha, hx, if_true, hlx, hr, Bool.false_eq_true, if_false]
      constructor
      · intro h t ht
        have : t = 0 := by omega
        subst this; linarith
      · intro h; have := h 0 (by omega); rw [this]; ring
    · have hl1 : c.varLen = n := by simp [Share.varLen, hv, ha, hx]
      have hfit : c.factor.Fits n := hf
      rw [ha, ok_eq (n := n) (by
        simp only [List.forall_mem_cons, List.not_mem_nil, false_imp_iff, implies_true, and_true]
        exact ⟨good_sAll (by rw [hsl, hl1]) (by simp), good_sAll hx hfit⟩)
        ⟨sAll s (.s (-1)), by simp, len_sAll' (by rw [hsl, hl1]) (by simp)⟩, hl1]
      refine forall₂_congr fun t ht => ?_
      have hlx : (Op.summand x c.factor none false).lhs σ t = c.factor.at t * σ x.label t := lhs_sAll (x := x) (by omega)
      have hr : (Op.summand x c.factor none false).rhs t = 0 := rfl
      have hix : (if x.length = 1 then 0 else t) = t := by split <;> omega
      simp only [opsLhs_cons, opsRhs_cons, lhs_sAll (x := s) (by rw [hsl, hl1]; exact ht), rhs_sAll, opsLhs_nil, opsRhs_nil, at_s, hsn,
        Share.value, hv, ha, hlx, hr, Bool.false_eq_true, if_false, hix]
      constructor <;> intro h <;> linarith

/-- The bounds of the variables of a share allocation. -/
structure SamBounds (sys : Sys) (d : SamData) (sum : Nat → ℚ) (ts : Option (Nat → ℚ)) : Prop where
  totalMin : ∀ m, d.totalMin = some m → m ≤ sum 0
  totalMax : ∀ m, d.totalMax = some m → sum 0 ≤ m
  stepMin : ∀ x, ts = some x → ∀ m, d.minPerHour = some m → ∀ t < sys.n, m.at t * sys.width t ≤ x t
  stepMax : ∀ x, ts = some x → ∀ m, d.maxPerHour = some m → ∀ t < sys.n, x t ≤ m.at t * sys.width t

theorem perHour_ok {sys : Sys} (hv : sys.Valid) {a : Option Num} {r : Option Num} (h : perHour (.v sys.dt) a = .ok r)
    (hf : ∀ m, a = some m → m.Fits sys.n) : FitsBound sys.n r ∧
    ∀ t < sys.n, ∀ P : ℚ → Prop, (∀ m, r = some m → P (m.at t)) ↔ (∀ m, a = some m → P (m.at t * sys.width t)) := by
  unfold perHour at h
  cases a with
  | none => simp at h; subst h; simp [fitsBound_none]
  | some m =>
    simp only at h
    rw [map_ok] at h
    obtain ⟨r', hr, rfl⟩ := h
    have hm := hf m rfl
    have hdt : (Num.v sys.dt).len = sys.n := hv.hdt
    obtain ⟨hlen, _⟩ := zip_len hr
    rw [hdt] at hlen
    have hl : r'.len = sys.n := by
      rcases hm.len with h | h <;> split at hlen <;> omega
    refine ⟨fitsBound_some (Or.inr hl), fun t ht P => ?_⟩
    have := zip_at hr (i := t) (Or.inr (by omega))
    simp only [Option.some.injEq, forall_eq', this, at_v (xs := sys.dt) (i := t) (by rw [hv.hdt]; exact ht)]
    rfl

theorem samVars_iff {sys : Sys} (hv : sys.Valid) {d : SamData} {vs : SamVars} (h : samVars sys d = .ok vs)
    (hmin : ∀ m, d.minPerHour = some m → m.Fits sys.n) (hmax : ∀ m, d.maxPerHour = some m → m.Fits sys.n) :
    vs.sum.label = d.el ++ "__" ++ d.label ++ "_" ++ (d.label ++ "_sum") ∧ vs.sum.length = 1 ∧
    (d.isTS = true → ∃ ts, vs.sumTS = some ts ∧ ts.length = sys.n ∧ ts.label = d.el ++ "__" ++ d.label ++ "_" ++ (d.label ++ "_sum_TS")) ∧
    (d.isTS = false → vs.sumTS = none) ∧
    ∀ σ : Assignment, (vs.sum.Ok σ ∧ ∀ ts, vs.sumTS = some ts → ts.Ok σ) ↔
      SamBounds sys d (σ vs.sum.label) (vs.sumTS.map fun x => σ x.label) := by
  unfold samVars at h
  peel h with s, hs
  peel h with ts, hts
  simp only [except_pure, Except.ok.injEq] at h
  subst h
  have hm := (mkVar_ok hs).1
  have hsok : ∀ σ : Assignment, s.Ok σ ↔ (∀ m, d.totalMin = some m → m ≤ σ s.label 0) ∧ ∀ m, d.totalMax = some m → σ s.label 0 ≤ m := by
    intro σ
    exact scalar_var_iff (x := s) (by rw [hm]) (by rw [hm]) (by rw [hm]) (by rw [hm]) (by rw [hm])
  refine ⟨by rw [hm], by rw [hm], ?_, ?_, ?_⟩
  · intro hT
    unfold samTS at hts
    rw [hT, if_pos rfl] at hts
    peel hts with lb, hlb
    peel hts with ub, hub
    rw [map_ok] at hts
    obtain ⟨x, hx, rfl⟩ := hts
    have hxm := (mkVar_ok hx).1
    exact ⟨x, rfl, by rw [hxm], by rw [hxm]⟩
  · intro hT
    unfold samTS at hts
    rw [hT] at hts; simp at hts; exact hts.symm
  · intro σ
    rw [hsok]
    cases hT : d.isTS with
    | false =>
      unfold samTS at hts
      rw [hT] at hts; simp at hts; subst hts
      constructor
      · rintro ⟨⟨h1, h2⟩, _⟩
        exact ⟨h1, h2, by simp, by simp⟩
      · intro h
        exact ⟨⟨h.totalMin, h.totalMax⟩, by simp⟩
    | true =>
      unfold samTS at hts
      rw [hT, if_pos rfl] at hts
      peel hts with lb, hlb
      peel hts with ub, hub
      rw [map_ok] at hts
      obtain ⟨x, hx, rfl⟩ := hts
      have hxm := (mkVar_ok hx).1
      obtain ⟨f1, e1⟩ := perHour_ok hv hlb hmin
      obtain ⟨f2, e2⟩ := perHour_ok hv hub hmax
      have hxl : x.length = sys.n := by rw [hxm]
      have hx' : x.lb = lb ∧ x.ub = ub := by rw [hxm]; exact ⟨rfl, rfl⟩
      have hxok : x.Ok σ ↔ (∀ t < sys.n, ∀ m, d.minPerHour = some m → m.at t * sys.width t ≤ σ x.label t) ∧
          (∀ t < sys.n, ∀ m, d.maxPerHour = some m → σ x.label t ≤ m.at t * sys.width t) := by
        rw [var_iff (by rw [hxm]) (by rw [hxl, hx'.1]; exact f1) (by rw [hxl, hx'.2]; exact f2)]
        have hb : x.isBinary = false := by rw [hxm]
        simp only [hb, Bool.false_eq_true, false_imp_iff, and_true, hxl, hx']
        rw [← forall₂_and]
        refine forall₂_congr fun t ht => ?_
        rw [e1 t ht (fun v => v ≤ σ x.label t), e2 t ht (fun v => σ x.label t ≤ v)]
      simp only [Option.some.injEq, forall_eq', hxok]
      constructor
      · rintro ⟨⟨h1, h2⟩, h3, h4⟩
        refine ⟨h1, h2, ?_, ?_⟩
        · intro y hy m hm t ht; simp at hy; subst hy; exact h3 t ht m hm
        · intro y hy m hm t ht; simp at hy; subst hy; exact h4 t ht m hm
      · intro h
        exact ⟨⟨h.totalMin, h.totalMax⟩, fun t ht m hm => h.stepMin _ rfl m hm t ht, fun t ht m hm => h.stepMax _ rfl m hm t ht⟩

/-- The variable of a share. -/
def shareV (el : String) (c : Share) : Var := { label := shareLabel el c.name, length := c.varLen }

/-- The model of a share. -/
def shareT (el : String) (c : Share) : MTree :=
  .node [shareV el c] [mkEq (shareLabel el c.name) (shareLabel el c.name) [sAll (shareV el c) (.s (-1)),
    match c.var with
    | none => Op.const (if c.asSum then .s (-1 * c.factor.total) else c.factor.map (-1 * ·))
    | some x => Op.summand x c.factor none c.asSum]] []

theorem singleShare_eq {el : String} {c : Share} {r : Var × MTree} (h : singleShare el c = .ok r) : r = (shareV el c, shareT el c) := by
  unfold singleShare at h
  peel h with s, hs
  simp only [except_pure, Except.ok.injEq] at h
  obtain ⟨hs1, _⟩ := shareVar_ok hs
  subst h hs1
  rfl

theorem value_const {c : Share} {isTS : Bool} {n : Nat} (hw : c.WellFormed isTS n) (h1 : c.varLen = 1) (σ : Assignment) {t : Nat}
    (ht : t < n ∨ c.asSum = true) : c.value σ t = c.value σ 0 := by
  unfold Share.value
  cases hv : c.var with
  | none =>
    simp only
    cases ha : c.asSum with
    | true => rfl
    | false =>
      simp only [Share.WellFormed, hv] at hw
      simp only [Bool.false_eq_true, if_false]
      exact at_one _ _ (scalar_len (hw ha))
  | some x =>
    simp only
    cases ha : c.asSum with
    | true => rfl
    | false =>
      simp only [Share.WellFormed, hv, ha] at hw
      have hx : x.length = 1 := by simpa [Share.varLen, hv, ha] using h1
      simp only [Bool.false_eq_true, if_false, hx, if_true]
      have ht' : t < n := by rcases ht with h | h
                             · exact h
                             · rw [ha] at h; simp at h
      rcases hw with ⟨h, _⟩ | ⟨_, _, hf, _⟩ | ⟨_, _, hn, _⟩
      · simp at h
      · rw [at_one _ _ hf]
      · have : t = 0 := by omega
        rw [this]

theorem toSum_eq (isTS : Bool) (c : Share) : toSum isTS c = Share.inTotal isTS c := by
  unfold toSum Share.inTotal
  cases isTS <;> cases c.asSum <;> rfl

theorem varLen_wf {c : Share} {isTS : Bool} {n : Nat} (hw : c.WellFormed isTS n) :
    (Share.inTotal isTS c = true → c.varLen = 1) ∧ (Share.inTotal isTS c = false → c.varLen = 1 ∨ c.varLen = n) := by
  unfold Share.varLen Share.inTotal
  cases hv : c.var with
  | none => simp
  | some x =>
    simp only [Share.WellFormed, hv] at hw
    rcases hw with ⟨h, _⟩ | ⟨h, hx, _⟩ | ⟨h, hT, hx, _⟩
    · simp [h]
    · simp [h, hx]
    · simp [h, hT, hx]

theorem lhs_shares {σ : Assignment} {el : String} {t n : Nat} {calls : List Share} {P : Share → Bool} {isTS : Bool}
    (hw : ∀ c ∈ calls, c.WellFormed isTS n) (hval : ∀ c ∈ calls, ∀ t < c.varLen, σ (shareLabel el c.name) t = c.value σ t)
    (hlen : ∀ c ∈ calls, P c = true → c.varLen = 1 ∧ (t < n ∨ c.asSum = true ∨ t = 0) ∨ t < c.varLen) :
    opsLhs σ t ((calls.filter P).map fun c => sAll (shareV el c) (.s 1)) = ((calls.filter P).map fun c => c.value σ t).sum := by
  induction calls with
  | nil => rfl
  | cons c calls ih =>
    have ih' := ih (fun d hd => hw d (List.mem_cons_of_mem _ hd)) (fun d hd => hval d (List.mem_cons_of_mem _ hd))
      (fun d hd => hlen d (List.mem_cons_of_mem _ hd))
    by_cases hp : P c = true
    · simp only [List.filter_cons, hp, if_true, List.map_cons, opsLhs_cons, ih', List.sum_cons]
      congr 1
      have hv := hval c List.mem_cons_self
      rcases hlen c List.mem_cons_self hp with ⟨h1, h2⟩ | h1
      · rw [lhs_sAll1 (x := shareV el c) h1]
        have hsl : (shareV el c).label = shareLabel el c.name := rfl
        rw [at_s, one_mul, hsl, hv 0 (by omega)]
        rcases h2 with h | h | rfl
        · exact (value_const (hw c List.mem_cons_self) h1 σ (Or.inl h)).symm
        · exact (value_const (hw c List.mem_cons_self) h1 σ (Or.inr h)).symm
        · rfl
      · rw [lhs_sAll (x := shareV el c) h1, at_s, one_mul]
        exact hv t h1
    · simp only [List.filter_cons, hp, if_false, ih', Bool.false_eq_true]

theorem rhs_shares {el : String} {t : Nat} {calls : List Share} {P : Share → Bool} :
    opsRhs t ((calls.filter P).map fun c => sAll (shareV el c) (.s 1)) = 0 := by
  generalize calls.filter P = l
  induction l with
  | nil => rfl
  | cons c l ih => simp [ih]

/-- A share allocation: its variables are within their bounds, every share variable has the value of its share, and the
equations collect the shares. -/
theorem samTree_iff {d : SamData} {vs : SamVars} {calls : List Share} {tree : MTree} {n : Nat} (hn : n ≠ 0)
    (h : samTree d vs calls = .ok tree) (hsum : vs.sum.length = 1)
    (hts : d.isTS = true → ∃ ts, vs.sumTS = some ts ∧ ts.length = n) (hts' : d.isTS = false → vs.sumTS = none)
    (hw : ∀ c ∈ calls, c.WellFormed d.isTS n) :
    (calls.map (·.name)).Nodup ∧ ∀ σ : Assignment, tree.Solves σ ↔
      (vs.sum.Ok σ ∧ ∀ ts, vs.sumTS = some ts → ts.Ok σ) ∧
      (∀ c ∈ calls, ∀ t < c.varLen, σ (shareLabel d.el c.name) t = c.value σ t) ∧
      Allocates σ d.isTS n (σ vs.sum.label) (vs.sumTS.map fun x => σ x.label) calls := by
  unfold samTree at h
  simp only [toSum_eq] at h
  peel h with shares, hsh
  have hshares : shares = calls.map fun c => (c, shareV d.el c, shareT d.el c) := by
    rw [mapM_ok] at hsh
    apply forall₂_eq_map
    refine forall₂_imp' hsh ?_
    intro c _ r hr
    peel hr with r', hr'
    simp only [except_pure, Except.ok.injEq] at hr
    rw [← hr, singleShare_eq hr']
  have hsing : ∀ c ∈ calls, ∃ r, singleShare d.el c = .ok r := by
    rw [mapM_ok] at hsh
    clear hshares h
    induction hsh with
    | nil => simp
    | cons hr _ ih =>
      intro c hc
      rcases List.mem_cons.1 hc with rfl | hc
      · peel hr with r', hr'
        exact ⟨r', hr'⟩
      · exact ih (fun c hc => hw c (List.mem_cons_of_mem _ hc)) c hc
  subst hshares
  split at h
  · simp at h
  rename_i hnd
  refine ⟨by simpa using hnd, fun σ => ?_⟩
  have hsub : MTree.SolvesAll σ (calls.map (shareT d.el)) ↔ ∀ c ∈ calls, ∀ t < c.varLen, σ (shareLabel d.el c.name) t = c.value σ t := by
    rw [solvesAll_iff, List.forall_mem_map]
    refine forall₂_congr fun c hc => ?_
    obtain ⟨r, hr⟩ := hsing c hc
    have := (singleShare_iff hr (hw c hc)).2 σ
    rw [singleShare_eq hr] at this
    exact this
  have f1 : ((calls.map fun c => (c, shareV d.el c, shareT d.el c)).filterMap fun q =>
      if Share.inTotal d.isTS q.1 = true then some (sAll q.2.1 (.s 1)) else none) =
      (calls.filter (Share.inTotal d.isTS)).map fun c => sAll (shareV d.el c) (.s 1) := by
    clear hsh hnd hsing hw h hsub
    induction calls with
    | nil => rfl
    | cons c calls ih =>
      by_cases hc : Share.inTotal d.isTS c = true
      · simp [List.filter_cons, hc, ih]
      · simp [List.filter_cons, hc, ih]
  have f2 : ((calls.map fun c => (c, shareV d.el c, shareT d.el c)).filterMap fun q =>
      if Share.inTotal d.isTS q.1 = true then none else some (sAll q.2.1 (.s 1))) =
      (calls.filter fun c => !Share.inTotal d.isTS c).map fun c => sAll (shareV d.el c) (.s 1) := by
    clear hsh hnd hsing hw h hsub f1
    induction calls with
    | nil => rfl
    | cons c calls ih =>
      by_cases hc : Share.inTotal d.isTS c = true
      · simp [List.filter_cons, hc, ih]
      · simp [List.filter_cons, hc, ih]
  have f3 : ((calls.map fun c => (c, shareV d.el c, shareT d.el c)).map (·.2.2)) = calls.map (shareT d.el) := by
    rw [List.map_map]; rfl
  have hg1 : ∀ op ∈ (calls.filter (Share.inTotal d.isTS)).map fun c => sAll (shareV d.el c) (.s 1), op.Good 1 := by
    intro op ho
    obtain ⟨c, hc, rfl⟩ := List.mem_map.1 ho
    rw [List.mem_filter] at hc
    exact good_sAll1 ((varLen_wf (hw c hc.1)).1 hc.2) (by simp)
  have hgn : ∀ op ∈ (calls.filter fun c => !Share.inTotal d.isTS c).map fun c => sAll (shareV d.el c) (.s 1), op.Good n := by
    intro op ho
    obtain ⟨c, hc, rfl⟩ := List.mem_map.1 ho
    rw [List.mem_filter] at hc
    rcases (varLen_wf (hw c hc.1)).2 (by simpa using hc.2) with h | h
    · exact good_sAll1 h (by simp)
    · exact good_sAll h (by simp)
  have lhs1 : (∀ c ∈ calls, ∀ t < c.varLen, σ (shareLabel d.el c.name) t = c.value σ t) →
      opsLhs σ 0 ((calls.filter (Share.inTotal d.isTS)).map fun c => sAll (shareV d.el c) (.s 1)) =
      ((calls.filter (Share.inTotal d.isTS)).map fun c => c.value σ 0).sum := fun hv =>
    lhs_shares hw hv (fun c hc hp => Or.inl ⟨(varLen_wf (hw c hc)).1 hp, Or.inr (Or.inr rfl)⟩)
  have lhsn : (∀ c ∈ calls, ∀ t < c.varLen, σ (shareLabel d.el c.name) t = c.value σ t) → ∀ t < n,
      opsLhs σ t ((calls.filter fun c => !Share.inTotal d.isTS c).map fun c => sAll (shareV d.el c) (.s 1)) =
      ((calls.filter fun c => !Share.inTotal d.isTS c).map fun c => c.value σ t).sum := by
    intro hv t ht
    refine lhs_shares hw hv (fun c hc hp => ?_)
    rcases (varLen_wf (hw c hc)).2 (by simpa using hp) with h | h
    · exact Or.inl ⟨h, Or.inl ht⟩
    · right; omega
  cases hT : d.isTS with
  | false =>
    rw [hts' hT] at h
    simp only [f1, f3] at h
    cases h
    rw [hT] at hg1 lhs1
    simp only [MTree.Solves, hsub, List.forall_mem_cons, List.not_mem_nil, false_imp_iff, implies_true, and_true, hT, hts' hT, reduceCtorEq,
      Option.map_none]
    refine and_congr_right fun _ => ?_
    rw [and_comm]
    refine and_congr_right fun hv => ?_
    rw [ok_eq1 (by
      intro op ho
      rcases List.mem_cons.1 ho with rfl | ho
      · exact good_sAll1 hsum (by simp)
      · exact hg1 op ho) (by simp)]
    simp only [opsLhs_cons, opsRhs_cons, lhs_sAll1 hsum, rhs_sAll, at_s, lhs1 hv, rhs_shares]
    constructor
    · intro h
      refine ⟨by simp, ?_⟩
      simp only; linarith
    · intro h
      have := h.total
      simp only at this; linarith
  | true =>
    obtain ⟨ts, hts1, hts2⟩ := hts hT
    rw [hts1] at h
    simp only [f1, f2, f3] at h
    cases h
    rw [hT] at hg1 hgn lhs1 lhsn
    simp only [MTree.Solves, hsub, List.forall_mem_cons, List.not_mem_nil, false_imp_iff, implies_true, and_true, hT, hts1, Option.map_some,
      Option.some.injEq, forall_eq']
    have e1 : ∀ {A B C D E F : Prop}, (C → ((D ∧ E) ↔ F)) → ((A ∧ B) ∧ (D ∧ E) ∧ C ↔ (A ∧ B) ∧ C ∧ F) := by
      intro A B C D E F h; tauto
    refine e1 fun hv => ?_
    rw [ok_eq1 (by
      intro op ho
      rcases List.mem_cons.1 ho with rfl | ho
      · exact good_sAll1 hsum (by simp)
      rcases List.mem_cons.1 ho with rfl | ho
      · exact good_sSum (by simp)
      · exact hg1 op ho) (by simp), ok_eq (n := n) (by
      intro op ho
      rcases List.mem_cons.1 ho with rfl | ho
      · exact good_sAll hts2 (by simp)
      · exact hgn op ho) ⟨sAll ts (.s (-1)), by simp, len_sAll' hts2 (by simp)⟩]
    have hsumts : (sSum ts (.s 1)).lhs σ 0 = ∑ t ∈ Finset.range n, σ ts.label t := by
      have := lhs_sum (σ := σ) (x := ts) (f := .s 1) (i := 0) (n := n) hts2 (by simp)
      rw [show (sSum ts (.s 1)).lhs σ 0 = _ from this]
      simp
    simp only [opsLhs_cons, opsRhs_cons, lhs_sAll1 hsum, rhs_sAll, rhs_sSum, at_s, lhs1 hv, rhs_shares, hsumts]
    constructor
    · rintro ⟨h1, h2⟩
      refine ⟨?_, ?_⟩
      · intro x hx t ht
        simp at hx; subst hx
        have := h2 t ht
        rw [lhs_sAll (x := ts) (by omega), lhsn hv t ht, at_s] at this
        linarith
      · simp only; linarith
    · intro h
      have h1 := h.total
      simp only at h1
      refine ⟨by linarith, fun t ht => ?_⟩
      rw [lhs_sAll (x := ts) (by omega), lhsn hv t ht, at_s]
      have := h.step _ rfl t ht
      linarith

end Flix
