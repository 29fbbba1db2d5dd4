import Verif.Lemmas.OnOffSem

/-! # The investment model row by row -/

namespace Flix

/-- A scalar variable with a fixed value and no bounds. -/
theorem fixed_var_iff {σ : Assignment} {x : Var} {v : ℚ} (hf : x.fixedValue = some (.s v)) (hlen : x.length = 1)
    (hl : x.lb = none) (hu : x.ub = none) : x.Ok σ ↔ σ x.label 0 = v := by
  have ht : x.translate = .ok [Dom.fixed v] := by
    unfold Var.translate
    rw [hf, hlen, hl, hu]
    rfl
  constructor
  · rintro ⟨ds, h1, h2⟩
    rw [ht] at h1; cases h1
    exact (h2 0 (.fixed v) rfl).1
  · intro h
    refine ⟨_, ht, ?_⟩
    intro i d hd
    cases i with
    | zero => simp at hd; subst hd; exact ⟨h, fun _ h' => absurd rfl (h' v)⟩
    | succ i => simp at hd

theorem pyTruthy_iff {a : Option ℚ} : pyTruthy a = true ↔ ∃ x, a = some x ∧ x ≠ 0 := by
  cases a <;> simp [pyTruthy]

/-- What the constraints of an investment say; `x` is the limited variable with `N` entries. -/
structure InvestRows (cfg : Cfg) (q : InvestParams) (N : Nat) (x size : Nat → ℚ) (inv on : Option (Nat → ℚ))
    (relMin relMax : Num) (profile : Option Num) : Prop where
  fixed : ∀ v, q.fixedSize = some v → v ≠ 0 → q.optional = false → size 0 = v
  lower : ¬ (pyTruthy q.fixedSize = true ∧ q.optional = false) → (if q.optional then 0 else q.minSize) ≤ size 0
  upper : ¬ (pyTruthy q.fixedSize = true ∧ q.optional = false) → size 0 ≤ q.maxSize cfg
  bin : ∀ i, inv = some i → i 0 = 0 ∨ i 0 = 1
  optFixed : ∀ i, inv = some i → ∀ v, q.fixedSize = some v → v ≠ 0 → size 0 = v * i 0
  optUpper : ∀ i, inv = some i → pyTruthy q.fixedSize = false → size 0 ≤ q.maxSize cfg * i 0
  optLower : ∀ i, inv = some i → pyTruthy q.fixedSize = false → max cfg.eps q.minSize * i 0 ≤ size 0
  prof : ∀ f, profile = some f → ∀ t < N, x t = f.at t * size 0
  le : profile = none → ∀ t < N, x t ≤ relMax.at t * size 0
  ge : profile = none → on = none → ∀ t < N, relMin.at t * size 0 ≤ x t
  geOn : profile = none → ∀ b, on = some b → ∀ t < N,
    relMin.at t * size 0 + relMax.at t * q.maxSize cfg * b t ≤ x t + relMax.at t * q.maxSize cfg

theorem sizeVar_iff {cfg : Cfg} {p : String} {q : InvestParams} {size : Var} (h : sizeVar cfg p q = .ok size) :
    size.label = p ++ "_" ++ "size" ∧ size.length = 1 ∧ ∀ σ : Assignment, size.Ok σ ↔
      (∀ v, q.fixedSize = some v → v ≠ 0 → q.optional = false → σ size.label 0 = v) ∧
      (¬ (pyTruthy q.fixedSize = true ∧ q.optional = false) → (if q.optional then 0 else q.minSize) ≤ σ size.label 0) ∧
      (¬ (pyTruthy q.fixedSize = true ∧ q.optional = false) → σ size.label 0 ≤ q.maxSize cfg) := by
  unfold sizeVar at h
  split at h
  · rename_i hc
    simp only [Bool.and_eq_true, Bool.not_eq_true'] at hc
    obtain ⟨v, hv, hv0⟩ := pyTruthy_iff.1 hc.1
    have hm := (mkVar_ok h).1
    refine ⟨by rw [hm], by rw [hm], fun σ => ?_⟩
    rw [fixed_var_iff (v := v) (by rw [hm, hv]; rfl) (by rw [hm]) (by rw [hm]) (by rw [hm])]
    simp [hv, hc, hv0, pyTruthy]
  · rename_i hc
    simp only [Bool.and_eq_true, Bool.not_eq_true'] at hc
    have hm := (mkVar_ok h).1
    refine ⟨by rw [hm], by rw [hm], fun σ => ?_⟩
    rw [scalar_var_iff (x := size) (a := some (if q.optional then 0 else q.minSize)) (b := some (q.maxSize cfg)) (by rw [hm])
      (by rw [hm]) (by rw [hm]; rfl) (by rw [hm]; rfl) (by rw [hm])]
    constructor
    · rintro ⟨h1, h2⟩
      refine ⟨fun v hv hv0 ho => absurd ⟨pyTruthy_iff.2 ⟨v, hv, hv0⟩, ho⟩ hc, fun _ => h1 _ rfl, fun _ => h2 _ rfl⟩
    · rintro ⟨_, h1, h2⟩
      refine ⟨?_, ?_⟩
      · intro m hm; cases hm; exact h1 hc
      · intro m hm; cases hm; exact h2 hc

theorem optionalCons_iff {cfg : Cfg} {p : String} {q : InvestParams} {size inv : Var} (hs : size.length = 1)
    (hi : inv.length = 1) (σ : Assignment) :
    (∀ c ∈ optionalCons cfg p q size inv, c.Ok σ) ↔
      (∀ v, q.fixedSize = some v → v ≠ 0 → σ size.label 0 = v * σ inv.label 0) ∧
      (pyTruthy q.fixedSize = false → σ size.label 0 ≤ q.maxSize cfg * σ inv.label 0) ∧
      (pyTruthy q.fixedSize = false → max cfg.eps q.minSize * σ inv.label 0 ≤ σ size.label 0) := by
  have hg : ∀ a b : ℚ, ∀ op ∈ [sAll size (.s a), sAll inv (.s b)], op.Good 1 := by
    intro a b op ho
    simp only [List.mem_cons, List.not_mem_nil, or_false] at ho
    rcases ho with rfl | rfl
    · exact good_sAll1 hs (by simp)
    · exact good_sAll1 hi (by simp)
  unfold optionalCons
  split
  · rename_i ht
    obtain ⟨v, hv, hv0⟩ := pyTruthy_iff.1 ht
    simp only [List.forall_mem_cons, List.not_mem_nil, false_imp_iff, implies_true, and_true, ht, reduceCtorEq, hv,
      Option.getD_some, Option.some.injEq, forall_eq', hv0, ne_eq, not_false_eq_true, forall_true_left]
    rw [ok_eq1 (hg _ _) (by simp)]
    simp only [opsLhs_cons, opsRhs_cons, lhs_sAll1 hs, lhs_sAll1 hi, rhs_sAll, opsLhs_nil, opsRhs_nil, at_s]
    have hvt : pyTruthy (some v) = true := by rw [← hv]; exact ht
    simp only [hvt, Bool.true_eq_false, false_imp_iff, and_true]
    constructor <;> intro h <;> linarith
  · rename_i ht
    have ht : pyTruthy q.fixedSize = false := by simpa using ht
    simp only [List.forall_mem_cons, List.not_mem_nil, false_imp_iff, implies_true, and_true, ht, forall_true_left]
    rw [ok_ineq1 (hg _ _) (by simp), ok_ineq1 (hg _ _) (by simp)]
    simp only [opsLhs_cons, opsRhs_cons, lhs_sAll1 hs, lhs_sAll1 hi, rhs_sAll, opsLhs_nil, opsRhs_nil, at_s]
    constructor
    · rintro ⟨h1, h2⟩
      refine ⟨fun v hv hv0 => ?_, by linarith, by linarith⟩
      rw [pyTruthy_iff.2 ⟨v, hv, hv0⟩] at ht; simp at ht
    · rintro ⟨_, h1, h2⟩
      exact ⟨by linarith, by linarith⟩

theorem definingCons_iff {cfg : Cfg} {p : String} {q : InvestParams} {size x : Var} {relMin relMax : Num}
    {profile : Option Num} {on : Option Var} {N : Nat} (hx : x.length = N) (hs : size.length = 1)
    (hmin : relMin.Fits N) (hmax : relMax.Fits N) (hprof : ∀ f, profile = some f → f.Fits N)
    (hon : ∀ b, on = some b → b.length = N) (σ : Assignment) :
    (∀ c ∈ definingCons cfg p q size x relMin relMax profile on, c.Ok σ) ↔
      (∀ f, profile = some f → ∀ t < N, σ x.label t = f.at t * σ size.label 0) ∧
      (profile = none → ∀ t < N, σ x.label t ≤ relMax.at t * σ size.label 0) ∧
      (profile = none → on = none → ∀ t < N, relMin.at t * σ size.label 0 ≤ σ x.label t) ∧
      (profile = none → ∀ b, on = some b → ∀ t < N,
        relMin.at t * σ size.label 0 + relMax.at t * q.maxSize cfg * σ b.label t ≤
          σ x.label t + relMax.at t * q.maxSize cfg) := by
  have hg2 : ∀ (a : ℚ) (f : Num), f.Fits N → ∀ op ∈ [sAll x (.s a), sAll size f], op.Good N := by
    intro a f hf op ho
    simp only [List.mem_cons, List.not_mem_nil, or_false] at ho
    rcases ho with rfl | rfl
    · exact good_sAll hx (by simp)
    · exact good_sAll1 hs hf
  have hex : ∀ (a : ℚ) (l : List Op), ∃ op ∈ sAll x (.s a) :: l, op.len = N :=
    fun a l => ⟨_, List.mem_cons_self, len_sAll' hx (by simp)⟩
  have hup : (mkIneq p ("ub_" ++ x.label) [sAll x (.s 1), sAll size (relMax.map (-1 * ·))]).Ok σ ↔
      ∀ t < N, σ x.label t ≤ relMax.at t * σ size.label 0 := by
    rw [ok_ineq (hg2 _ _ (by simpa using hmax)) (hex _ _)]
    refine forall₂_congr fun t ht => ?_
    simp only [opsLhs_cons, opsRhs_cons, lhs_sAll (x := x) (hx ▸ ht), lhs_sAll1 hs, rhs_sAll, opsLhs_nil, opsRhs_nil, at_s, at_neg]
    constructor <;> intro h <;> linarith
  unfold definingCons
  cases profile with
  | some f =>
    simp only [List.forall_mem_cons, List.not_mem_nil, false_imp_iff, implies_true, and_true, Option.some.injEq, forall_eq',
      reduceCtorEq]
    rw [ok_eq (hg2 _ _ (by simpa using hprof f rfl)) (hex _ _)]
    refine forall₂_congr fun t ht => ?_
    simp only [opsLhs_cons, opsRhs_cons, lhs_sAll (x := x) (hx ▸ ht), lhs_sAll1 hs, rhs_sAll, opsLhs_nil, opsRhs_nil, at_s, at_neg]
    constructor <;> intro h <;> linarith
  | none =>
    cases on with
    | none =>
      simp only [List.forall_mem_cons, List.not_mem_nil, false_imp_iff, implies_true, and_true, reduceCtorEq, true_and,
        forall_true_left]
      rw [hup, ok_ineq (hg2 _ _ hmin) (hex _ _)]
      refine and_congr_right fun _ => forall₂_congr fun t ht => ?_
      simp only [opsLhs_cons, opsRhs_cons, lhs_sAll (x := x) (hx ▸ ht), lhs_sAll1 hs, rhs_sAll, opsLhs_nil, opsRhs_nil, at_s]
      constructor <;> intro h <;> linarith
    | some b =>
      have hbl := hon b rfl
      simp only [List.forall_mem_cons, List.not_mem_nil, false_imp_iff, implies_true, and_true, reduceCtorEq, true_and,
        forall_true_left, Option.some.injEq, forall_eq']
      rw [hup, ok_ineq (n := N)]
      · refine and_congr_right fun _ => forall₂_congr fun t ht => ?_
        simp only [opsLhs_cons, opsRhs_cons, lhs_sAll (x := x) (hx ▸ ht), lhs_sAll (x := b) (hbl ▸ ht), lhs_sAll1 hs, rhs_sAll,
          opsLhs_nil, opsRhs_nil, at_s, at_mulr, lhs_const, rhs_const]
        constructor <;> intro h <;> linarith
      · intro op ho
        simp only [List.mem_cons, List.not_mem_nil, or_false] at ho
        rcases ho with rfl | rfl | rfl | rfl
        · exact good_sAll hx (by simp)
        · exact good_sAll hbl (by simpa using hmax)
        · exact good_sAll1 hs hmin
        · exact good_const (by simpa using hmax)
      · exact hex _ _

theorem invest_inv {cfg : Cfg} {el : String} {q : InvestParams} {x : Var} {relMin relMax : Num} {profile : Option Num}
    {on : Option Var} {o : InvestOut} (h : investModel cfg el q x relMin relMax profile on = .ok o) :
    ∃ s1 s2 s3 s4, sizeVar cfg (el ++ "__" ++ "Investment") q = .ok o.size ∧
      investedVar (el ++ "__" ++ "Investment") q = .ok o.isInvested ∧ o.vars = o.size :: o.isInvested.toList ∧
      o.cons = (match o.isInvested with
        | some inv => optionalCons cfg (el ++ "__" ++ "Investment") q o.size inv
        | none => []) ++ definingCons cfg (el ++ "__" ++ "Investment") q o.size x relMin relMax profile on ∧
      sharesTo .invest el "fix_effects" q.fixEffects (.s 1) o.isInvested = .ok s1 ∧
      divestShares el q o.isInvested = .ok s2 ∧
      sharesTo .invest el "specific_effects" q.specificEffects (.s 1) (some o.size) = .ok s3 ∧
      investSegments el q o.size o.isInvested = .ok (o.subs, s4) ∧ o.shares = s1 ++ s2 ++ s3 ++ s4 := by
  unfold investModel at h
  peel h with size, h1
  peel h with inv, h2
  peel h with s1, h3
  peel h with s2, h4
  peel h with s3, h5
  peel h with ⟨subs, s4⟩, h6
  simp only [except_pure, Except.ok.injEq] at h
  subst h
  exact ⟨s1, s2, s3, s4, h1, h2, rfl, rfl, h3, h4, h5, h6, rfl⟩

theorem invest_iff {cfg : Cfg} {el : String} {q : InvestParams} {x : Var} {relMin relMax : Num} {profile : Option Num}
    {on : Option Var} {o : InvestOut} {N : Nat} (hx : x.length = N)
    (hmin : relMin.Fits N) (hmax : relMax.Fits N) (hprof : ∀ f, profile = some f → f.Fits N)
    (hon : ∀ b, on = some b → b.length = N)
    (h : investModel cfg el q x relMin relMax profile on = .ok o) :
    o.size.label = el ++ "__" ++ "Investment" ++ "_" ++ "size" ∧ o.size.length = 1 ∧
    (q.optional = true → ∃ i, o.isInvested = some i ∧ i.label = el ++ "__" ++ "Investment" ++ "_" ++ "isInvested" ∧
      i.length = 1) ∧
    (q.optional = false → o.isInvested = none) ∧
    ∀ σ : Assignment, o.tree.Solves σ ↔
      InvestRows cfg q N (σ x.label) (σ o.size.label) (o.isInvested.map fun i => σ i.label) (on.map fun b => σ b.label)
        relMin relMax profile ∧ MTree.SolvesAll σ o.subs := by
  obtain ⟨s1, s2, s3, s4, h1, h2, h3, h4, _⟩ := invest_inv h
  obtain ⟨hsl, hsz, hsv⟩ := sizeVar_iff h1
  have hdef := fun σ => definingCons_iff (cfg := cfg) (p := el ++ "__" ++ "Investment") (q := q) hx hsz hmin hmax hprof hon σ
  unfold investedVar at h2
  have hsolve : ∀ σ, o.tree.Solves σ ↔ (∀ x ∈ o.vars, x.Ok σ) ∧ (∀ r ∈ o.cons, r.Ok σ) ∧ MTree.SolvesAll σ o.subs := by
    intro σ; simp [InvestOut.tree, MTree.Solves]
  cases ho : q.optional with
  | true =>
    rw [ho, if_pos rfl] at h2
    obtain ⟨i, hi, hi'⟩ := map_ok.1 h2
    have hm := (mkVar_ok hi).1
    have hil : i.length = 1 := by rw [hm]
    rw [← hi'] at h3 h4
    refine ⟨hsl, hsz, fun _ => ⟨i, hi'.symm, by rw [hm], hil⟩, fun h => by simp at h, fun σ => ?_⟩
    rw [hsolve, h3, h4, ← hi']
    simp only [Option.toList_some, List.mem_append, or_imp, forall_and, List.forall_mem_cons, List.not_mem_nil, false_imp_iff,
      implies_true, and_true, Option.map_some]
    have hbin := bin_var_iff (σ := σ) (x := i) (by rw [hm]) (by rw [hm]) (by rw [hm]) (by rw [hm])
    rw [hsv, hdef, optionalCons_iff hsz hil, hbin, hil]
    constructor
    · rintro ⟨⟨⟨a1, a2, a3⟩, a4⟩, ⟨⟨b1, b2, b3⟩, c1, c2, c3, c4⟩, d⟩
      refine ⟨⟨a1, a2, a3, ?_, ?_, ?_, ?_, c1, c2, ?_, ?_⟩, d⟩
      · rintro _ ⟨⟩; exact a4 0 (by omega)
      · rintro _ ⟨⟩; exact b1
      · rintro _ ⟨⟩; exact b2
      · rintro _ ⟨⟩; exact b3
      · intro hp hn; exact c3 hp (by simpa using hn)
      · intro hp b hb
        cases on with
        | none => simp at hb
        | some b' => simp at hb; subst hb; exact c4 hp b' rfl
    · rintro ⟨⟨a1, a2, a3, a4, a5, a6, a7, a8, a9, a10, a11⟩, d⟩
      refine ⟨⟨⟨a1, a2, a3⟩, ?_⟩, ⟨⟨a5 _ rfl, a6 _ rfl, a7 _ rfl⟩, a8, a9, ?_, ?_⟩, d⟩
      · intro k hk; have : k = 0 := by omega
        subst this; exact a4 _ rfl
      · intro hp hn; exact a10 hp (by simpa using hn)
      · intro hp b hb; exact a11 hp _ (by rw [hb]; rfl)
  | false =>
    rw [ho] at h2
    simp only [Bool.false_eq_true, if_false, Except.ok.injEq] at h2
    rw [← h2] at h3 h4
    refine ⟨hsl, hsz, fun h => by simp at h, fun _ => h2.symm, fun σ => ?_⟩
    rw [hsolve, h3, h4, ← h2]
    simp only [Option.toList_none, List.nil_append, List.forall_mem_cons, List.not_mem_nil, false_imp_iff,
      implies_true, and_true, Option.map_none]
    rw [hsv, hdef]
    constructor
    · rintro ⟨⟨a1, a2, a3⟩, ⟨c1, c2, c3, c4⟩, d⟩
      refine ⟨⟨a1, a2, a3, by simp, by simp, by simp, by simp, c1, c2, ?_, ?_⟩, d⟩
      · intro hp hn; exact c3 hp (by simpa using hn)
      · intro hp b hb
        cases on with
        | none => simp at hb
        | some b' => simp at hb; subst hb; exact c4 hp b' rfl
    · rintro ⟨⟨a1, a2, a3, a4, a5, a6, a7, a8, a9, a10, a11⟩, d⟩
      refine ⟨⟨a1, a2, a3⟩, ⟨a8, a9, ?_, ?_⟩, d⟩
      · intro hp hn; exact a10 hp (by simpa using hn)
      · intro hp b hb; exact a11 hp _ (by rw [hb]; rfl)

end Flix
