import Verif.Props.OnOff
import Verif.Lemmas.InvestComplete
import Verif.Spec.Invest

/-! # C16–C19, C37–C39: investments, load factors, profiles, zero sizes -/

namespace Flix

variable {cfg : Cfg} {el : String} {q : InvestParams} {x : Var} {relMin relMax : Num} {profile : Option Num} {on : Option Var}
  {o : InvestOut} {N : Nat}

/-! ## C16: sizes -/

theorem maxSize_eq (h : q.NoZero) : q.maxSize cfg = q.fixedSize.getD (q.maximumSize.getD cfg.big) := by
  unfold InvestParams.maxSize
  obtain ⟨h1, h2⟩ := h
  cases hf : q.fixedSize with
  | some v =>
    have : v ≠ 0 := fun h => h1 (by rw [hf, h])
    simp [pyOr, this]
  | none =>
    cases hm : q.maximumSize with
    | some v =>
      have : v ≠ 0 := fun h => h2 (by rw [hm, h])
      simp [pyOr, this]
    | none => simp [pyOr]

theorem truthy_eq (h : q.NoZero) : pyTruthy q.fixedSize = q.fixedSize.isSome := by
  obtain ⟨h1, _⟩ := h
  cases hf : q.fixedSize with
  | some v =>
    have : v ≠ 0 := fun h => h1 (by rw [hf, h])
    simp [pyTruthy, this]
  | none => rfl

/-- C16 for investments that must be made, unless a size argument is zero: the size is exactly within its limits. -/
theorem C16_mandatory_partial (hx : x.length = N) (hmin : relMin.Fits N) (hmax : relMax.Fits N)
    (hprof : ∀ f, profile = some f → f.Fits N) (hon : ∀ b, on = some b → b.length = N)
    (h : investModel cfg el q x relMin relMax profile on = .ok o) (hopt : q.optional = false) (hz : q.NoZero)
    {σ : Assignment} (hs : o.tree.Solves σ) :
    o.isInvested = none ∧ SizeIn q cfg.big q.minimumSize (σ o.size.label 0) := by
  obtain ⟨_, _, _, hno, hiff⟩ := invest_iff hx hmin hmax hprof hon h
  obtain ⟨hr, _⟩ := (hiff σ).1 hs
  refine ⟨hno hopt, ?_⟩
  have hm := maxSize_eq (cfg := cfg) hz
  have ht := truthy_eq hz
  unfold SizeIn
  cases hf : q.fixedSize with
  | some v => exact hr.fixed v hf (fun h0 => hz.1 (by rw [hf, h0])) hopt
  | none =>
    have hc : ¬ (pyTruthy q.fixedSize = true ∧ q.optional = false) := by rw [ht, hf]; simp
    have h1 := hr.lower hc
    have h2 := hr.upper hc
    rw [hm, hf] at h2
    simp [hopt, InvestParams.minSize, hf, pyOr] at h1
    exact ⟨h1, h2⟩

/-- C16 for optional investments, unless a size argument is zero: no size and no decision, or the decision is made and the
size is within its limits and not zero. -/
theorem C16_optional_partial (heps : 0 < cfg.eps) (hx : x.length = N) (hmin : relMin.Fits N) (hmax : relMax.Fits N)
    (hprof : ∀ f, profile = some f → f.Fits N) (hon : ∀ b, on = some b → b.length = N)
    (h : investModel cfg el q x relMin relMax profile on = .ok o) (hopt : q.optional = true) (hz : q.NoZero)
    {σ : Assignment} (hs : o.tree.Solves σ) :
    ∃ i, o.isInvested = some i ∧
      ((σ i.label 0 = 0 ∧ σ o.size.label 0 = 0) ∨
       (σ i.label 0 = 1 ∧ σ o.size.label 0 ≠ 0 ∧ SizeIn q cfg.big (max cfg.eps q.minimumSize) (σ o.size.label 0))) := by
  obtain ⟨_, _, hyes, _, hiff⟩ := invest_iff hx hmin hmax hprof hon h
  obtain ⟨hr, _⟩ := (hiff σ).1 hs
  obtain ⟨i, hi, _, _⟩ := hyes hopt
  refine ⟨i, hi, ?_⟩
  have hm := maxSize_eq (cfg := cfg) hz
  have ht := truthy_eq hz
  have hi' : (o.isInvested.map fun i => σ i.label) = some (σ i.label) := by rw [hi]; rfl
  have hb := hr.bin _ hi'
  cases hf : q.fixedSize with
  | some v =>
    have hv0 : v ≠ 0 := fun h0 => hz.1 (by rw [hf, h0])
    have h1 := hr.optFixed _ hi' v hf hv0
    rcases hb with hb | hb
    · left; exact ⟨hb, by rw [h1, hb, mul_zero]⟩
    · right; refine ⟨hb, by rw [h1, hb, mul_one]; exact hv0, ?_⟩
      simp [SizeIn, hf, h1, hb]
  | none =>
    have hc : pyTruthy q.fixedSize = false := by rw [ht, hf]; rfl
    have h1 := hr.optUpper _ hi' hc
    have h2 := hr.optLower _ hi' hc
    have h3 := hr.lower (by rw [hc]; simp)
    rw [hopt, if_pos rfl] at h3
    have hmm : q.minSize = q.minimumSize := by simp [InvestParams.minSize, hf, pyOr]
    rw [hm, hf] at h1
    rw [hmm] at h2
    rcases hb with hb | hb
    · left; rw [hb, mul_zero] at h1; exact ⟨hb, le_antisymm h1 h3⟩
    · right
      rw [hb, mul_one] at h1 h2
      refine ⟨hb, fun h0 => ?_, ?_⟩
      · rw [h0] at h2
        have := le_trans (le_max_left _ _) h2
        linarith
      · simp only [SizeIn, hf]; exact ⟨h2, h1⟩

/-- C16, converse: every size allowed by the user (or none, if optional) that fits to the limited variable is part of a
solution of the investment model. -/
theorem C16_converse (hx : x.length = N) (hmin : relMin.Fits N) (hmax : relMax.Fits N)
    (hprof : ∀ f, profile = some f → f.Fits N)
    (h : investModel cfg el q x relMin relMax profile none = .ok o) (hz : q.NoZero)
    (hdict : q.segEffects.Nodup) (hxl : x.label ∉ investLabels el q) {σ : Assignment} {s d : ℚ} {val : String → ℚ}
    (hsize : (d = 0 ∧ q.optional = true ∧ s = 0 ∧ 0 ≤ q.fixedSize.getD (q.maximumSize.getD cfg.big)) ∨
      (d = 1 ∧ (q.optional = false ∧ SizeIn q cfg.big q.minimumSize s ∨
        q.optional = true ∧ 0 ≤ s ∧ SizeIn q cfg.big (max cfg.eps q.minimumSize) s)))
    (hseg : SegmentsAllow q s d val)
    (hrate : ∀ t < N, RateFits relMin relMax profile s t (σ x.label t)) :
    ∃ τ : Assignment, (∀ l ∉ investLabels el q, τ l = σ l) ∧ τ o.size.label 0 = s ∧
      (∀ i, o.isInvested = some i → τ i.label 0 = d) ∧ o.tree.Solves τ := by
  have hm := maxSize_eq (cfg := cfg) hz
  have ht := truthy_eq hz
  obtain ⟨_, _, hyes, hno, _⟩ := invest_iff hx hmin hmax hprof (by simp) h
  have hmm : q.fixedSize = none → q.minSize = q.minimumSize := by intro hf; simp [InvestParams.minSize, hf, pyOr]
  have hfix : ∀ v, q.fixedSize = some v → s = v * d := by
    intro v hv
    rcases hsize with ⟨rfl, _, rfl, _⟩ | ⟨rfl, ⟨_, hs⟩ | ⟨_, _, hs⟩⟩
    · simp
    · simp [SizeIn, hv] at hs; simp [hs]
    · simp [SizeIn, hv] at hs; simp [hs]
  obtain ⟨τ, h1, h2, h3, _, h5⟩ := invest_complete hx hmin hmax hprof (by simp) h hdict hxl (by simp) (s := s) (d := d)
    (val := val) (σ := σ) (by
      intro ho
      rcases hsize with ⟨_, h, _⟩ | ⟨h, _⟩
      · rw [ho] at h; simp at h
      · exact h) hseg (by
    refine ⟨?_, ?_, ?_, ?_, ?_, ?_, ?_, ?_, ?_, ?_, ?_⟩
    · intro v hv _ ho
      rcases hsize with ⟨_, h, _⟩ | ⟨rfl, _⟩
      · rw [ho] at h; simp at h
      · have := hfix v hv; simpa using this
    · intro hc
      rcases hsize with ⟨_, ho, rfl, _⟩ | ⟨rfl, ⟨ho, hs⟩ | ⟨ho, h0, hs⟩⟩
      · simp [ho]
      · have hf : q.fixedSize = none := by
          rw [ht, ho] at hc; simpa using hc
        simp only [SizeIn, hf] at hs
        simp [ho, hmm hf, hs.1]
      · simpa [ho] using h0
    · intro hc
      rw [hm]
      rcases hsize with ⟨_, ho, rfl, hb⟩ | ⟨rfl, ⟨ho, hs⟩ | ⟨ho, h0, hs⟩⟩
      · exact hb
      · have hf : q.fixedSize = none := by
          rw [ht, ho] at hc; simpa using hc
        simp only [SizeIn, hf] at hs
        simpa [hf] using hs.2
      · cases hf : q.fixedSize with
        | none => simp only [SizeIn, hf] at hs; simpa using hs.2
        | some v => have := hfix v hf; simp at this; simp [this]
    · intro i hi
      cases hoi : o.isInvested with
      | none => rw [hoi] at hi; simp at hi
      | some j =>
        rw [hoi] at hi; simp at hi; subst hi
        rcases hsize with ⟨rfl, _⟩ | ⟨rfl, _⟩ <;> simp
    · intro i hi v hv _
      cases hoi : o.isInvested with
      | none => rw [hoi] at hi; simp at hi
      | some j => rw [hoi] at hi; simp at hi; subst hi; exact hfix v hv
    · intro i hi hc
      have hf : q.fixedSize = none := by rw [ht] at hc; simpa using hc
      cases hoi : o.isInvested with
      | none => rw [hoi] at hi; simp at hi
      | some j =>
        rw [hoi] at hi; simp at hi; subst hi
        rw [hm, hf]
        rcases hsize with ⟨rfl, _, rfl, _⟩ | ⟨rfl, ⟨ho, hs⟩ | ⟨ho, h0, hs⟩⟩
        · simp
        · rw [hno ho] at hoi; simp at hoi
        · simp only [SizeIn, hf] at hs; simpa using hs.2
    · intro i hi hc
      have hf : q.fixedSize = none := by rw [ht] at hc; simpa using hc
      cases hoi : o.isInvested with
      | none => rw [hoi] at hi; simp at hi
      | some j =>
        rw [hoi] at hi; simp at hi; subst hi
        rw [hmm hf]
        rcases hsize with ⟨rfl, _, rfl, _⟩ | ⟨rfl, ⟨ho, hs⟩ | ⟨ho, h0, hs⟩⟩
        · simp
        · rw [hno ho] at hoi; simp at hoi
        · simp only [SizeIn, hf] at hs; simpa using hs.1
    · intro f hf t ht'
      have := hrate t ht'; unfold RateFits at this; rw [hf] at this; exact this
    · intro hp t ht'
      have := hrate t ht'; unfold RateFits at this; rw [hp] at this; exact this.2
    · intro hp _ t ht'
      have := hrate t ht'; unfold RateFits at this; rw [hp] at this; exact this.1
    · intro _ b hb; simp at hb)
  exact ⟨τ, h1, h2, h3, h5⟩

/-- C16 is false for `fixed_size=0`: zero counts as not given, so the investment that must have size 0 may have size 5. -/
theorem C16_wrong : ∃ o σ, investModel exCfg "c__f" { fixedSize := some 0, optional := false } exOn (.s 0) (.s 1) none none = .ok o ∧
    o.tree.Solves σ ∧ σ o.size.label 0 = 5 := by
  obtain ⟨o, ho⟩ : ∃ o, investModel exCfg "c__f" { fixedSize := some 0, optional := false } exOn (.s 0) (.s 1) none none = .ok o :=
    ⟨_, rfl⟩
  obtain ⟨hl, _, _, hn, hiff⟩ := invest_iff (N := 3) rfl (by simp) (by simp) (by simp) (by simp) ho
  obtain ⟨_, _, _, _, _, _, _, _, _, _, _, hseg, _⟩ := invest_inv ho
  refine ⟨o, (fun l _ => if l = "c__f__Investment_size" then 5 else 0), ho, (hiff _).2 ⟨?_, ?_⟩, by rw [hl]; rfl⟩
  swap
  · simp [investSegments] at hseg; rw [hseg.1]; trivial
  rw [hl, hn rfl]
  refine ⟨?_, ?_, ?_, ?_, ?_, ?_, ?_, ?_, ?_, ?_, ?_⟩
  · intro v hv h0; cases hv; exact absurd rfl h0
  · intro _; simp [InvestParams.minSize, pyOr]
  · intro _; simp [InvestParams.maxSize, pyOr, exCfg]; norm_num
  · intro i hi; simp at hi
  · intro i hi; simp at hi
  · intro i hi; simp at hi
  · intro i hi; simp at hi
  · intro f hf; simp at hf
  · intro _ t _; simp [exOn]
  · intro _ _ t _; simp [exOn]
  · intro _ b hb; simp at hb

def exInv : InvestParams :=
  { minimumSize := 2, maximumSize := some 10, fixEffects := [(none, .s 50), (some "co2", .s 3)], divestEffects := [(none, .s 7)],
    specificEffects := [(some "costs", .s 4)],
    effectsInSegments := some ([(2, 5), (5, 10)], [("costs", [(1, 4), (6, 8)]), ("co2", [(0, 1), (1, 5)])]) }

/-- The example investment has a solution in which size 6 is installed, with flow rates 3, and one without investment. -/
example : (∃ o τ, investModel exCfg "c__f" exInv exOn (.s (1 / 5)) (.s 1) none none = .ok o ∧ o.tree.Solves τ ∧
      τ o.size.label 0 = 6) ∧ exInv.NoZero := by
  refine ⟨?_, by simp [InvestParams.NoZero, exInv]⟩
  obtain ⟨τ, _, h2, _, h4⟩ := C16_converse (N := 3) (cfg := exCfg) (el := "c__f") (q := exInv) (x := exOn) (relMin := .s (1 / 5))
    (relMax := .s 1) (profile := none) (o := _) rfl (by simp) (by simp) (by simp) rfl (by simp [InvestParams.NoZero, exInv])
    (by decide) (by decide) (σ := fun _ _ => 3) (s := 6) (d := 1)
    (val := fun e => if e = "costs" then 32 / 5 else 9 / 5)
    (Or.inr ⟨rfl, Or.inr ⟨rfl, by norm_num, by simp [SizeIn, exInv, exCfg]; norm_num⟩⟩)
    (by
      rintro xs es ⟨⟩
      refine Or.inr ⟨rfl, 1, by decide, 1 / 5, by norm_num, by norm_num, ⟨_, rfl, by norm_num⟩, ?_⟩
      intro e he
      simp only [List.mem_cons, List.not_mem_nil, or_false] at he
      rcases he with rfl | rfl
      · exact ⟨_, rfl, by norm_num⟩
      · exact ⟨_, rfl, by simp only [show ("co2" : String) ≠ "costs" by decide, if_false]; norm_num⟩)
    (by intro t _; simp [RateFits]; norm_num)
  exact ⟨_, τ, rfl, h4, h2⟩

/-! ## C17: declining an optional investment -/

end Flix
