import Verif.Lemmas.Runs
import Verif.Model.Elements
import Mathlib.Tactic.Tauto

/-! # The on/off model row by row -/

namespace Flix

theorem zip_fits {n : Nat} {f : ℚ → ℚ → ℚ} {a b : Num} (ha : a.Fits n) (hb : b.Fits n) :
    ∃ c, Num.zip f a b = .ok c ∧ c.Fits n ∧ ∀ i < n, c.at i = f (a.at i) (b.at i) := by
  have hal := ha.len
  have hbl := hb.len
  obtain ⟨c, hc⟩ := zip_good (f := f) (a := a) (b := b) (by omega)
  have hl := (zip_len hc).1
  have hc1 : c.len = 1 ∨ c.len = n := by rw [hl]; split <;> assumption
  refine ⟨c, hc, ?_, fun i hi => zip_at hc (by omega)⟩
  rcases ha with ha | ha
  · rcases hb with hb | hb
    · exact Or.inl (zip_scalar hc ha hb)
    · right; rw [hl, scalar_len ha]; simpa using hb
  · right
    rw [hl]
    split
    · rename_i h1
      rw [h1] at ha
      omega
    · exact ha

theorem zip_fits_ok {n : Nat} {f : ℚ → ℚ → ℚ} {a b c : Num} (ha : a.Fits n) (hb : b.Fits n) (h : Num.zip f a b = .ok c) :
    c.Fits n ∧ ∀ i < n, c.at i = f (a.at i) (b.at i) := by
  obtain ⟨c', h1, h2⟩ := zip_fits (f := f) ha hb
  rw [h] at h1; cases h1; exact h2

theorem foldAdd {n : Nat} : ∀ (ds : List (Var × Num × Num)) (a c : Num), a.Fits n → (∀ d ∈ ds, d.2.2.Fits n) →
    ds.foldlM (fun a d => Num.add a d.2.2) a = .ok c →
    c.Fits n ∧ ∀ i < n, c.at i = a.at i + (ds.map fun d => d.2.2.at i).sum
  | [], a, c, ha, _, h => by
    simp [except_pure] at h; subst h; exact ⟨ha, by simp⟩
  | d :: ds, a, c, ha, hd, h => by
    rw [List.foldlM_cons] at h
    peel h with a', h1
    obtain ⟨h2, h3⟩ := zip_fits_ok ha (hd d (by simp)) h1
    obtain ⟨h4, h5⟩ := foldAdd ds a' c h2 (fun d' hd' => hd d' (by simp [hd'])) h
    refine ⟨h4, fun i hi => ?_⟩
    rw [h5 i hi, h3 i hi]; simp [add_assoc]

/-- The rows that link the state `on` to the variables that define it. -/
def OnRel (n : Nat) (eps : ℚ) (σ : Assignment) (on : Var) : List (Var × Num × Num) → Prop
  | [(x, lb, ub)] => ∀ t < n, max eps (lb.at t) * σ on.label t ≤ σ x.label t ∧ σ x.label t ≤ ub.at t * σ on.label t
  | ds => ∀ t < n, eps * σ on.label t ≤ (ds.map fun d => σ d.1.label t).sum ∧
      (ds.map fun d => σ d.1.label t).sum ≤ (ds.map fun d => d.2.2.at t).sum * σ on.label t

theorem opsLhs_append {σ : Assignment} {t : Nat} {a b : List Op} : opsLhs σ t (a ++ b) = opsLhs σ t a + opsLhs σ t b := by
  simp [opsLhs]

theorem opsRhs_append' {t : Nat} {a b : List Op} : opsRhs t (a ++ b) = opsRhs t a + opsRhs t b := by
  simp [opsRhs]

theorem opsRhs_map_sIdx {α} {l : List α} {x : α → Var} {f : α → Num} {idx} {t : Nat} :
    opsRhs t (l.map fun d => sIdx (x d) (f d) idx) = 0 := by
  induction l <;> simp_all

theorem opsRhs_map_sAll {α} {l : List α} {x : α → Var} {f : α → Num} {t : Nat} :
    opsRhs t (l.map fun d => sAll (x d) (f d)) = 0 := by
  induction l <;> simp_all

theorem opsLhs_map_sIdx {α} {σ : Assignment} {l : List α} {x : α → Var} {c : ℚ} {idx : List Nat} {t : Nat} :
    opsLhs σ t (l.map fun d => sIdx (x d) (.s c) idx) = c * (l.map fun d => σ (x d).label (idxAt idx t)).sum := by
  induction l with
  | nil => simp
  | cons a l ih => simp [lhs_sIdx, ih, mul_add]

theorem onConstraints_iff {sys : Sys} {p : String} {on : Var} {ds : List (Var × Num × Num)} {cs : List ConReq}
    (hon : on.length = sys.n) (hds : ∀ d ∈ ds, d.1.length = sys.n ∧ d.2.1.Fits sys.n ∧ d.2.2.Fits sys.n)
    (h : onConstraints sys p on (raised sys.cfg.eps ds) = .ok cs) :
    ds ≠ [] ∧ ∀ σ : Assignment, (∀ c ∈ cs, c.Ok σ) ↔ OnRel sys.n sys.cfg.eps σ on ds := by
  match ds with
  | [] => simp [raised, onConstraints] at h
  | [(x, lb, ub)] =>
    refine ⟨by simp, fun σ => ?_⟩
    obtain ⟨hx, hlb, hub⟩ := hds (x, lb, ub) (by simp)
    simp only at hx hlb hub
    simp only [raised, List.map_cons, List.map_nil, onConstraints, Except.ok.injEq] at h
    subst h
    simp only [List.forall_mem_cons, List.not_mem_nil, false_imp_iff, implies_true, and_true]
    rw [ok_ineq (n := sys.n), ok_ineq (n := sys.n)]
    · simp only [OnRel]
      rw [← forall₂_and]
      refine forall₂_congr fun t ht => ?_
      simp only [opsLhs_cons, opsRhs_cons, lhs_sIdx, idxAt_range ht, rhs_sIdx, opsLhs_nil, opsRhs_nil, at_s, at_neg]
      rw [at_map (n := sys.n) (by simpa using hlb) ht, at_map hlb ht]
      simp only [max_self, ← max_assoc]
      constructor <;> rintro ⟨h1, h2⟩ <;> constructor <;> linarith
    · intro op ho
      simp only [List.mem_cons, List.not_mem_nil, or_false] at ho
      rcases ho with rfl | rfl
      · exact good_sIdx (by rw [hx]; simp) (by simp) (by simp)
      · exact good_sIdx (by rw [hon]; simp) (by simpa using hub) (by simp)
    · simp [len_sIdx]
    · intro op ho
      simp only [List.mem_cons, List.not_mem_nil, or_false] at ho
      rcases ho with rfl | rfl
      · exact good_sIdx (by rw [hx]; simp) (by simp) (by simp)
      · exact good_sIdx (by rw [hon]; simp) (by simpa using hlb) (by simp)
    · simp [len_sIdx]
  | a :: b :: ds =>
    refine ⟨by simp, fun σ => ?_⟩
    have hr : raised sys.cfg.eps (a :: b :: ds) = (a.1, a.2.1.map (max sys.cfg.eps), a.2.2) ::
      (b.1, b.2.1.map (max sys.cfg.eps), b.2.2) :: raised sys.cfg.eps ds := rfl
    rw [hr] at h
    simp only [onConstraints] at h
    rw [← hr] at h
    generalize hl : a :: b :: ds = l at *
    have hlne : (l.length : ℚ) ≠ 0 := by rw [← hl]; simp; positivity
    have hrl : (raised sys.cfg.eps l).length = l.length := by simp [raised]
    peel h with M, hM
    have hfold := foldAdd (n := sys.n) (raised sys.cfg.eps l) (.s 0) M (by simp)
      (by intro d hd; simp only [raised, List.mem_map] at hd; obtain ⟨d', hd', rfl⟩ := hd; exact (hds d' hd').2.2) hM
    simp only [Except.ok.injEq] at h
    subst h
    simp only [List.forall_mem_cons, List.not_mem_nil, false_imp_iff, implies_true, and_true]
    have hsum : ∀ t, ((raised sys.cfg.eps l).map fun d => σ d.1.label t) = l.map fun d => σ d.1.label t := by
      intro t; simp [raised, List.map_map, Function.comp_def]
    have hub : ∀ t, ((raised sys.cfg.eps l).map fun d => d.2.2.at t) = l.map fun d => d.2.2.at t := by
      intro t; simp [raised, List.map_map, Function.comp_def]
    rw [ok_ineq (n := sys.n), ok_ineq (n := sys.n)]
    · have hO : OnRel sys.n sys.cfg.eps σ on l ↔ ∀ t < sys.n, sys.cfg.eps * σ on.label t ≤ (l.map fun d => σ d.1.label t).sum ∧
          (l.map fun d => σ d.1.label t).sum ≤ (l.map fun d => d.2.2.at t).sum * σ on.label t := by
        subst hl; rfl
      rw [hO, ← forall₂_and]
      refine forall₂_congr fun t ht => ?_
      rw [opsLhs_append, opsLhs_append, opsRhs_append', opsRhs_append', opsLhs_map_sIdx, opsLhs_map_sIdx, opsRhs_map_sIdx,
        opsRhs_map_sIdx]
      simp only [opsLhs_cons, opsRhs_cons, lhs_sIdx, idxAt_range ht, rhs_sIdx, opsLhs_nil, opsRhs_nil, at_s, at_neg, at_divr,
        hsum, hrl]
      rw [hfold.2 t ht, hub]
      simp only [at_s]
      have hpos : (0 : ℚ) < l.length := by rw [← hl]; simp; positivity
      constructor
      · rintro ⟨h1, h2⟩
        refine ⟨by linarith, ?_⟩
        have := mul_le_mul_of_nonneg_left h2 hpos.le
        field_simp at this
        linarith
      · rintro ⟨h1, h2⟩
        refine ⟨by linarith, ?_⟩
        have : (l.map fun d => σ d.1.label t).sum / l.length ≤ (l.map fun d => d.2.2.at t).sum * σ on.label t / l.length := by
          gcongr
        have e : (l.map fun d => d.2.2.at t).sum * σ on.label t / l.length =
          (l.map fun d => d.2.2.at t).sum / l.length * σ on.label t := by ring
        rw [e] at this
        ring_nf at this ⊢
        linarith
    · intro op ho
      simp only [List.mem_append, List.mem_map, List.mem_singleton] at ho
      rcases ho with ⟨d, hd, rfl⟩ | rfl
      · simp only [raised, List.mem_map] at hd; obtain ⟨d', hd', rfl⟩ := hd
        exact good_sIdx (by rw [(hds d' hd').1]; simp) (by simp) (by simp)
      · exact good_sIdx (by rw [hon]; simp) (by simpa using hfold.1) (by simp)
    · exact ⟨_, List.mem_append_right _ (List.mem_singleton_self _), len_sIdx' (by simp) (by simpa using hfold.1)⟩
    · intro op ho
      simp only [List.mem_append, List.mem_map, List.mem_singleton] at ho
      rcases ho with ⟨d, hd, rfl⟩ | rfl
      · simp only [raised, List.mem_map] at hd; obtain ⟨d', hd', rfl⟩ := hd
        exact good_sIdx (by rw [(hds d' hd').1]; simp) (by simp) (by simp)
      · exact good_sIdx (by rw [hon]; simp) (by simp) (by simp)
    · exact ⟨_, List.mem_append_right _ (List.mem_singleton_self _), len_sIdx' (by simp) (by simp)⟩

/-- The rows of the switch constraints. -/
structure SwitchRows (n : Nat) (b sOn sOff : Nat → ℚ) (nr last : ℚ) : Prop where
  onBin : ∀ t < n, sOn t = 0 ∨ sOn t = 1
  offBin : ∀ t < n, sOff t = 0 ∨ sOff t = 1
  step : ∀ t, t + 1 < n → sOn (t + 1) - sOff (t + 1) = b (t + 1) - b t
  first : sOn 0 - sOff 0 = b 0 - last
  one : ∀ t < n, sOn t + sOff t ≤ 11 / 10
  count : nr = ∑ k ∈ Finset.range n, sOn k

theorem switch_iff {sys : Sys} (h2 : 2 ≤ sys.n) {p : String} {on swOn swOff nr : Var} {cs : List ConReq}
    (hon : on.length = sys.n) (h1 : swOn.length = sys.n) (h1' : swOff.length = sys.n) (hnr : nr.length = 1)
    (h : switchConstraints sys p on swOn swOff nr = .ok cs) :
    ∃ last, lastPrevious on = .ok last ∧ ∀ σ : Assignment,
      ((∀ t < sys.n, σ swOn.label t = 0 ∨ σ swOn.label t = 1) ∧ (∀ t < sys.n, σ swOff.label t = 0 ∨ σ swOff.label t = 1) ∧
        ∀ c ∈ cs, c.Ok σ) ↔
      SwitchRows sys.n (σ on.label) (σ swOn.label) (σ swOff.label) (σ nr.label 0) last := by
  unfold switchConstraints at h
  peel h with last, hlast
  simp only [except_pure, Except.ok.injEq] at h
  refine ⟨last, hlast, fun σ => ?_⟩
  subst h
  have hlat : ∀ t, t + 1 < sys.n → idxAt (List.range' 1 (sys.n - 1)) t = t + 1 := by
    intro t ht; rw [idxAt_range' (by omega)]; omega
  have hear : ∀ t, t + 1 < sys.n → idxAt (List.range (sys.n - 1)) t = t := by
    intro t ht; rw [idxAt_range (by omega)]
  have hsub : ∀ P : Nat → Prop, (∀ t < sys.n - 1, P t) ↔ ∀ t, t + 1 < sys.n → P t :=
    fun P => ⟨fun h t ht => h t (by omega), fun h t ht => h t (by omega)⟩
  simp only [List.forall_mem_cons, List.not_mem_nil, false_imp_iff, implies_true, and_true]
  rw [ok_eq (n := sys.n - 1), hsub, ok_eq1, ok_ineq (n := sys.n), ok_eq1]
  · have e1 : (∀ t, t + 1 < sys.n → opsLhs σ t [sIdx swOn (.s 1) (List.range' 1 (sys.n - 1)),
        sIdx swOff (.s (-1)) (List.range' 1 (sys.n - 1)), sIdx on (.s (-1)) (List.range' 1 (sys.n - 1)),
        sIdx on (.s 1) (List.range (sys.n - 1))] = opsRhs t [sIdx swOn (.s 1) (List.range' 1 (sys.n - 1)),
        sIdx swOff (.s (-1)) (List.range' 1 (sys.n - 1)), sIdx on (.s (-1)) (List.range' 1 (sys.n - 1)),
        sIdx on (.s 1) (List.range (sys.n - 1))]) ↔ ∀ t, t + 1 < sys.n →
          σ swOn.label (t + 1) - σ swOff.label (t + 1) = σ on.label (t + 1) - σ on.label t := by
      refine forall₂_congr fun t ht => ?_
      simp only [opsLhs_cons, opsRhs_cons, lhs_sIdx, hlat t ht, hear t ht, rhs_sIdx, opsLhs_nil, opsRhs_nil, at_s]
      constructor <;> intro h <;> linarith
    have e3 : (∀ t < sys.n, opsLhs σ t [sAll swOn (.s 1), sAll swOff (.s 1), Op.const (.s (11 / 10))] ≤
        opsRhs t [sAll swOn (.s 1), sAll swOff (.s 1), Op.const (.s (11 / 10))]) ↔
        ∀ t < sys.n, σ swOn.label t + σ swOff.label t ≤ 11 / 10 := by
      refine forall₂_congr fun t ht => ?_
      simp [lhs_sAll (x := swOn) (h1 ▸ ht), lhs_sAll (x := swOff) (h1' ▸ ht)]
    rw [e1, e3]
    simp only [opsLhs_cons, opsRhs_cons, lhs_sIdx, rhs_sIdx, opsLhs_nil, opsRhs_nil, at_s, idxAt_single, lhs_const, rhs_const,
      lhs_sAll1 hnr, rhs_sAll, rhs_sSum, lhs_sum (i := 0) h1 (Or.inl rfl : (Num.s (-1)).len = 1 ∨ _), neg_mul, one_mul,
      Finset.sum_neg_distrib]
    constructor
    · rintro ⟨a1, a2, a3, a4, a5, a6⟩
      exact ⟨a1, a2, a3, by linarith, a5, by linarith⟩
    · rintro ⟨a1, a2, a3, a4, a5, a6⟩
      exact ⟨a1, a2, a3, by linarith, a5, by linarith⟩
  · intro op ho
    simp only [List.mem_cons, List.not_mem_nil, or_false] at ho
    rcases ho with rfl | rfl
    · exact good_sAll1 hnr (by simp)
    · exact good_sSum (by simp)
  · simp
  · intro op ho
    simp only [List.mem_cons, List.not_mem_nil, or_false] at ho
    rcases ho with rfl | rfl | rfl
    · exact good_sAll h1 (by simp)
    · exact good_sAll h1' (by simp)
    · exact good_const (by simp)
  · exact ⟨_, List.mem_cons_self, len_sAll' h1 (by simp)⟩
  · intro op ho
    simp only [List.mem_cons, List.not_mem_nil, or_false] at ho
    rcases ho with rfl | rfl | rfl | rfl
    · exact good_sIdx1 (by omega) (by simp)
    · exact good_sIdx1 (by omega) (by simp)
    · exact good_sIdx1 (by omega) (by simp)
    · exact good_const (by simp)
  · simp
  · intro op ho
    simp only [List.mem_cons, List.not_mem_nil, or_false] at ho
    rcases ho with rfl | rfl | rfl | rfl
    · exact good_sIdx (by rw [h1]; intro k hk; simp at hk; omega) (by simp) (by simp)
    · exact good_sIdx (by rw [h1']; intro k hk; simp at hk; omega) (by simp) (by simp)
    · exact good_sIdx (by rw [hon]; intro k hk; simp at hk; omega) (by simp) (by simp)
    · exact good_sIdx (by rw [hon]; intro k hk; simp at hk; omega) (by simp) (by simp)
  · exact ⟨_, List.mem_cons_self, len_sIdx' (by simp) (by simp)⟩

/-- Series given by the user have one entry per time step (an assumption on the data; other lengths are refused only later, utils.py:33-34). -/
structure OnOffParams.Fits (n : Nat) (q : OnOffParams) : Prop where
  onMin : ∀ m, q.consecOnMin = some m → m.Fits n
  onMax : ∀ m, q.consecOnMax = some m → m.Fits n
  offMin : ∀ m, q.consecOffMin = some m → m.Fits n
  offMax : ∀ m, q.consecOffMax = some m → m.Fits n

/-- Everything an on/off model says about an assignment. -/
structure OnOffRows (sys : Sys) (q : OnOffParams) (ds : List (Var × Num × Num)) (prevOn : List ℚ) (o : OnOffOut)
    (σ : Assignment) : Prop where
  onBin : ∀ t < sys.n, σ o.on.label t = 0 ∨ σ o.on.label t = 1
  onRel : OnRel sys.n sys.cfg.eps σ o.on ds
  totalMin : ∀ m, q.onHoursTotalMin = some m → m ≤ σ o.totalOnHours.label 0
  totalMax : ∀ m, q.onHoursTotalMax = some m → σ o.totalOnHours.label 0 ≤ m
  total : σ o.totalOnHours.label 0 = ∑ k ∈ Finset.range sys.n, sys.width k * σ o.on.label k
  off : ∀ x, o.off = some x → ∀ t < sys.n, (σ x.label t = 0 ∨ σ x.label t = 1) ∧ σ x.label t + σ o.on.label t = 1
  durOn : ∀ x, o.consecOn = some x → ∃ prev, getConsecutiveDuration sys.cfg.eps (.v prevOn) sys.prevDt = .ok prev ∧
    DurRows sys.n sys.width (σ o.on.label) (σ x.label) prev (sys.total + prev) q.consecOnMin q.consecOnMax
  durOff : ∀ x, o.consecOff = some x → ∃ off prev, o.off = some off ∧
    getConsecutiveDuration sys.cfg.eps (.v (prevOn.map (1 - ·))) sys.prevDt = .ok prev ∧
    DurRows sys.n sys.width (σ off.label) (σ x.label) prev (sys.total + prev) q.consecOffMin q.consecOffMax
  switch : ∀ a b c, o.switchOn = some a → o.switchOff = some b → o.nrSwitchOn = some c → ∃ last, prevOn.getLast? = some last ∧
    SwitchRows sys.n (σ o.on.label) (σ a.label) (σ b.label) (σ c.label 0) last
  switchMax : ∀ c m, o.nrSwitchOn = some c → q.switchOnTotalMax = some m → σ c.label 0 ≤ m

theorem map_previous_n {n : Nat} {ds : List Var} {ps} (hne : ds ≠ []) (hl : ∀ d ∈ ds, d.length = n)
    (h : ds.mapM Var.previousValues = .ok ps) : 2 ≤ n := by
  cases ds with
  | nil => simp at hne
  | cons d ds =>
    rw [mapM_ok] at h
    cases h with
    | cons h1 _ =>
      have := (prevValues_ok h1).1
      rw [hl d (by simp)] at this; omega

theorem bin_var_iff {σ : Assignment} {x : Var} (hf : x.fixedValue = none) (hl : x.lb = none) (hu : x.ub = none)
    (hb : x.isBinary = true) : x.Ok σ ↔ ∀ i < x.length, σ x.label i = 0 ∨ σ x.label i = 1 := by
  rw [var_iff hf (by rw [hl]; exact fitsBound_none _) (by rw [hu]; exact fitsBound_none _)]
  simp [hl, hu, hb]

/-- A scalar variable with optional scalar bounds. -/
theorem scalar_var_iff {σ : Assignment} {x : Var} {a b : Option ℚ} (hf : x.fixedValue = none) (hlen : x.length = 1)
    (hl : x.lb = a.map .s) (hu : x.ub = b.map .s) (hb : x.isBinary = false) :
    x.Ok σ ↔ (∀ m, a = some m → m ≤ σ x.label 0) ∧ (∀ m, b = some m → σ x.label 0 ≤ m) := by
  rw [var_iff hf (by rw [hl]; exact fitsBound_map _) (by rw [hu]; exact fitsBound_map _)]
  rw [hlen, hl, hu, hb]
  constructor
  · intro h
    obtain ⟨h1, h2, _⟩ := h 0 (by omega)
    exact ⟨fun m hm => h1 (.s m) (by simp [hm]), fun m hm => h2 (.s m) (by simp [hm])⟩
  · rintro ⟨h1, h2⟩ i hi
    have : i = 0 := by omega
    subst this
    refine ⟨?_, ?_, by simp⟩
    · intro lb hlb
      cases ha : a with
      | none => simp [ha] at hlb
      | some m => simp [ha] at hlb; subst hlb; exact h1 m ha
    · intro lb hlb
      cases ha : b with
      | none => simp [ha] at hlb
      | some m => simp [ha] at hlb; subst hlb; exact h2 m ha

/-- The complete meaning of an on/off model. -/
theorem onOff_iff {sys : Sys} (hv : sys.Valid) {el : String} {q : OnOffParams} {ds : List (Var × Num × Num)} {o : OnOffOut}
    (hq : q.Fits sys.n) (hds : ∀ d ∈ ds, d.1.length = sys.n ∧ d.2.1.Fits sys.n ∧ d.2.2.Fits sys.n)
    (h : onOffModel sys el q ds = .ok o) :
    2 ≤ sys.n ∧ ∃ prevOn, previousOnValues sys.cfg.eps (ds.map (·.1)) = .ok prevOn ∧
      ∀ σ : Assignment, o.tree.Solves σ ↔ OnOffRows sys q ds prevOn o σ := by
  obtain ⟨prevOn, cOn, off, dOn, dOff, swOn, swOff, nr, cSw, hprev, hon, htot, hcOn, hoff, hdOn, hdOff, hswOn, hswOff, hnr, hcSw,
    eoff, edOn, edOff, esOn, esOff, enr, hvars, hcons, _⟩ := onOff_inv h
  have honl : o.on.length = sys.n := by rw [hon]
  obtain ⟨hne, hrel⟩ := onConstraints_iff honl hds hcOn
  have h2 : 2 ≤ sys.n := by
    unfold previousOnValues at hprev
    peel hprev with ps, hps
    exact map_previous_n (by simpa using hne) (by simpa using fun x a b hx => (hds _ hx).1) hps
  have hprevV : ∀ x : Var, x.length = sys.n → ∀ b, x.previous = some b → x.previousValues = .ok (some b) := by
    intro x hx b hb
    unfold Var.previousValues
    rw [if_pos (by omega), hb]
  refine ⟨h2, prevOn, hprev, fun σ => ?_⟩
  have hop : o.on.previous = some (.v prevOn) := by rw [hon]; simp; omega
  -- switch
  obtain ⟨last, hlast, hsw⟩ := switch_iff h2 honl (by rw [hswOn]) (by rw [hswOff]) (by rw [hnr]) hcSw
  have hlast' : prevOn.getLast? = some last := by
    unfold lastPrevious at hlast
    rw [hprevV _ honl _ hop] at hlast
    simp only [ok_bind] at hlast
    split at hlast
    · rename_i b hb; simp at hlast; subst hlast; exact hb
    · simp at hlast
  have hswv : (swOn.Ok σ ∧ swOff.Ok σ ∧ nr.Ok σ ∧ ∀ c ∈ cSw, c.Ok σ) ↔
      SwitchRows sys.n (σ o.on.label) (σ swOn.label) (σ swOff.label) (σ nr.label 0) last ∧
      ∀ m, q.switchOnTotalMax = some m → σ nr.label 0 ≤ m := by
    rw [← hsw σ, bin_var_iff (x := swOn) (by rw [hswOn]) (by rw [hswOn]) (by rw [hswOn]) (by rw [hswOn]),
      bin_var_iff (x := swOff) (by rw [hswOff]) (by rw [hswOff]) (by rw [hswOff]) (by rw [hswOff]),
      scalar_var_iff (x := nr) (a := none) (b := q.switchOnTotalMax) (by rw [hnr]) (by rw [hnr]) (by rw [hnr]; rfl)
        (by rw [hnr]) (by rw [hnr])]
    have l1 : swOn.length = sys.n := by rw [hswOn]
    have l2 : swOff.length = sys.n := by rw [hswOff]
    rw [l1, l2]
    simp only [reduceCtorEq, false_imp_iff, implies_true, true_and]
    tauto
  -- total
  have htotv : (o.totalOnHours.Ok σ ∧ (mkEq (ooP el) "totalOnHours" [sSum o.on (.v sys.dt), sAll o.totalOnHours (.s (-1))]).Ok σ) ↔
      (∀ m, q.onHoursTotalMin = some m → m ≤ σ o.totalOnHours.label 0) ∧
      (∀ m, q.onHoursTotalMax = some m → σ o.totalOnHours.label 0 ≤ m) ∧
      σ o.totalOnHours.label 0 = ∑ k ∈ Finset.range sys.n, sys.width k * σ o.on.label k := by
    have tl : o.totalOnHours.length = 1 := by rw [htot]
    rw [scalar_var_iff (x := o.totalOnHours) (by rw [htot]) tl (by rw [htot]) (by rw [htot]) (by rw [htot]), ok_eq1, and_assoc]
    · refine and_congr_right fun _ => and_congr_right fun _ => ?_
      have : (sSum o.on (.v sys.dt)).lhs σ 0 = ∑ k ∈ Finset.range sys.n, sys.width k * σ o.on.label k := by
        rw [lhs_sum honl (Or.inr (by simp [hv.hdt]))]
        refine Finset.sum_congr rfl fun k hk => ?_
        rw [at_v (by rw [hv.hdt]; exact Finset.mem_range.1 hk)]; rfl
      simp only [opsLhs_cons, opsRhs_cons, this, lhs_sAll1 tl, rhs_sSum, rhs_sAll, opsLhs_nil, opsRhs_nil, at_s]
      constructor <;> intro h <;> linarith
    · intro op ho
      simp only [List.mem_cons, List.not_mem_nil, or_false] at ho
      rcases ho with rfl | rfl
      · exact good_sSum (Or.inr (by simp [hv.hdt, honl]))
      · exact good_sAll1 tl (by simp)
    · simp
  -- off
  have hoffv : ((∀ x ∈ (off.map (·.1)).toList, x.Ok σ) ∧ ∀ c ∈ (off.map (·.2)).getD [], c.Ok σ) ↔
      ∀ x, o.off = some x → ∀ t < sys.n, (σ x.label t = 0 ∨ σ x.label t = 1) ∧ σ x.label t + σ o.on.label t = 1 := by
    unfold offOpt at hoff
    split at hoff
    · obtain ⟨⟨x, cs⟩, hx, hx'⟩ := map_ok.1 hoff
      subst hx'
      unfold offPart at hx
      peel hx with x', hx'
      simp only [except_pure, Except.ok.injEq, Prod.mk.injEq] at hx
      obtain ⟨rfl, rfl⟩ := hx
      have hm := (mkVar_ok hx').1
      have hl : x'.length = sys.n := by rw [hm]
      rw [eoff]
      simp only [Option.map_some, Option.toList_some, List.mem_singleton, forall_eq, Option.getD_some, Option.some.injEq,
        forall_eq']
      rw [bin_var_iff (by rw [hm]) (by rw [hm]) (by rw [hm]) (by rw [hm]), ok_eq (n := sys.n), hl, ← forall₂_and]
      · refine forall₂_congr fun t ht => and_congr_right fun _ => ?_
        simp [lhs_sIdx, idxAt_range ht]
      · intro op ho
        simp only [List.mem_cons, List.not_mem_nil, or_false] at ho
        rcases ho with rfl | rfl | rfl
        · exact good_sIdx (by rw [hl]; simp) (by simp) (by simp)
        · exact good_sIdx (by rw [honl]; simp) (by simp) (by simp)
        · exact good_const (by simp)
      · exact ⟨_, List.mem_cons_self, len_sIdx' (by simp) (by simp)⟩
    · simp only [Except.ok.injEq] at hoff
      subst hoff
      rw [eoff]; simp
  -- durations
  have hdOnv : ((∀ x ∈ (dOn.map (·.1)).toList, x.Ok σ) ∧ ∀ c ∈ (dOn.map (·.2)).getD [], c.Ok σ) ↔
      ∀ x, o.consecOn = some x → ∃ prev, getConsecutiveDuration sys.cfg.eps (.v prevOn) sys.prevDt = .ok prev ∧
        DurRows sys.n sys.width (σ o.on.label) (σ x.label) prev (sys.total + prev) q.consecOnMin q.consecOnMax := by
    unfold durationOnOpt at hdOn
    split at hdOn
    · obtain ⟨⟨x, cs⟩, hx, hx'⟩ := map_ok.1 hdOn
      subst hx'
      obtain ⟨prev, hp, _, _, hiff⟩ := getDuration_iff hv h2 honl hq.onMin hq.onMax hx
      rw [edOn]
      simp only [Option.map_some, Option.toList_some, List.mem_singleton, forall_eq, Option.getD_some, Option.some.injEq,
        forall_eq']
      rw [hiff]
      unfold prevDuration at hp
      rw [hprevV _ honl _ hop] at hp
      simp only [ok_bind] at hp
      rw [hp]; simp
    · simp only [Except.ok.injEq] at hdOn
      subst hdOn
      rw [edOn]; simp
  have hdOffv : ((∀ x ∈ (dOff.map (·.1)).toList, x.Ok σ) ∧ ∀ c ∈ (dOff.map (·.2)).getD [], c.Ok σ) ↔
      ∀ x, o.consecOff = some x → ∃ off prev, o.off = some off ∧
        getConsecutiveDuration sys.cfg.eps (.v (prevOn.map (1 - ·))) sys.prevDt = .ok prev ∧
        DurRows sys.n sys.width (σ off.label) (σ x.label) prev (sys.total + prev) q.consecOffMin q.consecOffMax := by
    unfold durationOffOpt at hdOff
    split at hdOff
    · rename_i huse
      unfold offOpt at hoff
      have hu : q.useOff = true := huse
      rw [if_pos hu] at hoff
      obtain ⟨⟨y, ycs⟩, hy, hy'⟩ := map_ok.1 hoff
      subst hy'
      simp only [Option.map_some] at hdOff
      obtain ⟨⟨x, cs⟩, hx, hx'⟩ := map_ok.1 hdOff
      subst hx'
      unfold offPart at hy
      peel hy with y', hy'
      simp only [except_pure, Except.ok.injEq, Prod.mk.injEq] at hy
      obtain ⟨rfl, rfl⟩ := hy
      have hm := (mkVar_ok hy').1
      have hyl : y'.length = sys.n := by rw [hm]
      have hyp : y'.previous = some (.v (prevOn.map (1 - ·))) := by rw [hm]; simp; omega
      obtain ⟨prev, hp, _, _, hiff⟩ := getDuration_iff hv h2 hyl hq.offMin hq.offMax hx
      rw [edOff, eoff]
      simp only [Option.map_some, Option.toList_some, List.mem_singleton, forall_eq, Option.getD_some, Option.some.injEq,
        forall_eq']
      rw [hiff]
      unfold prevDuration at hp
      rw [hprevV _ hyl _ hyp] at hp
      simp only [ok_bind] at hp
      rw [hp]; simp
    · simp only [Except.ok.injEq] at hdOff
      subst hdOff
      rw [edOff]; simp
  have honv : o.on.Ok σ ↔ ∀ t < sys.n, σ o.on.label t = 0 ∨ σ o.on.label t = 1 := by
    rw [bin_var_iff (by rw [hon]) (by rw [hon]) (by rw [hon]) (by rw [hon]), honl]
  have hsolve : o.tree.Solves σ ↔ (∀ x ∈ o.vars, x.Ok σ) ∧ (∀ r ∈ o.cons, r.Ok σ) := by
    simp [OnOffOut.tree, MTree.Solves, MTree.SolvesAll]
  rw [hsolve, hvars, hcons]
  simp only [List.mem_append, or_imp, forall_and, List.forall_mem_cons, List.not_mem_nil, false_imp_iff, implies_true, and_true]
  constructor
  · rintro ⟨⟨⟨⟨⟨⟨v1, v2⟩, v3⟩, v4⟩, v5⟩, v6, v7, v8⟩, ⟨⟨⟨⟨c1, c2⟩, c3⟩, c4⟩, c5⟩, c6⟩
    obtain ⟨t1, t2, t3⟩ := htotv.1 ⟨v2, c1⟩
    obtain ⟨s1, s2⟩ := hswv.1 ⟨v6, v7, v8, c6⟩
    refine ⟨honv.1 v1, (hrel σ).1 c2, t1, t2, t3, hoffv.1 ⟨v3, c3⟩, hdOnv.1 ⟨v4, c4⟩, hdOffv.1 ⟨v5, c5⟩, ?_, ?_⟩
    · intro a b c ha hb hc
      rw [esOn] at ha; rw [esOff] at hb; rw [enr] at hc
      cases ha; cases hb; cases hc
      exact ⟨last, hlast', s1⟩
    · intro c m hc hm
      rw [enr] at hc; cases hc
      exact s2 m hm
  · rintro ⟨r1, r2, r3, r4, r5, r6, r7, r8, r9, r10⟩
    obtain ⟨v2, c1⟩ := htotv.2 ⟨r3, r4, r5⟩
    obtain ⟨v3, c3⟩ := hoffv.2 r6
    obtain ⟨v4, c4⟩ := hdOnv.2 r7
    obtain ⟨v5, c5⟩ := hdOffv.2 r8
    obtain ⟨last', hl', hs⟩ := r9 _ _ _ esOn esOff enr
    rw [hlast'] at hl'; cases hl'
    obtain ⟨v6, v7, v8, c6⟩ := hswv.2 ⟨hs, fun m hm => r10 _ m enr hm⟩
    exact ⟨⟨⟨⟨⟨⟨honv.2 r1, v2⟩, v3⟩, v4⟩, v5⟩, v6, v7, v8⟩, ⟨⟨⟨⟨c1, (hrel σ).2 r2⟩, c3⟩, c4⟩, c5⟩, c6⟩

end Flix
