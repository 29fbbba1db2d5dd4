import Verif.Lemmas.Converter
import Verif.Lemmas.Invest

/-! # The storage model row by row -/

namespace Flix

/-- The series given by the user have one entry per step; bounds of the charge state one more. -/
structure StorageData.Fits (n : Nat) (s : StorageData) : Prop where
  relMin : s.relMinCharge.Fits (n + 1)
  relMax : s.relMaxCharge.Fits (n + 1)
  etaC : s.etaCharge.Fits n
  etaD : s.etaDischarge.Fits n
  loss : s.relLoss.Fits n

/-- What the initial and final charge states require. -/
structure EndRows (s : StorageData) (n : Nat) (c : Nat → ℚ) : Prop where
  start : ∀ x, s.initial = .num x → c 0 = x
  last : s.initial = .lastValueOfSim → c 0 = c (n - 1)
  maxF : s.initial ≠ .none → ∀ m, s.maxFinal = some m → c n ≤ m
  minF : s.initial ≠ .none → ∀ m, s.minFinal = some m → m ≤ c n

theorem initialFinal_iff {sys : Sys} {s : StorageData} {c : Var} {cs : List ConReq} (hc : c.length = sys.n + 1)
    (h : initialFinalCons sys s c = .ok cs) (σ : Assignment) :
    (∀ r ∈ cs, r.Ok σ) ↔ EndRows s sys.n (σ c.label) := by
  have hmax : ∀ m : ℚ, (mkIneq s.label "eq_final_charge_state_max" [sIdx c (.s 1) [sys.n], .const (.s m)]).Ok σ ↔ σ c.label sys.n ≤ m := by
    intro m
    rw [ok_ineq1 (by
      intro op ho
      simp only [List.mem_cons, List.not_mem_nil, or_false] at ho
      rcases ho with rfl | rfl
      · exact good_sIdx1 (by omega) (fits_s _ _)
      · exact good_const (fits_s _ _)) (by simp)]
    simp [opsLhs_cons, opsRhs_cons, lhs_sIdx]
  have hmin : ∀ m : ℚ, (mkIneq s.label "eq_charge_state_end_min" [sIdx c (.s (-1)) [sys.n], .const (.s (-m))]).Ok σ ↔ m ≤ σ c.label sys.n := by
    intro m
    rw [ok_ineq1 (by
      intro op ho
      simp only [List.mem_cons, List.not_mem_nil, or_false] at ho
      rcases ho with rfl | rfl
      · exact good_sIdx1 (by omega) (fits_s _ _)
      · exact good_const (fits_s _ _)) (by simp)]
    simp [opsLhs_cons, opsRhs_cons, lhs_sIdx]
  have hstart : ∀ x : ℚ, (mkEq s.label "initial_charge_state" [.const (.s x), sIdx c (.s 1) [0]]).Ok σ ↔ σ c.label 0 = x := by
    intro x
    rw [ok_eq1 (by
      intro op ho
      simp only [List.mem_cons, List.not_mem_nil, or_false] at ho
      rcases ho with rfl | rfl
      · exact good_const (fits_s _ _)
      · exact good_sIdx1 (by omega) (fits_s _ _)) (by simp)]
    simp [opsLhs_cons, opsRhs_cons, lhs_sIdx]
  have hlast : sys.n ≠ 0 → ((mkEq s.label "initial_charge_state" [sIdx c (.s 1) [0], sIdx c (.s (-1)) [sys.n - 1]]).Ok σ ↔
      σ c.label 0 = σ c.label (sys.n - 1)) := by
    intro hn
    rw [ok_eq1 (by
      intro op ho
      simp only [List.mem_cons, List.not_mem_nil, or_false] at ho
      rcases ho with rfl | rfl
      · exact good_sIdx1 (by omega) (fits_s _ _)
      · exact good_sIdx1 (by omega) (fits_s _ _)) (by simp)]
    simp only [opsLhs_cons, opsRhs_cons, lhs_sIdx, idxAt_single, rhs_sIdx, opsLhs_nil, opsRhs_nil, at_s]
    constructor <;> intro h <;> linarith
  have hfin : (∀ r ∈ finalCons sys s c, r.Ok σ) ↔
      (∀ m, s.maxFinal = some m → σ c.label sys.n ≤ m) ∧ (∀ m, s.minFinal = some m → m ≤ σ c.label sys.n) := by
    unfold finalCons
    simp only [List.mem_append, or_imp, forall_and]
    refine and_congr ?_ ?_
    · cases s.maxFinal with
      | none => simp
      | some m => simp [hmax]
    · cases s.minFinal with
      | none => simp
      | some m => simp [hmin]
  unfold initialFinalCons at h
  cases hi : s.initial with
  | none =>
    rw [hi] at h
    simp only [Except.ok.injEq] at h
    subst h
    constructor
    · intro _
      constructor <;> simp [hi]
    · simp
  | num x =>
    rw [hi] at h
    simp only [Except.ok.injEq] at h
    subst h
    rw [List.forall_mem_cons, hfin, hstart]
    constructor
    · rintro ⟨h1, h2, h3⟩
      refine ⟨?_, by simp [hi], fun _ => h2, fun _ => h3⟩
      intro y hy; rw [hi] at hy; cases hy; exact h1
    · rintro ⟨h1, _, h2, h3⟩
      exact ⟨h1 x hi, h2 (by simp [hi]), h3 (by simp [hi])⟩
  | lastValueOfSim =>
    rw [hi] at h
    simp only at h
    split at h
    · cases h
    · rename_i hn
      simp only [Except.ok.injEq] at h
      subst h
      rw [List.forall_mem_cons, hfin, hlast hn]
      constructor
      · rintro ⟨h1, h2, h3⟩
        exact ⟨by simp [hi], fun _ => h1, fun _ => h2, fun _ => h3⟩
      · rintro ⟨_, h1, h2, h3⟩
        exact ⟨h1 hi, h2 (by simp [hi]), h3 (by simp [hi])⟩
  | other => rw [hi] at h; cases h

/-- The step equation. -/
theorem chargeCon_iff {sys : Sys} (hv : sys.Valid) {s : StorageData} (hs : s.Fits sys.n) {c a b : Var} {r : ConReq} (hc : c.length = sys.n + 1)
    (ha : a.length = sys.n) (hb : b.length = sys.n) (h : chargeCon sys s c a b = .ok r) :
    (∀ t < sys.n, s.etaDischarge.at t ≠ 0) ∧ ∀ σ : Assignment, r.Ok σ ↔ ∀ t < sys.n,
      σ c.label (t + 1) = σ c.label t * (1 - s.relLoss.at t * sys.width t) + σ a.label t * s.etaCharge.at t * sys.width t -
        σ b.label t * sys.width t / s.etaDischarge.at t := by
  have hdt : (Num.v sys.dt).Fits sys.n := Or.inr hv.hdt
  have hdv : ∀ t < sys.n, (Num.v sys.dt).at t = sys.width t := by
    intro t ht
    rw [at_v (by rw [hv.hdt]; exact ht)]
    rfl
  unfold chargeCon at h
  peel h with loss, hl
  peel h with fin, hf
  peel h with inv, hi
  peel h with fout, ho
  simp only [except_pure, Except.ok.injEq] at h
  obtain ⟨l1, l2⟩ := mul_fits' hl hs.loss hdt
  obtain ⟨f1, f2⟩ := mul_fits' hf (fits_map.2 hs.etaC) hdt
  obtain ⟨i1, i2⟩ := Num.inv_ok hi hs.etaD
  obtain ⟨o1, o2⟩ := mul_fits' ho i1 hdt
  refine ⟨fun t ht => (i2 t ht).1, fun σ => ?_⟩
  subst h
  rw [ok_eq (n := sys.n) (by
    intro op ho
    simp only [List.mem_cons, List.not_mem_nil, or_false] at ho
    rcases ho with rfl | rfl | rfl | rfl
    · exact good_sIdx (by intro k hk; rw [List.mem_range'_1] at hk; omega) (fits_s _ _) (by simp)
    · exact good_sIdx (by intro k hk; rw [List.mem_range] at hk; omega) (fits_map.2 l1) (by simp)
    · exact good_sAll ha f1
    · exact good_sAll hb o1) ⟨_, List.mem_cons_of_mem _ (List.mem_cons_of_mem _ List.mem_cons_self), len_sAll' ha f1⟩]
  refine forall₂_congr fun t ht => ?_
  simp only [opsLhs_cons, opsRhs_cons, lhs_sIdx, rhs_sIdx, lhs_sAll (x := a) (ha ▸ ht), lhs_sAll (x := b) (hb ▸ ht), rhs_sAll, opsLhs_nil, opsRhs_nil, at_s,
    idxAt_range ht, idxAt_range' ht, at_map l1 ht, l2 t ht, f2 t ht, o2 t ht, at_map hs.etaC ht, hdv t ht, (i2 t ht).2]
  rw [Nat.add_comm 1 t]
  have : 1 / s.etaDischarge.at t * sys.width t * σ b.label t = σ b.label t * sys.width t / s.etaDischarge.at t := by ring
  rw [this]
  constructor <;> intro h <;> linarith

/-- What the constraints of a storage say, besides those of its flows. -/
structure StorageRows (sys : Sys) (s : StorageData) (c nd a b : Nat → ℚ) : Prop where
  lower : ∀ t < sys.n + 1, (s.absBounds sys.cfg).1.at t ≤ c t
  upper : ∀ t < sys.n + 1, c t ≤ (s.absBounds sys.cfg).2.at t
  net : ∀ t < sys.n, nd t = b t - a t
  step : ∀ t < sys.n, c (t + 1) = c t * (1 - s.relLoss.at t * sys.width t) + a t * s.etaCharge.at t * sys.width t -
    b t * sys.width t / s.etaDischarge.at t
  ends : EndRows s sys.n c

theorem storageFlows_ok {o : CompOut} {a b : FlowOut} (h : storageFlows o = .ok (a, b)) :
    ∃ p q, o.inputs = [(p, a)] ∧ o.outputs = [(q, b)] := by
  unfold storageFlows at h
  split at h
  · rename_i h1 h2
    cases h
    exact ⟨_, _, h1, h2⟩
  · cases h

theorem storage_iff {sys : Sys} (hv : sys.Valid) {s : StorageData} {o : StorageOut} (hs : s.Fits sys.n) (h : storageModel sys s = .ok o) :
    ∃ o0, compModel sys s.comp = .ok o0 ∧ o.comp.inputs = o0.inputs ∧ o.comp.outputs = o0.outputs ∧
      o.charge.flowRate.label = rateL s.label s.charging.label ∧ o.discharge.flowRate.label = rateL s.label s.discharging.label ∧
      o.charge.flowRate.length = sys.n ∧ o.discharge.flowRate.length = sys.n ∧
      o.chargeState.label = s.label ++ "_" ++ "charge_state" ∧ o.chargeState.length = sys.n + 1 ∧
      o.nettoDischarge.label = s.label ++ "_" ++ "netto_discharge" ∧
      storageInvest sys s o.chargeState = .ok o.invest ∧
      (∀ t < sys.n, s.etaDischarge.at t ≠ 0) ∧
      o.comp.shares = o0.shares ++ (o.invest.map (·.shares)).getD [] ∧
      ∀ σ : Assignment, o.comp.tree.Solves σ ↔ o0.tree.Solves σ ∧
        StorageRows sys s (σ o.chargeState.label) (σ o.nettoDischarge.label) (σ o.charge.flowRate.label) (σ o.discharge.flowRate.label) ∧
        ∀ iv, o.invest = some iv → iv.tree.Solves σ := by
  unfold storageModel at h
  peel h with o0, h0
  peel h with ab, hab
  obtain ⟨a, b⟩ := ab
  simp only at h
  peel h with c, hc
  peel h with nd, hnd
  peel h with cCharge, hcc
  peel h with inv, hinv
  peel h with cIF, hif
  simp only [except_pure, Except.ok.injEq] at h
  subst h
  obtain ⟨p, q, hpa, hqb⟩ := storageFlows_ok hab
  obtain ⟨r1, r2⟩ := comp_rates h0
  rw [hpa] at r1
  rw [hqb] at r2
  simp only [StorageData.comp, List.forall₂_cons, List.forall₂_nil_right_iff, and_true] at r1 r2
  obtain ⟨_, la, na⟩ := r1
  obtain ⟨_, lb, nb⟩ := r2
  have hcv := (mkVar_ok hc).1
  have hnv := (mkVar_ok hnd).1
  have hcl : c.length = sys.n + 1 := by rw [hcv]
  have hnl : nd.length = sys.n := by rw [hnv]
  obtain ⟨hz, hstep⟩ := chargeCon_iff hv hs hcl na nb hcc
  refine ⟨o0, h0, rfl, rfl, la, lb, na, nb, by rw [hcv], hcl, by rw [hnv], hinv, hz, rfl, fun σ => ?_⟩
  have hbf : (s.absBounds sys.cfg).1.Fits (sys.n + 1) ∧ (s.absBounds sys.cfg).2.Fits (sys.n + 1) := by
    unfold StorageData.absBounds
    cases s.capacity <;> simp [hs.relMin, hs.relMax]
  have hcOk : c.Ok σ ↔ (∀ t < sys.n + 1, (s.absBounds sys.cfg).1.at t ≤ σ c.label t) ∧ (∀ t < sys.n + 1, σ c.label t ≤ (s.absBounds sys.cfg).2.at t) := by
    have hlb : c.lb = some (s.absBounds sys.cfg).1 := by rw [hcv]
    have hub : c.ub = some (s.absBounds sys.cfg).2 := by rw [hcv]
    have hbin : c.isBinary = false := by rw [hcv]
    rw [var_iff (by rw [hcv]) (by rw [hlb, hcl]; exact fitsBound_some hbf.1) (by rw [hub, hcl]; exact fitsBound_some hbf.2)]
    rw [hlb, hub, hbin, hcl]
    simp only [Option.some.injEq, forall_eq', Bool.false_eq_true, false_imp_iff, and_true]
    exact ⟨fun h => ⟨fun t ht => (h t ht).1, fun t ht => (h t ht).2⟩, fun h t ht => ⟨h.1 t ht, h.2 t ht⟩⟩
  have hnOk : nd.Ok σ := by
    rw [var_iff (by rw [hnv]) (by rw [hnv]; exact fitsBound_none _) (by rw [hnv]; exact fitsBound_none _)]
    rw [hnv]; simp
  have hNet : (mkEq s.label "netto_discharge" [sAll nd (.s 1), sAll a.flowRate (.s 1), sAll b.flowRate (.s (-1))]).Ok σ ↔
      ∀ t < sys.n, σ nd.label t = σ b.flowRate.label t - σ a.flowRate.label t := by
    rw [ok_eq (n := sys.n) (by
      intro op ho
      simp only [List.mem_cons, List.not_mem_nil, or_false] at ho
      rcases ho with rfl | rfl | rfl
      · exact good_sAll hnl (fits_s _ _)
      · exact good_sAll na (fits_s _ _)
      · exact good_sAll nb (fits_s _ _)) ⟨_, List.mem_cons_self, len_sAll' hnl (fits_s _ _)⟩]
    refine forall₂_congr fun t ht => ?_
    simp only [opsLhs_cons, opsRhs_cons, lhs_sAll (x := nd) (hnl ▸ ht), lhs_sAll (x := a.flowRate) (na ▸ ht), lhs_sAll (x := b.flowRate) (nb ▸ ht), rhs_sAll,
      opsLhs_nil, opsRhs_nil, at_s]
    constructor <;> intro h <;> linarith
  have hIF := initialFinal_iff hcl hif σ
  have hrows : StorageRows sys s (σ c.label) (σ nd.label) (σ a.flowRate.label) (σ b.flowRate.label) ↔
      c.Ok σ ∧ (mkEq s.label "netto_discharge" [sAll nd (.s 1), sAll a.flowRate (.s 1), sAll b.flowRate (.s (-1))]).Ok σ ∧ cCharge.Ok σ ∧ ∀ r ∈ cIF, r.Ok σ := by
    rw [hcOk, hNet, hstep σ, hIF]
    exact ⟨fun h => ⟨⟨h.lower, h.upper⟩, h.net, h.step, h.ends⟩, fun h => ⟨h.1.1, h.1.2, h.2.1, h.2.2.1, h.2.2.2⟩⟩
  rw [hrows]
  simp only [CompOut.tree, MTree.Solves, solvesAll_append, List.mem_append, or_imp, forall_and, List.forall_mem_cons, List.not_mem_nil,
    false_imp_iff, implies_true, and_true, hnOk]
  have hinvs : MTree.SolvesAll σ (inv.map InvestOut.tree).toList ↔ ∀ iv, inv = some iv → iv.tree.Solves σ := by
    cases inv <;> simp [MTree.SolvesAll]
  rw [hinvs]
  tauto

end Flix
