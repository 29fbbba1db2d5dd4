import Verif.Lemmas.Storage
import Verif.Lemmas.Check
import Verif.Props.Invest
import Mathlib.Algebra.BigOperators.Intervals
import Mathlib.Algebra.Order.BigOperators.Group.Finset

/-!
# C32, C33: storages
-/

namespace Flix

variable {sys : Sys} {s : StorageData} {o : StorageOut} {σ : Assignment}

def chargeStateL (storage : String) : String := storage ++ "_" ++ "charge_state"
def nettoL (storage : String) : String := storage ++ "_" ++ "netto_discharge"

/-- Share of the stored energy that is left after step `t`. -/
def StorageData.keep (s : StorageData) (sys : Sys) (t : Nat) : ℚ := 1 - s.relLoss.at t * sys.width t

/-- Energy added in step `t`. -/
def StorageData.gain (s : StorageData) (sys : Sys) (σ : Assignment) (t : Nat) : ℚ :=
  σ (rateL s.label s.charging.label) t * s.etaCharge.at t * sys.width t -
    σ (rateL s.label s.discharging.label) t * sys.width t / s.etaDischarge.at t

theorem storage_rows (hv : sys.Valid) (hs : s.Fits sys.n) (h : storageModel sys s = .ok o) (hsol : o.comp.tree.Solves σ) :
    StorageRows sys s (σ (chargeStateL s.label)) (σ (nettoL s.label)) (σ (rateL s.label s.charging.label)) (σ (rateL s.label s.discharging.label)) := by
  obtain ⟨o0, _, _, _, h1, h2, _, _, h3, _, h4, _, _, _, hiff⟩ := storage_iff hv hs h
  obtain ⟨_, hr, _⟩ := (hiff σ).1 hsol
  rwa [h1, h2, h3, h4] at hr

/-- **C32 (balance of one step).** -/
theorem C32_step (hv : sys.Valid) (hs : s.Fits sys.n) (h : storageModel sys s = .ok o) (hsol : o.comp.tree.Solves σ) :
    ∀ t < sys.n, σ (chargeStateL s.label) (t + 1) = σ (chargeStateL s.label) t * (1 - s.relLoss.at t * sys.width t) +
      σ (rateL s.label s.charging.label) t * s.etaCharge.at t * sys.width t -
      σ (rateL s.label s.discharging.label) t * sys.width t / s.etaDischarge.at t :=
  (storage_rows hv hs h hsol).step

/-- **C32 (closed form).**  The charge state at any time is what is left of the first one plus what is left of all that was charged
and discharged since. -/
theorem C32_closed (hv : sys.Valid) (hs : s.Fits sys.n) (h : storageModel sys s = .ok o) (hsol : o.comp.tree.Solves σ) :
    ∀ t ≤ sys.n, σ (chargeStateL s.label) t = σ (chargeStateL s.label) 0 * ∏ k ∈ Finset.range t, s.keep sys k +
      ∑ k ∈ Finset.range t, s.gain sys σ k * ∏ j ∈ Finset.Ico (k + 1) t, s.keep sys j := by
  intro t
  induction t with
  | zero => simp
  | succ t ih =>
    intro ht
    have e : σ (chargeStateL s.label) (t + 1) = σ (chargeStateL s.label) t * s.keep sys t + s.gain sys σ t := by
      rw [C32_step hv hs h hsol t (by omega)]
      unfold StorageData.keep StorageData.gain
      ring
    rw [e, ih (by omega), Finset.prod_range_succ, Finset.sum_range_succ, add_mul, Finset.sum_mul, Finset.Ico_self, Finset.prod_empty, mul_one]
    have : ∑ k ∈ Finset.range t, s.gain sys σ k * (∏ j ∈ Finset.Ico (k + 1) t, s.keep sys j) * s.keep sys t =
        ∑ k ∈ Finset.range t, s.gain sys σ k * ∏ j ∈ Finset.Ico (k + 1) (t + 1), s.keep sys j := by
      refine Finset.sum_congr rfl fun k hk => ?_
      rw [Finset.prod_Ico_succ_top (by have := Finset.mem_range.1 hk; omega), mul_assoc]
    rw [this]
    ring

/-- **C32 (conservation).**  Without losses what is stored more at the end than at the start is what was charged minus what was
discharged. -/
theorem C32_conserved (hv : sys.Valid) (hs : s.Fits sys.n) (h : storageModel sys s = .ok o) (hsol : o.comp.tree.Solves σ)
    (hloss : ∀ t < sys.n, s.relLoss.at t = 0) (hc : ∀ t < sys.n, s.etaCharge.at t = 1) (hd : ∀ t < sys.n, s.etaDischarge.at t = 1) :
    ∀ t ≤ sys.n, σ (chargeStateL s.label) t - σ (chargeStateL s.label) 0 =
      ∑ k ∈ Finset.range t, sys.width k * (σ (rateL s.label s.charging.label) k - σ (rateL s.label s.discharging.label) k) := by
  intro t
  induction t with
  | zero => simp
  | succ t ih =>
    intro ht
    rw [Finset.sum_range_succ, ← ih (by omega), C32_step hv hs h hsol t (by omega), hloss t (by omega), hc t (by omega), hd t (by omega)]
    ring

/-- **C32 (nothing is gained).**  With efficiencies at most one, non-negative losses and contents, the stored energy grows by at
most what was charged minus what was discharged. -/
theorem C32_no_gain (hv : sys.Valid) (hs : s.Fits sys.n) (h : storageModel sys s = .ok o) (hsol : o.comp.tree.Solves σ)
    (hloss : ∀ t < sys.n, 0 ≤ s.relLoss.at t) (hc : ∀ t < sys.n, s.etaCharge.at t ≤ 1)
    (hd : ∀ t < sys.n, 0 < s.etaDischarge.at t ∧ s.etaDischarge.at t ≤ 1) (hcs : ∀ t < sys.n, 0 ≤ σ (chargeStateL s.label) t)
    (hfl : ∀ t < sys.n, 0 ≤ σ (rateL s.label s.charging.label) t ∧ 0 ≤ σ (rateL s.label s.discharging.label) t) :
    ∀ t ≤ sys.n, σ (chargeStateL s.label) t - σ (chargeStateL s.label) 0 ≤
      ∑ k ∈ Finset.range t, sys.width k * (σ (rateL s.label s.charging.label) k - σ (rateL s.label s.discharging.label) k) := by
  intro t
  induction t with
  | zero => simp
  | succ t ih =>
    intro ht
    have ih := ih (by omega)
    have ht' : t < sys.n := by omega
    have hw := hv.width_pos ht'
    obtain ⟨f1, f2⟩ := hfl t ht'
    obtain ⟨d1, d2⟩ := hd t ht'
    rw [Finset.sum_range_succ, C32_step hv hs h hsol t ht']
    have h1 : 0 ≤ σ (chargeStateL s.label) t * (s.relLoss.at t * sys.width t) := mul_nonneg (hcs t ht') (mul_nonneg (hloss t ht') hw.le)
    have h2 : σ (rateL s.label s.charging.label) t * s.etaCharge.at t * sys.width t ≤ σ (rateL s.label s.charging.label) t * sys.width t := by
      apply mul_le_mul_of_nonneg_right _ hw.le
      exact mul_le_of_le_one_right f1 (hc t ht')
    have h3 : σ (rateL s.label s.discharging.label) t * sys.width t ≤ σ (rateL s.label s.discharging.label) t * sys.width t / s.etaDischarge.at t := by
      rw [le_div_iff₀ d1]
      exact mul_le_of_le_one_right (mul_nonneg f2 hw.le) d2
    nlinarith

/-- **C32 (limits, given capacity).** -/
theorem C32_bounds_fixed (hv : sys.Valid) (hs : s.Fits sys.n) (h : storageModel sys s = .ok o) (hsol : o.comp.tree.Solves σ) {cap : ℚ}
    (hcap : s.capacity = .num cap) :
    ∀ t ≤ sys.n, s.relMinCharge.at t * cap ≤ σ (chargeStateL s.label) t ∧ σ (chargeStateL s.label) t ≤ s.relMaxCharge.at t * cap := by
  intro t ht
  have hr := storage_rows hv hs h hsol
  have a := hr.lower t (by omega)
  have b := hr.upper t (by omega)
  simp only [StorageData.absBounds, hcap, at_map hs.relMin (show t < sys.n + 1 by omega), at_map hs.relMax (show t < sys.n + 1 by omega)] at a b
  exact ⟨a, b⟩

/-- **C32 (limits, capacity from an investment).** -/
theorem C32_bounds_invest (hv : sys.Valid) (hs : s.Fits sys.n) (h : storageModel sys s = .ok o) (hsol : o.comp.tree.Solves σ) {q : InvestParams}
    (hcap : s.capacity = .invest q) :
    ∃ iv, o.invest = some iv ∧ iv.size.label = s.label ++ "__" ++ "Investment" ++ "_" ++ "size" ∧ ∀ t ≤ sys.n,
      s.relMinCharge.at t * σ iv.size.label 0 ≤ σ (chargeStateL s.label) t ∧ σ (chargeStateL s.label) t ≤ s.relMaxCharge.at t * σ iv.size.label 0 := by
  obtain ⟨o0, _, _, _, _, _, _, _, h3, h3', _, hinv, _, _, hiff⟩ := storage_iff hv hs h
  obtain ⟨_, _, hi⟩ := (hiff σ).1 hsol
  unfold storageInvest at hinv
  rw [hcap] at hinv
  obtain ⟨iv, him, hie⟩ := map_ok.1 hinv
  obtain ⟨hl, _, _, _, hr⟩ := invest_iff h3' hs.relMin hs.relMax (by simp) (by simp) him
  obtain ⟨rows, _⟩ := (hr σ).1 (hi iv hie.symm)
  refine ⟨iv, hie.symm, hl, fun t ht => ?_⟩
  have a := rows.ge rfl rfl t (by omega)
  have b := rows.le rfl t (by omega)
  rw [h3] at a b
  exact ⟨a, b⟩

/-- **C32 (net discharge).** -/
theorem C32_netto (hv : sys.Valid) (hs : s.Fits sys.n) (h : storageModel sys s = .ok o) (hsol : o.comp.tree.Solves σ) :
    ∀ t < sys.n, σ (nettoL s.label) t = σ (rateL s.label s.discharging.label) t - σ (rateL s.label s.charging.label) t :=
  (storage_rows hv hs h hsol).net

/-- **C32 (nothing else is required).**  A storage of given capacity allows exactly the flows allowed by its flow models together with
charge states that follow the balance within the limits and respect the ends. -/
theorem C32_exact (hv : sys.Valid) (hs : s.Fits sys.n) (h : storageModel sys s = .ok o) {cap : ℚ} (hcap : s.capacity = .num cap) :
    ∃ o0, compModel sys s.comp = .ok o0 ∧ ∀ σ : Assignment, o.comp.tree.Solves σ ↔ o0.tree.Solves σ ∧
      (∀ t ≤ sys.n, s.relMinCharge.at t * cap ≤ σ (chargeStateL s.label) t ∧ σ (chargeStateL s.label) t ≤ s.relMaxCharge.at t * cap) ∧
      (∀ t < sys.n, σ (nettoL s.label) t = σ (rateL s.label s.discharging.label) t - σ (rateL s.label s.charging.label) t) ∧
      (∀ t < sys.n, σ (chargeStateL s.label) (t + 1) = σ (chargeStateL s.label) t * s.keep sys t + s.gain sys σ t) ∧
      EndRows s sys.n (σ (chargeStateL s.label)) := by
  obtain ⟨o0, h0, _, _, h1, h2, _, _, h3, _, h4, hinv, _, _, hiff⟩ := storage_iff hv hs h
  refine ⟨o0, h0, fun σ => ?_⟩
  rw [hiff σ, h1, h2, show o.chargeState.label = chargeStateL s.label from h3, show o.nettoDischarge.label = nettoL s.label from h4]
  have hnone : o.invest = none := by
    unfold storageInvest at hinv; rw [hcap] at hinv; exact (Except.ok.inj hinv).symm
  have hb : ∀ t < sys.n + 1, (s.absBounds sys.cfg).1.at t = s.relMinCharge.at t * cap ∧ (s.absBounds sys.cfg).2.at t = s.relMaxCharge.at t * cap := by
    intro t ht
    simp only [StorageData.absBounds, hcap, at_map hs.relMin ht, at_map hs.relMax ht, and_self]
  refine and_congr_right fun _ => ?_
  constructor
  · rintro ⟨hr, _⟩
    refine ⟨fun t ht => ?_, hr.net, fun t ht => ?_, hr.ends⟩
    · have a := hr.lower t (by omega)
      have b := hr.upper t (by omega)
      rw [(hb t (by omega)).1] at a
      rw [(hb t (by omega)).2] at b
      exact ⟨a, b⟩
    · have := hr.step t ht
      unfold StorageData.keep StorageData.gain
      rw [this]; ring
  · rintro ⟨a, b, c, d⟩
    refine ⟨⟨fun t ht => ?_, fun t ht => ?_, b, fun t ht => ?_, d⟩, by simp [hnone]⟩
    · rw [(hb t ht).1]; exact (a t (by omega)).1
    · rw [(hb t ht).2]; exact (a t (by omega)).2
    · have := c t ht
      unfold StorageData.keep StorageData.gain at this
      show σ (chargeStateL s.label) (t + 1) = _
      rw [this]; ring

/-! ## C33: initial and final charge states -/

/-- **C33 (initial value).** -/
theorem C33_initial (hv : sys.Valid) (hs : s.Fits sys.n) (h : storageModel sys s = .ok o) (hsol : o.comp.tree.Solves σ) {x : ℚ}
    (hx : s.initial = .num x) : σ (chargeStateL s.label) 0 = x := (storage_rows hv hs h hsol).ends.start x hx

/-- **C33 (final limits)**, only if an initial charge state is given. -/
theorem C33_final_partial (hv : sys.Valid) (hs : s.Fits sys.n) (h : storageModel sys s = .ok o) (hsol : o.comp.tree.Solves σ)
    (hi : s.initial ≠ .none) :
    (∀ m, s.minFinal = some m → m ≤ σ (chargeStateL s.label) sys.n) ∧ (∀ m, s.maxFinal = some m → σ (chargeStateL s.label) sys.n ≤ m) :=
  ⟨(storage_rows hv hs h hsol).ends.minF hi, (storage_rows hv hs h hsol).ends.maxF hi⟩

/-- **C33 (`lastValueOfSim`)**: the first charge state equals that at the *start* of the last step; that at the end of the horizon then
differs from it by what happens in the last step. -/
theorem C33_last_partial (hv : sys.Valid) (hs : s.Fits sys.n) (hn : sys.n ≠ 0) (h : storageModel sys s = .ok o) (hsol : o.comp.tree.Solves σ)
    (hi : s.initial = .lastValueOfSim) :
    σ (chargeStateL s.label) 0 = σ (chargeStateL s.label) (sys.n - 1) ∧
      (σ (chargeStateL s.label) sys.n = σ (chargeStateL s.label) 0 ↔
        s.gain sys σ (sys.n - 1) = σ (chargeStateL s.label) 0 * s.relLoss.at (sys.n - 1) * sys.width (sys.n - 1)) := by
  have h1 := (storage_rows hv hs h hsol).ends.last hi
  refine ⟨h1, ?_⟩
  have := C32_step hv hs h hsol (sys.n - 1) (by omega)
  rw [Nat.sub_add_cancel (by omega), ← h1] at this
  rw [this]
  unfold StorageData.gain
  constructor <;> intro h <;> linarith

/-! ## Examples and counterexamples -/

/-- A storage with losses and a final limit. -/
def exStorage : StorageData :=
  { label := "st", charging := { label := "in", size := .num 100 }, discharging := { label := "out", size := .num 100 }, capacity := .num 60,
    initial := .num 10, minFinal := some 4, etaCharge := .s (1 / 2), etaDischarge := .v [1 / 2, 1, 1 / 2], relLoss := .s (1 / 10),
    preventSimultaneous := false }

def exStorageSol : Assignment := tableSol [("st__in_flow_rate", [22, 0, 0]), ("st__in_sumFlowHours", [22]),
  ("st__out_flow_rate", [0, 8, 2]), ("st__out_sumFlowHours", [12]), ("st_charge_state", [10, 20, 10, 0]), ("st_netto_discharge", [-22, 8, 2])]

theorem exStorage_fits : exStorage.Fits 3 := by
  constructor <;> simp [exStorage, Num.Fits, Num.isScalar, Num.len]

example : ∃ o, storageModel exSys { exStorage with minFinal := some 0, maxFinal := some 5 } = .ok o ∧ o.comp.tree.Solves exStorageSol :=
  builds_and_solves (f := fun o : StorageOut => o.comp.tree) (by decide +kernel)

/-- With an investment. -/
example : ∃ o, storageModel exSys { exStorage with minFinal := none, capacity := .invest { optional := false, maximumSize := some 50 } } = .ok o ∧
    o.comp.tree.Solves (fun l t => if l = "st__Investment_size" then 40 else exStorageSol l t) :=
  builds_and_solves (f := fun o : StorageOut => o.comp.tree) (by decide +kernel)

/-- **C33 (wrong).**  Without an initial charge state the final limits are not modelled: the storage ends empty although at least 4
are demanded. -/
theorem C33_final_wrong : ∃ o σ, storageModel exSys { exStorage with initial := .none } = .ok o ∧ o.comp.tree.Solves σ ∧
    exStorage.minFinal = some 4 ∧ σ (chargeStateL "st") exSys.n = 0 := by
  obtain ⟨o, h1, h2⟩ := builds_and_solves (σ := exStorageSol) (r := storageModel exSys { exStorage with initial := .none })
    (f := fun o : StorageOut => o.comp.tree) (by decide +kernel)
  exact ⟨o, _, h1, h2, rfl, rfl⟩

/-- **C33 (wrong).**  `lastValueOfSim` does not make the end equal to the start: 10 at the start, 0 at the end. -/
theorem C33_last_wrong : ∃ o σ, storageModel exSys { exStorage with initial := .lastValueOfSim, minFinal := none } = .ok o ∧ o.comp.tree.Solves σ ∧
    σ (chargeStateL "st") 0 = 10 ∧ σ (chargeStateL "st") exSys.n = 0 := by
  obtain ⟨o, h1, h2⟩ := builds_and_solves (σ := exStorageSol) (r := storageModel exSys { exStorage with initial := .lastValueOfSim, minFinal := none })
    (f := fun o : StorageOut => o.comp.tree) (by decide +kernel)
  exact ⟨o, _, h1, h2, rfl, rfl⟩

/-- **C64 (wrong).**  Relative limits of the charge state that vary over time (one value per step) cannot be used: they have one entry
too few, and the model is never solved. -/
theorem C64_wrong (h : storageModel sys s = .ok o) {lo : List ℚ} (hlo : s.relMinCharge = .v lo) (hlen : lo.length = sys.n)
    (σ : Assignment) : ¬ o.comp.tree.Solves σ := by
  intro hsol
  unfold storageModel at h
  peel h with o0, h0
  peel h with ab, hab
  obtain ⟨a, b⟩ := ab
  simp only at h
  peel h with c, hc
  peel h with nd, hnd
  peel h with cCharge, hcc
  peel h with inv, hinv
  peel h with cIF, hif
  simp only [except_pure, Except.ok.injEq] at h
  subst h
  have hcv := (mkVar_ok hc).1
  have hok : c.Ok σ := by
    simp only [CompOut.tree, MTree.Solves] at hsol
    exact hsol.1 c (by simp)
  have hf : c.fixedValue = none := by rw [hcv]
  obtain ⟨l', hl'⟩ : ∃ l', c.lb = some (.v l') ∧ l'.length = sys.n := by
    rw [hcv]
    simp only [StorageData.absBounds, hlo]
    cases s.capacity <;> exact ⟨_, rfl, by simpa using hlen⟩
  obtain ⟨ds, hds, _⟩ := hok
  have hcl : c.length = sys.n + 1 := by rw [hcv]
  unfold Var.translate at hds
  rw [hf, hl'.1, hcl] at hds
  have herr : asVectorOpt (some (.v l')) (sys.n + 1) = .error .exception := by
    simp [asVectorOpt, asVector, hl'.2, Except.map]
  rw [herr] at hds
  cases hds

example : ∃ o, storageModel exSys { exStorage with relMinCharge := .v [0, 1 / 10, 0] } = .ok o := builds (by decide +kernel)

end Flix
