import Verif.Props.Storage
import Verif.Props.FlowInvest

/-!
# C81: storages whose capacity is decided by the optimisation
-/

namespace Flix

variable {sys : Sys} {s : StorageData} {o : StorageOut} {σ : Assignment} {q : InvestParams}

/-- Intended meaning of a decision `d` for a size `S`: an optional investment is declined (size 0), or it is made with an allowed size. -/
def Decided (cfg : Cfg) (q : InvestParams) (S d : ℚ) : Prop :=
  (q.optional = true ∧ d = 0 ∧ S = 0) ∨
  ((q.optional = true → d = 1) ∧ SizeIn q cfg.big (if q.optional then max cfg.eps q.minimumSize else q.minimumSize) S)

/-- The rows of an investment without profile and on/off say exactly this. -/
theorem investRows_iff {cfg : Cfg} {N : Nat} {x size : Nat → ℚ} {i : Nat → ℚ} {relMin relMax : Num} (hz : q.NoZero) (hn : q.NonnegSizes cfg)
    (heps : 0 < cfg.eps) :
    InvestRows cfg q N x size (if q.optional then some i else none) none relMin relMax none ↔
      Decided cfg q (size 0) (i 0) ∧ ∀ t < N, relMin.at t * size 0 ≤ x t ∧ x t ≤ relMax.at t * size 0 := by
  have hm := maxSize_eq (cfg := cfg) hz
  have ht := truthy_eq hz
  have hm0 := maxSize_nonneg hn
  have hmm : q.fixedSize = none → q.minSize = q.minimumSize := fun hf => by simp [InvestParams.minSize, hf, pyOr]
  unfold Decided SizeIn
  constructor
  · intro h
    refine ⟨?_, fun t ht => ⟨h.ge rfl rfl t ht, h.le rfl t ht⟩⟩
    cases hopt : q.optional with
    | false =>
      right
      refine ⟨by simp, ?_⟩
      cases hf : q.fixedSize with
      | some v => exact h.fixed v hf (fun h0 => hz.1 (by rw [hf, h0])) hopt
      | none =>
        have hc : ¬ (pyTruthy q.fixedSize = true ∧ q.optional = false) := by rw [ht, hf]; simp
        have h1 := h.lower hc
        have h2 := h.upper hc
        rw [hm, hf] at h2
        rw [hopt, hmm hf] at h1
        exact ⟨by simpa using h1, h2⟩
    | true =>
      have hi : (if q.optional then some i else none) = some i := by rw [hopt]; rfl
      have hc : ¬ (pyTruthy q.fixedSize = true ∧ q.optional = false) := by rw [hopt]; simp
      have h1 := h.lower hc
      rw [hopt, if_pos rfl] at h1
      rcases h.bin i hi with hb | hb
      · left
        refine ⟨rfl, hb, ?_⟩
        cases hf : q.fixedSize with
        | some v => rw [h.optFixed i hi v hf (fun h0 => hz.1 (by rw [hf, h0])), hb, mul_zero]
        | none =>
          have h2 := h.optUpper i hi (by rw [ht, hf]; rfl)
          rw [hb, mul_zero] at h2
          exact le_antisymm h2 h1
      · right
        refine ⟨fun _ => hb, ?_⟩
        cases hf : q.fixedSize with
        | some v => show size 0 = v; rw [h.optFixed i hi v hf (fun h0 => hz.1 (by rw [hf, h0])), hb, mul_one]
        | none =>
          have h2 := h.optUpper i hi (by rw [ht, hf]; rfl)
          have h3 := h.optLower i hi (by rw [ht, hf]; rfl)
          rw [hb, mul_one] at h2 h3
          rw [hm, hf] at h2
          rw [hmm hf] at h3
          exact ⟨by simpa using h3, h2⟩
  · rintro ⟨hd, hx⟩
    have hpt : ∀ {v : ℚ}, q.fixedSize = some v → pyTruthy q.fixedSize = true := fun hf => by rw [ht, hf]; rfl
    have hpf : q.fixedSize = none → pyTruthy q.fixedSize = false := fun hf => by rw [ht, hf]; rfl
    cases hopt : q.optional with
    | false =>
      rcases hd with ⟨ho, _⟩ | ⟨_, hd⟩
      · rw [hopt] at ho; cases ho
      rw [hopt] at hd
      simp only [Bool.false_eq_true, if_false] at hd ⊢
      refine ⟨?_, ?_, ?_, by simp, by simp, by simp, by simp, by simp, fun _ t ht => (hx t ht).2, fun _ _ t ht => (hx t ht).1, by simp⟩
      · intro v hf _ _; rw [hf] at hd; exact hd
      · intro hc
        cases hf : q.fixedSize with
        | some v => exact absurd ⟨hpt hf, hopt⟩ hc
        | none => rw [hf] at hd; rw [hopt, hmm hf]; simpa using hd.1
      · intro hc
        cases hf : q.fixedSize with
        | some v => exact absurd ⟨hpt hf, hopt⟩ hc
        | none => rw [hf] at hd; rw [hm, hf]; exact hd.2
    | true =>
      rw [hopt] at hd
      simp only [true_and, forall_const, if_true] at hd ⊢
      have h0 : 0 ≤ size 0 := by
        rcases hd with ⟨_, hd⟩ | ⟨_, hd⟩
        · rw [hd]
        · cases hf : q.fixedSize with
          | some v => rw [hf] at hd; rw [show size 0 = v from hd]; exact hn.2.1 v hf
          | none => rw [hf] at hd; exact le_trans (le_trans heps.le (le_max_left _ _)) hd.1
      refine ⟨?_, ?_, ?_, ?_, ?_, ?_, ?_, by simp, fun _ t ht => (hx t ht).2, fun _ _ t ht => (hx t ht).1, by simp⟩
      · intro v _ _ ho; rw [hopt] at ho; cases ho
      · intro _; rw [hopt, if_pos rfl]; exact h0
      · intro _
        rcases hd with ⟨_, hd⟩ | ⟨_, hd⟩
        · rw [hd]; exact hm0
        · cases hf : q.fixedSize with
          | some v => rw [hf] at hd; rw [show size 0 = v from hd, hm, hf]; rfl
          | none => rw [hf] at hd; rw [hm, hf]; exact hd.2
      · rintro _ ⟨⟩
        rcases hd with ⟨hd, _⟩ | ⟨hd, _⟩
        · exact .inl hd
        · exact .inr hd
      · rintro _ ⟨⟩ v hf _
        rcases hd with ⟨hd, hS⟩ | ⟨hd, hS⟩
        · rw [hd, hS, mul_zero]
        · rw [hf] at hS; rw [hd, mul_one]; exact hS
      · rintro _ ⟨⟩ hc
        rcases hd with ⟨hd, hS⟩ | ⟨hd, hS⟩
        · rw [hd, hS, mul_zero]
        · cases hf : q.fixedSize with
          | some v => rw [hpt hf] at hc; cases hc
          | none => rw [hf] at hS; rw [hd, mul_one, hm, hf]; exact hS.2
      · rintro _ ⟨⟩ hc
        rcases hd with ⟨hd, hS⟩ | ⟨hd, hS⟩
        · rw [hd, hS, mul_zero]
        · cases hf : q.fixedSize with
          | some v => rw [hpt hf] at hc; cases hc
          | none => rw [hf] at hS; rw [hd, mul_one, hmm hf]; exact hS.1

def capacityL (storage : String) : String := storage ++ "__" ++ "Investment" ++ "_" ++ "size"
def builtL (storage : String) : String := storage ++ "__" ++ "Investment" ++ "_" ++ "isInvested"

/-- **C81 (exactly, with the additional condition of the code).**  A storage whose capacity is decided allows exactly: the flows of its flow models, a declined or an allowed
capacity, a content between the relative limits times the capacity that is built, the balance and the conditions at the ends; and it can
be declined only if the smallest capacity does not force a content.  (Effects in segments are treated separately, C19.) -/
theorem C81_exact_partial (hv : sys.Valid) (hs : s.Fits sys.n) (h : storageModel sys s = .ok o) (hcap : s.capacity = .invest q) (hz : q.NoZero)
    (hn : q.NonnegSizes sys.cfg) (hseg : q.effectsInSegments = none)
    (hrel : ∀ t ≤ sys.n, 0 ≤ s.relMinCharge.at t ∧ 0 ≤ s.relMaxCharge.at t) :
    ∃ o0, compModel sys s.comp = .ok o0 ∧ ∀ σ : Assignment, o.comp.tree.Solves σ ↔ o0.tree.Solves σ ∧
      Decided sys.cfg q (σ (capacityL s.label) 0) (σ (builtL s.label) 0) ∧
      (q.optional = true → σ (builtL s.label) 0 = 0 → ∀ t ≤ sys.n, s.relMinCharge.at t * q.fixedSize.getD q.minimumSize ≤ 0) ∧
      (∀ t ≤ sys.n, s.relMinCharge.at t * σ (capacityL s.label) 0 ≤ σ (chargeStateL s.label) t ∧
        σ (chargeStateL s.label) t ≤ s.relMaxCharge.at t * σ (capacityL s.label) 0) ∧
      (∀ t < sys.n, σ (nettoL s.label) t = σ (rateL s.label s.discharging.label) t - σ (rateL s.label s.charging.label) t) ∧
      (∀ t < sys.n, σ (chargeStateL s.label) (t + 1) = σ (chargeStateL s.label) t * s.keep sys t + s.gain sys σ t) ∧
      EndRows s sys.n (σ (chargeStateL s.label)) := by
  obtain ⟨o0, h0, _, _, h1, h2, _, _, h3, h3', h4, hinv, _, _, hiff⟩ := storage_iff hv hs h
  refine ⟨o0, h0, fun σ => ?_⟩
  rw [hiff σ, h1, h2, show o.chargeState.label = chargeStateL s.label from h3, show o.nettoDischarge.label = nettoL s.label from h4]
  refine and_congr_right fun _ => ?_
  unfold storageInvest at hinv
  rw [hcap] at hinv
  obtain ⟨iv, him, hie⟩ := map_ok.1 hinv
  obtain ⟨hl, _, hyes, hno, hr⟩ := invest_iff h3' hs.relMin hs.relMax (by simp) (by simp) him
  have hsubs : iv.subs = [] := by
    obtain ⟨_, _, _, _, _, _, _, _, _, _, _, hsg, _⟩ := invest_inv him
    unfold investSegments at hsg
    rw [hseg] at hsg
    simp only [Except.ok.injEq, Prod.mk.injEq] at hsg
    exact hsg.1.symm
  have hmap : (iv.isInvested.map fun i => σ i.label) = if q.optional then some (σ (builtL s.label)) else none := by
    cases hopt : q.optional with
    | true => obtain ⟨i, hi, hil, _⟩ := hyes hopt; rw [hi, if_pos rfl, Option.map_some, hil]; rfl
    | false => rw [hno hopt]; rfl
  have hinvs : (∀ iv, o.invest = some iv → iv.tree.Solves σ) ↔
      Decided sys.cfg q (σ (capacityL s.label) 0) (σ (builtL s.label) 0) ∧
      ∀ t < sys.n + 1, s.relMinCharge.at t * σ (capacityL s.label) 0 ≤ σ (chargeStateL s.label) t ∧
        σ (chargeStateL s.label) t ≤ s.relMaxCharge.at t * σ (capacityL s.label) 0 := by
    rw [← hie]
    simp only [Option.some.injEq, forall_eq']
    rw [hr σ, hmap, hsubs, hl, show o.chargeState.label = chargeStateL s.label from h3, Option.map_none,
      show s.label ++ "__" ++ "Investment" ++ "_" ++ "size" = capacityL s.label from rfl, investRows_iff hz hn hv.heps]
    simp only [MTree.SolvesAll, and_true]
  rw [hinvs]
  have hm := maxSize_eq (cfg := sys.cfg) hz
  have hm0 := maxSize_nonneg hn
  have hmin : q.minSize = q.fixedSize.getD q.minimumSize := by
    unfold InvestParams.minSize
    cases hf : q.fixedSize with
    | none => simp [pyOr]
    | some v =>
      have : v ≠ 0 := fun h0 => hz.1 (by rw [hf, h0])
      simp [pyOr, this]
  have hb : ∀ t < sys.n + 1, (s.absBounds sys.cfg).1.at t = s.relMinCharge.at t * q.fixedSize.getD q.minimumSize ∧
      (s.absBounds sys.cfg).2.at t = s.relMaxCharge.at t * q.fixedSize.getD (q.maximumSize.getD sys.cfg.big) := by
    intro t ht
    simp only [StorageData.absBounds, hcap, at_map hs.relMin ht, at_map hs.relMax ht, hmin, hm, and_self]
  rw [hm] at hm0
  constructor
  · rintro ⟨hrow, hd, hc⟩
    refine ⟨hd, ?_, fun t ht => hc t (by omega), hrow.net, fun t ht => ?_, hrow.ends⟩
    · intro hopt hd0 t ht
      have hS : σ (capacityL s.label) 0 = 0 := by
        rcases hd with ⟨_, _, hS⟩ | ⟨hd1, _⟩
        · exact hS
        · rw [hd1 hopt] at hd0; norm_num at hd0
      have a := hrow.lower t (by omega)
      have b := (hc t (by omega)).2
      rw [(hb t (by omega)).1] at a
      rw [hS, mul_zero] at b
      linarith
    · have := hrow.step t ht
      unfold StorageData.keep StorageData.gain
      rw [this]; ring
  · rintro ⟨hd, hdec, hc, hnet, hstep, hends⟩
    refine ⟨⟨fun t ht => ?_, fun t ht => ?_, hnet, fun t ht => ?_, hends⟩, hd, fun t ht => hc t (by omega)⟩
    · rw [(hb t ht).1]
      obtain ⟨hr1, hr2⟩ := hrel t (by omega)
      obtain ⟨c1, c2⟩ := hc t (by omega)
      rcases hd with ⟨hopt, hd0, hS⟩ | ⟨_, hsz⟩
      · rw [hS] at c1
        have := hdec hopt hd0 t (by omega)
        linarith
      · have : q.fixedSize.getD q.minimumSize ≤ σ (capacityL s.label) 0 := by
          unfold SizeIn at hsz
          cases hf : q.fixedSize with
          | some v => rw [hf] at hsz; rw [show σ (capacityL s.label) 0 = v from hsz]; rfl
          | none =>
            rw [hf] at hsz
            refine le_trans ?_ hsz.1
            show q.minimumSize ≤ _
            split
            · exact le_max_right _ _
            · exact le_rfl
        exact le_trans (mul_le_mul_of_nonneg_left this hr1) c1
    · rw [(hb t ht).2]
      obtain ⟨hr1, hr2⟩ := hrel t (by omega)
      obtain ⟨c1, c2⟩ := hc t (by omega)
      refine le_trans c2 (mul_le_mul_of_nonneg_left ?_ hr2)
      rcases hd with ⟨hopt, hd0, hS⟩ | ⟨_, hsz⟩
      · rw [hS]; exact hm0
      · unfold SizeIn at hsz
        cases hf : q.fixedSize with
        | some v => rw [hf] at hsz; rw [show σ (capacityL s.label) 0 = v from hsz]; rfl
        | none => rw [hf] at hsz; exact hsz.2
    · have := hstep t ht
      unfold StorageData.keep StorageData.gain at this
      show σ (chargeStateL s.label) (t + 1) = _
      rw [this]; ring

/-- **C81 fails** for the code: an optional storage with a smallest capacity and a relative minimum in any step can not be declined. -/
theorem C81_forced (hv : sys.Valid) (hs : s.Fits sys.n) (h : storageModel sys s = .ok o) (hcap : s.capacity = .invest q) (hz : q.NoZero)
    {t : Nat} (ht : t ≤ sys.n) (hlow : 0 < s.relMinCharge.at t * q.fixedSize.getD q.minimumSize) (hσ : o.comp.tree.Solves σ) :
    σ (capacityL s.label) 0 ≠ 0 := by
  intro hS
  obtain ⟨iv, _, hl, hb⟩ := C32_bounds_invest hv hs h hσ hcap
  have b := (hb t ht).2
  rw [show iv.size.label = capacityL s.label from hl, hS, mul_zero] at b
  have a := (storage_rows hv hs h hσ).lower t (by omega)
  have hmin : q.minSize = q.fixedSize.getD q.minimumSize := by
    unfold InvestParams.minSize
    cases hf : q.fixedSize with
    | none => simp [pyOr]
    | some v =>
      have : v ≠ 0 := fun h0 => hz.1 (by rw [hf, h0])
      simp [pyOr, this]
  simp only [StorageData.absBounds, hcap, at_map hs.relMin (show t < sys.n + 1 by omega), hmin] at a
  linarith

/-- An optional investment of 10 to 100. -/
def exForcedPlan : InvestParams := { minimumSize := 10, maximumSize := some 100, optional := true }

/-- A storage of this kind that always holds at least a tenth of its capacity. -/
def exForcedStore : StorageData :=
  { label := "st", charging := { label := "in", size := .num 100 }, discharging := { label := "out", size := .num 100 },
    capacity := .invest exForcedPlan, relMinCharge := .s (1 / 10), initial := .none,
    preventSimultaneous := false }

theorem exForcedStore_capacity : exForcedStore.capacity = .invest exForcedPlan := rfl

theorem exForcedStore_fits : exForcedStore.Fits 3 := by
  constructor <;> simp [exForcedStore, Num.Fits, Num.isScalar, Num.len]

/-- **C81 fails**: a concrete storage that must be built although it is optional. -/
theorem C81_wrong : ∃ o, storageModel exSys exForcedStore = .ok o ∧ (∃ σ, o.comp.tree.Solves σ) ∧
    ∀ σ : Assignment, o.comp.tree.Solves σ → σ (capacityL exForcedStore.label) 0 ≠ 0 := by
  obtain ⟨o, ho, hσ0⟩ : ∃ o, storageModel exSys exForcedStore = .ok o ∧ o.comp.tree.Solves
      (tableSol [("st__Investment_size", [50]), ("st__Investment_isInvested", [1]), ("st_charge_state", [5, 5, 5, 5])]) :=
    builds_and_solves (f := fun o : StorageOut => o.comp.tree) (by decide +kernel)
  refine ⟨o, ho, ⟨_, hσ0⟩, fun σ hσ => ?_⟩
  have hlow : 0 < exForcedStore.relMinCharge.at 0 * (exForcedPlan.fixedSize.getD exForcedPlan.minimumSize) := by
    norm_num [exForcedStore, exForcedPlan, Num.at]
  have hz : exForcedPlan.NoZero := ⟨by simp [exForcedPlan], by simp [exForcedPlan]⟩
  exact C81_forced exSys_valid exForcedStore_fits ho exForcedStore_capacity hz (Nat.zero_le _) hlow hσ

/-- An optional storage that can be declined. -/
def exFreeStore : StorageData := { exForcedStore with relMinCharge := .s 0 }

theorem exFreeStore_fits : exFreeStore.Fits 3 := by
  constructor <;> simp [exFreeStore, exForcedStore, Num.Fits, Num.isScalar, Num.len]

example : ∃ o, storageModel exSys exFreeStore = .ok o ∧ o.comp.tree.Solves (tableSol []) :=
  builds_and_solves (f := fun o : StorageOut => o.comp.tree) (by decide +kernel)
example {o : StorageOut} (h : storageModel exSys exFreeStore = .ok o) :=
  C81_exact_partial exSys_valid exFreeStore_fits h exForcedStore_capacity ⟨by simp [exForcedPlan], by simp [exForcedPlan]⟩
    ⟨by norm_num [exSys, exCfg], by simp [exForcedPlan], by simp [exForcedPlan]⟩ rfl (fun t _ => by norm_num [exFreeStore, exForcedStore, Num.at])

end Flix
