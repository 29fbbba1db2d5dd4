import Verif.Lemmas.CompSound

/-!
# C82, the other direction: what a solution says is allowed by the declarations

Together with the theorems of `Props/Complete.lean`: the solutions of a component's model are exactly the operations that the declarations
allow (`Allows`, stated without the model).
-/

namespace Flix

variable {sys : Sys}

/-- **C82 (components without equations of their own, nothing else is a solution).** -/
theorem C82_plain_sound (hv : sys.Valid) {c : CompData} {o : CompOut} (hc : c.Proper sys) (h : compModel sys c = .ok o) {σ : Assignment} (hs : o.tree.Solves σ) :
    ∃ p : CompPlan, p.Allows sys c ∧ p.Realized c σ :=
  ⟨_, comp_sound hv hc h hs⟩

/-- **C82 (converters with conversion factors).** -/
theorem C82_factors_sound (hv : sys.Valid) {c : ConvData} {o : CompOut} (hc : c.comp.Proper sys) (h : converterModel sys c = .ok o) (hne : c.factors ≠ [])
    (hf : ∀ fs ∈ c.factors, ∀ q ∈ fs, q.2.Fits sys.n) {σ : Assignment} (hs : o.tree.Solves σ) :
    ∃ p : CompPlan, p.Allows sys c.comp ∧ (∀ fs ∈ c.factors, ∀ t < sys.n, p.side c.comp.inputs fs t = p.side c.comp.outputs fs t) ∧ p.Realized c.comp σ := by
  obtain ⟨o0, h0, hiff⟩ := C30_exact h hne hf
  obtain ⟨s0, hfac⟩ := (hiff σ).1 hs
  obtain ⟨ha, hr⟩ := comp_sound hv hc h0 s0
  refine ⟨_, ha, fun fs hfs t ht => ?_, hr⟩
  have side : ∀ l : List FlowData, (∀ f ∈ l, f ∈ c.comp.inputs ++ c.comp.outputs) → convSide σ c.comp.label l fs t = (compPlanOf c.comp σ).side l fs t := by
    intro l hl
    unfold convSide CompPlan.side
    rw [List.map_congr_left fun f hf => by rw [hr.rate f (hl f hf)]]
  rw [← side _ (fun f hf => by simp [hf]), ← side _ (fun f hf => by simp [hf])]
  exact hfac fs hfs t ht

/-- **C82 (converters with segments).** -/
theorem C82_segments_sound (hv : sys.Valid) (hn : sys.n ≠ 0) {c : ConvData} {o : CompOut} (hc : c.comp.Proper sys) (h : converterModel sys c = .ok o)
    (hne : c.factors = []) (hf : ∀ r ∈ c.segments, ∀ q ∈ r.2, q.1.Fits sys.n ∧ q.2.Fits sys.n) {σ : Assignment} (hs : o.tree.Solves σ) :
    ∃ p : CompPlan, p.Allows sys c.comp ∧ (∀ t < sys.n, (c.comp.onOff ≠ none ∧ p.on t = 0) ∨ p.OnCurve (c.comp.inputs ++ c.comp.outputs) c.segments t) ∧
      p.Realized c.comp σ := by
  obtain ⟨o0, pts, tree, h0, h1, h2, _, _, hon, _, hiff⟩ := converter_segments h hne
  obtain ⟨s0, _⟩ := (hiff σ).1 hs
  obtain ⟨ha, hr⟩ := comp_sound hv hc h0 s0
  refine ⟨_, ha, fun t ht => ?_, hr⟩
  rcases C20_converter hv hn h hne hc.fits (fun q hq => (hc.onOff q hq).1) hf hs t ht with ⟨i, ⟨u, hu0, hu1, hall⟩, _⟩ | ⟨oo, ho, h0', _⟩
  · refine .inr ⟨i, u, hu0, hu1, fun f hf r hr' => ?_⟩
    obtain ⟨segs, seg, k1, k2, k3⟩ := hall f hf
    unfold segmentsOf at k1
    rw [hr'] at k1
    cases k1
    refine ⟨seg.1, seg.2, k2, ?_⟩
    rw [← hr.rate f hf, k3]
  · left
    obtain ⟨_, _, h3, _⟩ := comp_inv h0
    rw [hon] at ho
    unfold compOnOff at h3
    cases hq : c.comp.onOff with
    | none => rw [hq, ho] at h3; cases h3
    | some q =>
      rw [hq, ho] at h3
      obtain ⟨oo', hm, he⟩ := map_ok.1 h3
      cases he
      refine ⟨by simp, ?_⟩
      have hll : oo.on.label = stateL c.comp.label := (onOff_on_length hm).2.1
      rw [hll] at h0'
      exact h0'

/-- Static conditions on the declarations of a storage. -/
structure StorageData.Proper (sys : Sys) (s : StorageData) : Prop where
  comp : s.comp.Proper sys
  fits : s.Fits sys.n
  rel : ∀ t ≤ sys.n, 0 ≤ s.relMinCharge.at t ∧ 0 ≤ s.relMaxCharge.at t
  capacity : ∀ q, s.capacity = .invest q → q.NoZero ∧ q.NonnegSizes sys.cfg ∧ q.segEffects.Nodup

/-- The plan that a solution follows for a storage. -/
def storagePlanOf (s : StorageData) (σ : Assignment) : StoragePlan where
  flows := compPlanOf s.comp σ
  content := σ (chargeStateL s.label)
  size := σ (capacityL s.label) 0
  built := match s.capacity with
    | .invest q => if q.optional then σ (builtL s.label) 0 else 1
    | _ => 1
  val := fun e => σ (segShareL s.label e) 0

theorem storage_sound (hv : sys.Valid) {s : StorageData} {o : StorageOut} (hp : s.Proper sys) (h : storageModel sys s = .ok o) {σ : Assignment}
    (hs : o.comp.tree.Solves σ) : (storagePlanOf s σ).Allows sys s ∧ (storagePlanOf s σ).flows.Realized s.comp σ := by
  obtain ⟨o0, h0, _, _, l1, l2, _, _, l3, l3', l4, hinv, _, _, hiff⟩ := storage_iff hv hp.fits h
  obtain ⟨s0, hrow, hsi⟩ := (hiff σ).1 hs
  obtain ⟨ha, hr⟩ := comp_sound hv hp.comp h0 s0
  have hcs : (storagePlanOf s σ).content = σ o.chargeState.label := by rw [l3]; rfl
  have ra : ((storagePlanOf s σ).flows.flow s.charging.label).r = σ o.charge.flowRate.label := by
    rw [l1]; exact (hr.rate s.charging (by simp [StorageData.comp])).symm
  have rb : ((storagePlanOf s σ).flows.flow s.discharging.label).r = σ o.discharge.flowRate.label := by
    rw [l2]; exact (hr.rate s.discharging (by simp [StorageData.comp])).symm
  have hbal : ∀ t < sys.n, (storagePlanOf s σ).content (t + 1) = (storagePlanOf s σ).content t * (1 - s.relLoss.at t * sys.width t) +
      (((storagePlanOf s σ).flows.flow s.charging.label).r t * s.etaCharge.at t * sys.width t -
        ((storagePlanOf s σ).flows.flow s.discharging.label).r t * sys.width t / s.etaDischarge.at t) := by
    intro t ht
    rw [hcs, ra, rb, hrow.step t ht]; ring
  refine ⟨?_, hr⟩
  cases hc : s.capacity with
  | num x =>
    have hcap : (storagePlanOf s σ).capacity s = x := by unfold StoragePlan.capacity; rw [hc]
    refine ⟨ha, fun t ht => ?_, hbal, hcs ▸ hrow.ends, hp.rel, fun q hq => by simp [hc] at hq, fun q hq => by simp [hc] at hq⟩
    have h1 := hrow.lower t (by omega)
    have h2 := hrow.upper t (by omega)
    simp only [StorageData.absBounds, hc, at_map hp.fits.relMin (show t < sys.n + 1 by omega), at_map hp.fits.relMax (show t < sys.n + 1 by omega)] at h1 h2
    rw [hcap, hcs]
    exact ⟨h1, h2⟩
  | invest q =>
    obtain ⟨hz, hnn, hnd⟩ := hp.capacity q hc
    have hcap : (storagePlanOf s σ).capacity s = (storagePlanOf s σ).size := by unfold StoragePlan.capacity; rw [hc]
    have hb : (storagePlanOf s σ).built = if q.optional then σ (builtL s.label) 0 else 1 := by unfold storagePlanOf; rw [hc]
    unfold storageInvest at hinv
    rw [hc] at hinv
    obtain ⟨iv, him, hie⟩ := map_ok.1 hinv
    obtain ⟨hsl, _, hyes, hno, hii⟩ := invest_iff l3' hp.fits.relMin hp.fits.relMax (by simp) (by simp) him
    have hit := hsi iv hie.symm
    have hir := ((hii σ).1 hit).1
    have hsl' : σ iv.size.label 0 = (storagePlanOf s σ).size := by rw [hsl]; rfl
    have hmap : (iv.isInvested.map fun i => σ i.label) = if q.optional then some (σ (builtL s.label)) else none := by
      cases hopt : q.optional with
      | true => obtain ⟨i, hi, hil, _⟩ := hyes hopt; rw [hi, if_pos rfl, Option.map_some, hil]; rfl
      | false => rw [hno hopt]; rfl
    rw [hmap, Option.map_none, investRows_iff hz hnn hv.heps, hsl', ← hcs] at hir
    obtain ⟨hdec, hcont⟩ := hir
    have hdec' : Decided sys.cfg q (storagePlanOf s σ).size (storagePlanOf s σ).built := by
      rw [hb]
      cases hopt : q.optional with
      | true => simpa [hopt] using hdec
      | false =>
        rcases hdec with ⟨h, _⟩ | ⟨_, h⟩
        · rw [hopt] at h; cases h
        · exact .inr ⟨by simp [hopt], h⟩
    have hsg := segments_sound l3' hp.fits.relMin hp.fits.relMax (by simp) (by simp) him hit
    rw [hsl', show (if q.optional then σ (investedL s.label) 0 else 1) = (storagePlanOf s σ).built by rw [hb]; rfl] at hsg
    refine ⟨ha, fun t ht => by rw [hcap]; exact hcont t (by omega), hbal, hcs ▸ hrow.ends, hp.rel, fun q' hq' => ?_, fun q' hq' ho h0 t ht => ?_⟩
    · rw [hc] at hq'; cases hq'
      exact ⟨hz, hnn, hdec', fun ho => by rw [hb, ho]; rfl, hnd, hsg⟩
    · rw [hc] at hq'; cases hq'
      have hS : (storagePlanOf s σ).size = 0 := by
        rcases hdec' with ⟨_, _, h⟩ | ⟨h, _⟩
        · exact h
        · have := h ho; rw [h0] at this; exact absurd this (by norm_num)
      have h1 := hrow.lower t (by omega)
      simp only [StorageData.absBounds, hc, at_map hp.fits.relMin (show t < sys.n + 1 by omega), minSize_eq hz] at h1
      have h2 := (hcont t (by omega)).2
      rw [hS, mul_zero, hcs] at h2
      exact le_trans h1 h2

/-- **C82 (storages).** -/
theorem C82_storage_sound (hv : sys.Valid) {s : StorageData} {o : StorageOut} (hp : s.Proper sys) (h : storageModel sys s = .ok o) {σ : Assignment}
    (hs : o.comp.tree.Solves σ) : ∃ p : StoragePlan, p.Allows sys s ∧ p.flows.Realized s.comp σ ∧ σ (chargeStateL s.label) = p.content ∧
      ∀ q, s.capacity = .invest q → σ (capacityL s.label) 0 = p.size ∧ (q.optional = true → σ (builtL s.label) 0 = p.built) ∧
        ∀ e ∈ q.segEffects, σ (segShareL s.label e) 0 = p.val e := by
  obtain ⟨h1, h2⟩ := storage_sound hv hp h hs
  refine ⟨_, h1, h2, rfl, fun q hq => ⟨rfl, fun ho => ?_, fun _ _ => rfl⟩⟩
  unfold storagePlanOf
  rw [hq]
  simp [ho]

/-! ## Transmissions -/

/-- Static conditions on the declarations of a transmission. -/
structure TransData.Proper (sys : Sys) (t : TransData) : Prop where
  plain : t.plain.Proper sys
  fits : t.Fits sys.n
  big : 0 < sys.cfg.big

theorem fill_proper {t : TransData} {f : FlowData} (hf : f.Sensible sys.cfg sys.n) (hp : f.Proper sys.n) :
    (t.fill f).Sensible sys.cfg sys.n ∧ (t.fill f).Proper sys.n := by
  rw [fill_eq]
  refine ⟨⟨hf.size, hf.low, hf.invest⟩, fun q hq => ?_, hp.2⟩
  simp only at hq
  cases ho : f.onOff with
  | some q' => rw [ho] at hq; cases hq; exact hp.1 _ ho
  | none =>
    rw [ho] at hq
    split at hq
    · cases hq
      intro m hm
      simp at hm
    · cases hq

theorem maxSize_ne {cfg : Cfg} {q : InvestParams} (hz : q.NoZero) (hbig : 0 < cfg.big) : q.maxSize cfg ≠ 0 := by
  rw [maxSize_eq hz]
  intro h0
  cases hf : q.fixedSize with
  | some v => rw [hf] at h0; exact hz.1 (by rw [hf]; exact congrArg some h0)
  | none =>
    rw [hf] at h0
    cases hx : q.maximumSize with
    | some v => rw [hx] at h0; exact hz.2 (by rw [hx]; exact congrArg some h0)
    | none => rw [hx] at h0; exact hbig.ne' h0

theorem fillIn2_proper {t : TransData} {f : FlowData} (hbig : 0 < sys.cfg.big) (h1 : t.in1.Sensible sys.cfg sys.n) (hf : f.Sensible sys.cfg sys.n) (hp : f.Proper sys.n) :
    (t.fillIn2 sys.cfg f).Sensible sys.cfg sys.n ∧ (t.fillIn2 sys.cfg f).Proper sys.n := by
  by_cases hc : (∀ q, t.in1.size ≠ .invest q) ∨ ∃ r, f.size = .invest r
  · rw [fillIn2_keep hc]; exact ⟨hf, hp⟩
  · simp only [not_or, not_forall, not_not, not_exists] at hc
    obtain ⟨⟨q, hq⟩, hr⟩ := hc
    obtain ⟨hz, hn, _⟩ := h1.invest q hq
    rw [fillIn2_new hq hr]
    refine ⟨⟨⟨fun x hx => by simp at hx, hbig.le⟩, hf.low, fun q' hq' => ?_⟩, hp.1, fun q' hq' => ?_⟩
    · cases hq'
      exact ⟨⟨by simp, by simpa using maxSize_ne hz hbig⟩, ⟨hbig.le, by simp, by simpa using maxSize_nonneg hn⟩, le_rfl⟩
    · cases hq'
      simp [InvestParams.segEffects]

/-- The plan that a solution follows for a transmission. -/
def transPlanOf (sys : Sys) (t : TransData) (σ : Assignment) : CompPlan := compPlanOf (t.comp sys.cfg) σ

theorem trans_sound (hv : sys.Valid) {t : TransData} {o : TransOut} (hp : t.Proper sys) (h : transmissionModel sys t = .ok o) {σ : Assignment} (hs : o.comp.tree.Solves σ) :
    (transPlanOf sys t σ).Transmits sys t ∧ (transPlanOf sys t σ).Realized (t.comp sys.cfg) σ := by
  have hpl := hp.plain
  have hmem : ∀ f ∈ t.flows, f ∈ t.plain.inputs ++ t.plain.outputs := by
    intro f hf
    simp only [TransData.flows, List.mem_cons, List.mem_append, Option.mem_toList] at hf
    simp only [TransData.plain, List.mem_cons, List.mem_append, Option.mem_toList]
    tauto
  have hfit : ∀ f ∈ t.flows, f.Fits sys.n := fun f hf => hpl.fits f (hmem f hf)
  have m1 : t.in1 ∈ t.flows := by simp [TransData.flows]
  have m2 : t.out1 ∈ t.flows := by simp [TransData.flows]
  have m3 : ∀ f, t.in2 = some f → f ∈ t.flows := fun f hf => by simp [TransData.flows, hf]
  have m4 : ∀ f, t.out2 = some f → f ∈ t.flows := fun f hf => by simp [TransData.flows, hf]
  have hfp : ∀ f ∈ t.flows, (t.fill f).Sensible sys.cfg sys.n ∧ (t.fill f).Proper sys.n := fun f hf =>
    fill_proper (hpl.sensible f (hmem f hf)) (hpl.proper f (hmem f hf))
  have hmap : ∀ {α : Type} (F : String → Option Num → α), ((t.comp sys.cfg).inputs ++ (t.comp sys.cfg).outputs).map (fun f => F f.label f.previousFlowRate) =
      (t.plain.inputs ++ t.plain.outputs).map fun f => F f.label f.previousFlowRate := by
    intro α F
    cases h2 : t.in2 <;> cases h3 : t.out2 <;> simp [TransData.comp, TransData.plain, h2, h3, fill_label, fillIn2_label, fill_previous, fillIn2_previous]
  have hprev : ((t.comp sys.cfg).inputs ++ (t.comp sys.cfg).outputs).filterMap (·.previousFlowRate) = (t.plain.inputs ++ t.plain.outputs).filterMap (·.previousFlowRate) := by
    have := congrArg (List.filterMap id) (hmap fun _ x => x)
    rw [List.filterMap_map, List.filterMap_map] at this
    exact this
  have heach : ∀ f ∈ (t.comp sys.cfg).inputs ++ (t.comp sys.cfg).outputs, f.Sensible sys.cfg sys.n ∧ f.Proper sys.n := by
    intro f hf
    simp only [TransData.comp, List.mem_append, List.mem_cons, Option.mem_toList, Option.map_eq_some_iff] at hf
    rcases hf with (rfl | ⟨g, hg, rfl⟩) | (rfl | ⟨g, hg, rfl⟩)
    · exact hfp _ m1
    · exact fillIn2_proper hp.big (hpl.sensible _ (hmem _ m1)) (hfp g (m3 g hg)).1 (hfp g (m3 g hg)).2
    · exact hfp _ m2
    · exact hfp _ (m4 g hg)
  have hcp : (t.comp sys.cfg).Proper sys :=
    ⟨by rw [hmap fun l _ => l]; exact hpl.labels, comp_fits hfit, fun f hf => (heach f hf).1, fun f hf => (heach f hf).2, hpl.onOff⟩
  obtain ⟨o0, h0, _, _, _, _, _, _, t2, _, t4, t4', _, _, hiff⟩ := trans_iff hp.fits h
  obtain ⟨s0, _⟩ := (hiff σ).1 hs
  obtain ⟨ha, hr⟩ := comp_sound hv hcp h0 s0
  have hrate : ∀ f ∈ t.flows, σ (rateL t.label f.label) = ((transPlanOf sys t σ).flow f.label).r := by
    intro f hf
    have : f.label ∈ ((t.comp sys.cfg).inputs ++ (t.comp sys.cfg).outputs).map (·.label) := by
      rw [hmap fun l _ => l]
      exact List.mem_map_of_mem (hmem f hf)
    obtain ⟨g, hg, e⟩ := List.mem_map.1 this
    rw [← e]
    exact hr.rate g hg
  have plain : ∀ g, t.fill g ∈ (t.comp sys.cfg).inputs ++ (t.comp sys.cfg).outputs → ((transPlanOf sys t σ).flow g.label).Allows sys (t.stated g) := by
    intro g hg
    have := ha.flows _ hg
    rw [declared_fill, fill_label] at this
    exact this
  have hsize : ∀ f, t.in2 = some f → ∀ q, t.in1.size = .invest q → ((transPlanOf sys t σ).flow f.label).s = ((transPlanOf sys t σ).flow t.in1.label).s :=
    fun f hf q hq => (C36_one_size hp.fits h hs hq hf).symm
  refine ⟨⟨?_, ?_, ?_, ?_, hsize, ?_, ⟨?_, ?_, ?_⟩, ?_, ?_⟩, hr⟩
  · exact plain _ (by simp [TransData.comp])
  · exact plain _ (by simp [TransData.comp])
  · intro f hf
    exact plain _ (by simp [TransData.comp, hf])
  · intro f hf hc
    refine plain _ ?_
    have : t.fillIn2 sys.cfg (t.fill f) ∈ (t.comp sys.cfg).inputs ++ (t.comp sys.cfg).outputs := by simp [TransData.comp, hf]
    rwa [fillIn2_keep (by rw [fill_keeps_size]; exact hc)] at this
  · intro f hf q hq hr'
    have hal := ha.flows (t.fillIn2 sys.cfg (t.fill f)) (by simp [TransData.comp, hf])
    rw [fillIn2_label, fill_label] at hal
    have he : (t.comp sys.cfg).declared (t.fillIn2 sys.cfg (t.fill f)) = { t.stated f with size := .invest { maximumSize := some (q.maxSize sys.cfg) } } := by
      rw [fillIn2_new hq (by rw [fill_keeps_size]; exact hr'), ← declared_fill sys.cfg]
      rfl
    rw [he] at hal
    have hS := hsize f hf q hq
    have hfo := hal.follows
    have hcap : (((compPlanOf (t.comp sys.cfg) σ).flow f.label).capacity sys.cfg { t.stated f with size := .invest { maximumSize := some (q.maxSize sys.cfg) } }) =
        ((transPlanOf sys t σ).flow t.in1.label).s := hS
    rw [hcap] at hfo
    have hi := hal.invests _ rfl
    refine ⟨⟨hfo.always, hfo.running, hfo.schedule, hfo.hmin, hfo.hmax, hfo.lmin, hfo.lmax⟩, hal.sensible.low, hS, ?_, ?_⟩
    · rw [← hS]
      rcases hi.decided with ⟨_, h2, h3⟩ | ⟨h1, h2⟩
      · exact .inl ⟨h3, h2⟩
      · refine .inr ⟨le_trans (le_max_left _ _) h2.1, h1 rfl⟩
    · intro g hg k hk
      rw [← hS]
      exact hi.profile g hg k hk
  · intro q hq
    rw [← hprev]
    exact ha.runs.schedule q hq
  · intro ho k hk
    have := ha.runs.state ho k hk
    rw [hmap fun l _ => ((compPlanOf (t.comp sys.cfg) σ).flow l).r k] at this
    rcases this with ⟨h1, h2⟩ | h1
    · refine .inl ⟨h1, fun f hf => ?_⟩
      have : f.label ∈ ((t.comp sys.cfg).inputs ++ (t.comp sys.cfg).outputs).map (·.label) := by
        rw [hmap fun l _ => l]
        exact List.mem_map_of_mem hf
      obtain ⟨g, hg, e⟩ := List.mem_map.1 this
      rw [← e]
      exact h2 g hg
    · exact .inr h1
  · exact ha.runs.exclusive
  · intro k hk
    rw [← hrate _ m1, ← hrate _ m2]
    exact C35_first hv hp.fits hfit h hs k hk
  · intro i o' hi ho' k hk
    obtain ⟨o2, ho2, hd⟩ := C35_second hv hp.fits hfit h hs hi
    rw [ho'] at ho2
    cases ho2
    rw [← hrate _ (m3 _ hi), ← hrate _ (m4 _ ho')]
    exact hd k hk

/-- **C82 (transmissions).** -/
theorem C82_transmission_sound (hv : sys.Valid) {t : TransData} {o : TransOut} (hp : t.Proper sys) (h : transmissionModel sys t = .ok o) {σ : Assignment}
    (hs : o.comp.tree.Solves σ) : ∃ p : CompPlan, p.Transmits sys t ∧ p.Realized (t.comp sys.cfg) σ :=
  ⟨_, trans_sound hv hp h hs⟩

/-! ### The declarations of the examples in `Props/Complete.lean` (which show solutions of them) meet the static conditions -/

theorem easy_proper {f : FlowData} (h : f.relMin = .s 0 ∧ f.relMax = .s 1 ∧ f.fixedProfile = none) (ho : f.onOff = none ∨ f.onOff = some {})
    (hs : (∃ x, f.size = .num x ∧ 0 < x) ∨ (f.size = .unset) ∨ ∃ q, f.size = .invest q ∧ q.NoZero ∧ q.NonnegSizes exSys.cfg ∧ 0 ≤ q.minimumSize ∧ q.effectsInSegments = none) :
    f.Fits exSys.n ∧ f.Sensible exSys.cfg exSys.n ∧ f.Proper exSys.n := by
  obtain ⟨h1, h2, h3⟩ := h
  refine ⟨⟨by rw [h1]; exact fits_s _ _, by rw [h2]; exact fits_s _ _, by simp [h3], ?_⟩, ⟨⟨?_, exSys_big.1.le⟩, ?_, ?_⟩, ?_, ?_⟩
  · intro q hq
    rcases ho with ho | ho
    · rw [ho] at hq; cases hq
    · rw [ho] at hq; cases hq; constructor <;> simp
  · intro x hx
    rcases hs with ⟨y, hy, h0⟩ | hy | ⟨q, hq, _⟩
    · rw [hy] at hx; cases hx; exact h0
    · rw [hy] at hx; cases hx
    · rw [hq] at hx; cases hx
  · intro t _
    simp [FlowData.lowRel, FlowData.highRel, h1, h2, h3]
  · intro q hq
    rcases hs with ⟨y, hy, h0⟩ | hy | ⟨q', hq', a, b, c, _⟩
    · rw [hy] at hq; cases hq
    · rw [hy] at hq; cases hq
    · rw [hq'] at hq; cases hq; exact ⟨a, b, c⟩
  · intro q hq
    rcases ho with ho | ho
    · rw [ho] at hq; cases hq
    · rw [ho] at hq; cases hq
      intro m hm
      simp at hm
  · intro q hq
    rcases hs with ⟨y, hy, h0⟩ | hy | ⟨q', hq', _, _, _, d⟩
    · rw [hy] at hq; cases hq
    · rw [hy] at hq; cases hq
    · rw [hq'] at hq; cases hq; simp [InvestParams.segEffects, d]

theorem free_onOff {q : OnOffParams} {m : Option ℚ} (h : some ({ onHoursTotalMin := m } : OnOffParams) = some q) : q.Fits exSys.n ∧ q.NonnegLimits exSys.n := by
  cases h
  refine ⟨by constructor <;> simp, ?_⟩
  intro m hm
  simp at hm

theorem exComp_proper : exComp.Proper exSys := by
  have key : ∀ f ∈ exComp.inputs ++ exComp.outputs, f.Fits exSys.n ∧ f.Sensible exSys.cfg exSys.n ∧ f.Proper exSys.n := by
    intro f hf
    simp only [exComp, List.cons_append, List.nil_append, List.mem_cons, List.not_mem_nil, or_false] at hf
    rcases hf with rfl | rfl <;> exact easy_proper ⟨rfl, rfl, rfl⟩ (.inl rfl) (.inl ⟨_, rfl, by norm_num⟩)
  exact ⟨by decide, fun f hf => (key f hf).1, fun f hf => (key f hf).2.1, fun f hf => (key f hf).2.2, fun q hq => free_onOff hq⟩

example : ∃ o σ p, compModel exSys exComp = .ok o ∧ o.tree.Solves σ ∧ CompPlan.Allows exSys exComp p ∧ p.Realized exComp σ := by
  obtain ⟨o, h, hh⟩ := of_okB (p := fun o : CompOut => decide o.tree.labels.Nodup) (r := compModel exSys exComp) (by decide +kernel)
  obtain ⟨τ, h1, _⟩ := C82_plain_partial exSys_valid exComp_proper.fits h exSys_big.2 (of_decide_eq_true hh) exCompPlan_allows
  obtain ⟨p, hp, hr⟩ := C82_plain_sound exSys_valid exComp_proper h h1
  exact ⟨o, τ, p, h, h1, hp, hr⟩

theorem exBoilerConv_proper : exBoilerConv.comp.Proper exSys := by
  have key : ∀ f ∈ exBoilerConv.comp.inputs ++ exBoilerConv.comp.outputs, f.Fits exSys.n ∧ f.Sensible exSys.cfg exSys.n ∧ f.Proper exSys.n := by
    intro f hf
    simp only [exBoilerConv, List.cons_append, List.nil_append, List.mem_cons, List.not_mem_nil, or_false] at hf
    rcases hf with rfl | rfl
    · exact easy_proper ⟨rfl, rfl, rfl⟩ (.inl rfl) (.inl ⟨_, rfl, by norm_num⟩)
    · exact easy_proper ⟨rfl, rfl, rfl⟩ (.inl rfl) (.inr (.inr ⟨_, rfl, by constructor <;> simp, by simp [InvestParams.NonnegSizes, exSys, exCfg], by norm_num, rfl⟩))
  exact ⟨by decide, fun f hf => (key f hf).1, fun f hf => (key f hf).2.1, fun f hf => (key f hf).2.2, fun q hq => by simp [exBoilerConv] at hq⟩

theorem exRanges_proper : exRanges.comp.Proper exSys := by
  have key : ∀ f ∈ exRanges.comp.inputs ++ exRanges.comp.outputs, f.Fits exSys.n ∧ f.Sensible exSys.cfg exSys.n ∧ f.Proper exSys.n := by
    intro f hf
    simp only [exRanges, List.cons_append, List.nil_append, List.mem_cons, List.not_mem_nil, or_false] at hf
    rcases hf with rfl | rfl <;> exact easy_proper ⟨rfl, rfl, rfl⟩ (.inl rfl) (.inl ⟨_, rfl, by norm_num⟩)
  exact ⟨by decide, fun f hf => (key f hf).1, fun f hf => (key f hf).2.1, fun f hf => (key f hf).2.2, fun q hq => free_onOff hq⟩

theorem exTankC_proper : exTankC.Proper exSys := by
  have key : ∀ f ∈ exTankC.comp.inputs ++ exTankC.comp.outputs, f.Fits exSys.n ∧ f.Sensible exSys.cfg exSys.n ∧ f.Proper exSys.n := by
    intro f hf
    simp only [StorageData.comp, exTankC, List.cons_append, List.nil_append, List.mem_cons, List.not_mem_nil, or_false] at hf
    rcases hf with rfl | rfl <;> exact easy_proper ⟨rfl, rfl, rfl⟩ (.inl rfl) (.inl ⟨_, rfl, by norm_num⟩)
  refine ⟨⟨by decide, fun f hf => (key f hf).1, fun f hf => (key f hf).2.1, fun f hf => (key f hf).2.2, fun q hq => by simp [exTankC, StorageData.comp] at hq⟩,
    exTankC_fits, fun t _ => by simp [exTankC], fun q hq => ?_⟩
  simp only [exTankC, Size.invest.injEq] at hq
  subst hq
  exact ⟨by constructor <;> simp, by simp [InvestParams.NonnegSizes, exSys, exCfg], by simp [InvestParams.segEffects]⟩

theorem exTrans_proper : exTrans.Proper exSys := by
  have key : ∀ f ∈ exTrans.plain.inputs ++ exTrans.plain.outputs, f.Fits exSys.n ∧ f.Sensible exSys.cfg exSys.n ∧ f.Proper exSys.n := by
    intro f hf
    simp only [TransData.plain, exTrans, Option.toList_some, List.cons_append, List.nil_append, List.mem_cons, List.not_mem_nil, or_false] at hf
    rcases hf with rfl | rfl | rfl | rfl
    · exact easy_proper ⟨rfl, rfl, rfl⟩ (.inl rfl) (.inr (.inr ⟨_, rfl, by constructor <;> simp, by simp [InvestParams.NonnegSizes, exSys, exCfg], by norm_num, rfl⟩))
    · exact easy_proper ⟨rfl, rfl, rfl⟩ (.inl rfl) (.inr (.inl rfl))
    · exact easy_proper ⟨rfl, rfl, rfl⟩ (.inl rfl) (.inl ⟨_, rfl, by norm_num⟩)
    · exact easy_proper ⟨rfl, rfl, rfl⟩ (.inl rfl) (.inl ⟨_, rfl, by norm_num⟩)
  exact ⟨⟨by decide, fun f hf => (key f hf).1, fun f hf => (key f hf).2.1, fun f hf => (key f hf).2.2, fun q hq => by simp [exTrans, TransData.plain] at hq⟩,
    by constructor <;> simp [exTrans, Num.Fits, Num.len, Num.isScalar, exSys], exSys_big.1⟩

end Flix
