import Verif.Lemmas.RefineComp

/-! # From a finer grid back: the mean over the parts of a step -/

namespace Flix

variable {φ s : Nat → Nat} {sys fine : Sys}

/-- The mean over the parts of step `t`. -/
def meanOver (s : Nat → Nat) (sys fine : Sys) (g : Nat → ℚ) (t : Nat) : ℚ := (∑ j ∈ Finset.Ico (s t) (s (t + 1)), fine.width j * g j) / sys.width t

theorem mean_mul (hv : sys.Valid) (g : Nat → ℚ) {t : Nat} (ht : t < sys.n) :
    sys.width t * meanOver s sys fine g t = ∑ j ∈ Finset.Ico (s t) (s (t + 1)), fine.width j * g j := by
  have hw := hv.width_pos ht
  unfold meanOver
  field_simp

/-- A value for the whole step, summed over its parts. -/
theorem sum_parts (h : Finer φ s sys fine) (x : ℚ) {t : Nat} (ht : t < sys.n) : ∑ j ∈ Finset.Ico (s t) (s (t + 1)), fine.width j * x = sys.width t * x := by
  rw [← Finset.sum_mul]
  exact congrArg (· * x) (h.width t ht)

theorem mean_between (h : Finer φ s sys fine) (hv : sys.Valid) (hvf : fine.Valid) {g : Nat → ℚ} {a b : ℚ} {t : Nat} (ht : t < sys.n)
    (hg : ∀ j, s t ≤ j → j < s (t + 1) → a ≤ g j ∧ g j ≤ b) : a ≤ meanOver s sys fine g t ∧ meanOver s sys fine g t ≤ b := by
  have hw := hv.width_pos ht
  have e := mean_mul (s := s) (fine := fine) hv g ht
  have pos : ∀ j ∈ Finset.Ico (s t) (s (t + 1)), 0 ≤ fine.width j := fun j hj => (hvf.width_pos (h.inside ht (Finset.mem_Ico.1 hj).2)).le
  constructor
  · refine le_of_mul_le_mul_left ?_ hw
    rw [e, ← sum_parts h a ht]
    exact Finset.sum_le_sum fun j hj => mul_le_mul_of_nonneg_left (hg j (Finset.mem_Ico.1 hj).1 (Finset.mem_Ico.1 hj).2).1 (pos j hj)
  · refine le_of_mul_le_mul_left ?_ hw
    rw [e, ← sum_parts h b ht]
    exact Finset.sum_le_sum fun j hj => mul_le_mul_of_nonneg_left (hg j (Finset.mem_Ico.1 hj).1 (Finset.mem_Ico.1 hj).2).2 (pos j hj)

theorem mean_const (h : Finer φ s sys fine) (hv : sys.Valid) (hvf : fine.Valid) {g : Nat → ℚ} {a : ℚ} {t : Nat} (ht : t < sys.n)
    (hg : ∀ j, s t ≤ j → j < s (t + 1) → g j = a) : meanOver s sys fine g t = a := by
  obtain ⟨h1, h2⟩ := mean_between h hv hvf ht (fun j j1 j2 => ⟨(hg j j1 j2).ge, (hg j j1 j2).le⟩)
  exact le_antisymm h2 h1

theorem mean_congr {g g' : Nat → ℚ} {t : Nat} (hg : ∀ j, s t ≤ j → j < s (t + 1) → g j = g' j) : meanOver s sys fine g t = meanOver s sys fine g' t := by
  unfold meanOver
  congr 1
  exact Finset.sum_congr rfl fun j hj => by rw [hg j (Finset.mem_Ico.1 hj).1 (Finset.mem_Ico.1 hj).2]

theorem mean_add (g g' : Nat → ℚ) (t : Nat) : meanOver s sys fine (fun j => g j + g' j) t = meanOver s sys fine g t + meanOver s sys fine g' t := by
  unfold meanOver
  rw [← add_div, ← Finset.sum_add_distrib]
  congr 1
  exact Finset.sum_congr rfl fun j _ => by ring

theorem mean_scale (x : ℚ) (g : Nat → ℚ) (t : Nat) : meanOver s sys fine (fun j => x * g j) t = x * meanOver s sys fine g t := by
  unfold meanOver
  rw [mul_div_assoc', Finset.mul_sum]
  congr 1
  exact Finset.sum_congr rfl fun j _ => by ring

theorem mean_sum {α : Type} (l : List α) (k : α → ℚ) (g : α → Nat → ℚ) (t : Nat) :
    (l.map fun a => k a * meanOver s sys fine (g a) t).sum = meanOver s sys fine (fun j => (l.map fun a => k a * g a j).sum) t := by
  induction l with
  | nil => simp [meanOver]
  | cons a l ih =>
    simp only [List.map_cons, List.sum_cons]
    rw [mean_add, mean_scale, ih]

/-- What is summed over the finer grid. -/
theorem mean_total (h : Finer φ s sys fine) (hv : sys.Valid) (k g : Nat → ℚ) :
    ∑ t ∈ Finset.range sys.n, k t * (sys.width t * meanOver s sys fine g t) = ∑ j ∈ Finset.range fine.n, k (φ j) * (fine.width j * g j) := by
  rw [h.sum_all]
  refine Finset.sum_congr rfl fun t ht => ?_
  have ht := Finset.mem_range.1 ht
  rw [mean_mul hv g ht, Finset.mul_sum]
  refine Finset.sum_congr rfl fun j hj => ?_
  rw [h.part t ht j (Finset.mem_Ico.1 hj).1 (Finset.mem_Ico.1 hj).2]

def FlowPlan.mean (s : Nat → Nat) (sys fine : Sys) (p : FlowPlan) : FlowPlan where
  r := meanOver s sys fine p.r
  b := p.b
  s := p.s
  d := p.d
  val := p.val

def CompPlan.mean (s : Nat → Nat) (sys fine : Sys) (p : CompPlan) : CompPlan where
  flow l := (p.flow l).mean s sys fine
  on := p.on

theorem flow_mean (h : Finer φ s sys fine) (hv : sys.Valid) (hvf : fine.Valid) {f : FlowData} (hf : f.Fits sys.n) (hs : f.Sensible sys.cfg sys.n) (ho : f.onOff = none)
    {p : FlowPlan} (hp : p.Allows fine (f.spread fine.n φ)) : (p.mean s sys fine).Allows sys f := by
  have cap : p.capacity fine.cfg (f.spread fine.n φ) = (p.mean s sys fine).capacity sys.cfg f := by
    rw [h.cfg]
    exact capacity_spread f fine.n (p.mean s sys fine) p rfl sys.cfg
  have fol := hp.follows
  rw [cap] at fol
  have sum : ∑ t ∈ Finset.range sys.n, sys.width t * (p.mean s sys fine).r t = ∑ j ∈ Finset.range fine.n, fine.width j * p.r j := by
    have := mean_total h hv (fun _ => 1) p.r
    simp only [one_mul] at this
    exact this
  have low : ∀ t < sys.n, ∀ j, s t ≤ j → j < s (t + 1) → (f.spread fine.n φ).lowRel j = f.lowRel t ∧ (f.spread fine.n φ).highRel j = f.highRel t := by
    intro t ht j h1 h2
    have := low_spread h hf (h.inside ht h2)
    rwa [h.part t ht j h1 h2] at this
  have ho' : (f.spread fine.n φ).onOff = none := by simp [FlowData.spread, ho]
  refine ⟨hs, ⟨fun _ t ht => ?_, fun h0 => absurd ho h0, fun q hq => ?_, fun m hm => ?_, fun m hm => ?_, fun m hm => ?_, fun m hm => ?_⟩, fun q hq => ?_⟩
  · refine mean_between h hv hvf ht fun j h1 h2 => ?_
    have := fol.always ho' j (h.inside ht h2)
    rwa [(low t ht j h1 h2).1, (low t ht j h1 h2).2] at this
  · rw [ho] at hq; cases hq
  · rw [sum]; exact fol.hmin m hm
  · rw [sum]; exact fol.hmax m hm
  · have := fol.lmin m hm
    rw [h.total hv hvf] at this
    rw [sum]; exact this
  · have := fol.lmax m hm
    rw [h.total hv hvf] at this
    rw [sum]; exact this
  · have hi := hp.invests q hq
    refine ⟨by have := hi.decided; rw [h.cfg] at this; exact this, hi.mandatory, hi.segments, fun h1 h2 _ t ht => ?_, fun g hg t ht => ?_⟩
    · have := hi.declined h1 h2 ho' (s t) (h.first ht).2
      rwa [(low t ht (s t) le_rfl (h.more t ht)).1] at this
    · refine mean_const h hv hvf ht fun j h1 h2 => ?_
      have := hi.profile (g.spread fine.n φ) (by simp [FlowData.spread, hg]) j (h.inside ht h2)
      rw [at_spread h (hf.prof g hg) (h.inside ht h2), h.part t ht j h1 h2] at this
      exact this

theorem runs_mean {c : CompData} (ho : c.onOff = none) (hpv : c.prevent = []) (p : CompPlan) : p.Runs sys c :=
  ⟨(fun q hq => by rw [ho] at hq; cases hq), fun h => absurd ho h, fun t _ => by rw [hpv]; exact List.Pairwise.nil⟩

theorem declared_plain {c : CompData} (ho : c.onOff = none) (hpv : c.prevent = []) {f : FlowData} (hf : f.onOff = none) : c.declared f = f := by
  have e : (f.onOff <|> if c.onOff.isSome ∨ f.label ∈ c.prevent then some ({} : OnOffParams) else none) = f.onOff := by
    rw [hf, ho, hpv]
    simp
  unfold CompData.declared
  rw [e]

theorem comp_mean (h : Finer φ s sys fine) (hv : sys.Valid) (hvf : fine.Valid) {c : CompData} (hc : c.Proper sys) (hf : ∀ f ∈ c.inputs ++ c.outputs, f.onOff = none)
    (ho : c.onOff = none) (hpv : c.prevent = []) {p : CompPlan} (hp : p.Allows fine (c.spread fine.n φ)) : (p.mean s sys fine).Allows sys c := by
  refine ⟨fun f hfm => ?_, runs_mean ho hpv _⟩
  have hp' := hp.flows (f.spread fine.n φ) (by rw [spread_flows]; exact List.mem_map.2 ⟨f, hfm, rfl⟩)
  rw [declared_spread, declared_plain ho hpv (hf f hfm)] at hp'
  rw [declared_plain ho hpv (hf f hfm)]
  exact flow_mean h hv hvf (hc.fits f hfm) (hc.sensible f hfm) (hf f hfm) hp'

theorem side_mean (h : Finer φ s sys fine) {fs : Factors} (hf : ∀ q ∈ fs, q.2.Fits sys.n) {p : CompPlan} (l : List FlowData) {t : Nat} (ht : t < sys.n) :
    (p.mean s sys fine).side l fs t = meanOver s sys fine (p.side (l.map (·.spread fine.n φ)) (fs.map fun q => (q.1, q.2.spread fine.n φ))) t := by
  have e : (p.mean s sys fine).side l fs t = (l.map fun f => factorIn fs f.label t * meanOver s sys fine (p.flow f.label).r t).sum := rfl
  rw [e, mean_sum]
  refine mean_congr fun j h1 h2 => ?_
  unfold CompPlan.side
  rw [List.map_map]
  refine congrArg List.sum (List.map_congr_left fun f _ => ?_)
  show _ = factorIn (fs.map fun q => (q.1, q.2.spread fine.n φ)) f.label j * _
  rw [factor_spread h hf (h.inside ht h2), h.part t ht j h1 h2]
  rfl

def StoragePlan.mean (s : Nat → Nat) (sys fine : Sys) (p : StoragePlan) : StoragePlan where
  flows := p.flows.mean s sys fine
  content t := p.content (s t)
  size := p.size
  built := p.built
  val := p.val

theorem climb {c g : Nat → ℚ} {a : Nat} : ∀ d, (∀ j, a ≤ j → j < a + d → c (j + 1) = c j + g j) → c (a + d) = c a + ∑ j ∈ Finset.Ico a (a + d), g j
  | 0, _ => by simp
  | d + 1, h => by
    rw [show a + (d + 1) = a + d + 1 from rfl, h (a + d) (by omega) (by omega), climb d fun j h1 h2 => h j h1 (by omega), Finset.sum_Ico_succ_top (by omega)]
    ring

theorem storage_mean (h : Finer φ s sys fine) (hv : sys.Valid) (hvf : fine.Valid) {x : StorageData} (hx : x.Proper sys)
    (hsc : x.relMinCharge.isScalar = true ∧ x.relMaxCharge.isScalar = true) (hl : x.initial ≠ .lastValueOfSim) (hloss : ∀ t < sys.n, x.relLoss.at t = 0)
    (hcv : x.charging.onOff = none ∧ x.discharging.onOff = none ∧ x.preventSimultaneous = false) {p : StoragePlan}
    (hp : p.Allows fine (x.spread fine.n φ)) : (p.mean s sys fine).Allows sys x := by
  have cap : (p.mean s sys fine).capacity x = p.capacity (x.spread fine.n φ) := rfl
  have le : ∀ t ≤ sys.n, s t ≤ fine.n := fun t ht => by rw [← h.last]; exact h.le ht le_rfl
  refine ⟨comp_mean h hv hvf hx.comp (by
      intro f hf
      simp only [StorageData.comp, List.cons_append, List.nil_append, List.mem_cons, List.not_mem_nil, or_false] at hf
      rcases hf with rfl | rfl
      · exact hcv.1
      · exact hcv.2.1) rfl (by simp [StorageData.comp, hcv.2.2]) hp.flows, fun t ht => ?_, fun t ht => ?_,
    ⟨fun v hv' => ?_, fun hl' => absurd hl' hl, fun h1 m hm => ?_, fun h1 m hm => ?_⟩, hx.rel, ?_, fun q hq h1 h2 t _ => ?_⟩
  · rw [cap]
    have := hp.content (s t) (le t ht)
    rw [show (x.spread fine.n φ).relMinCharge = x.relMinCharge from rfl, show (x.spread fine.n φ).relMaxCharge = x.relMaxCharge from rfl, scalar_at hsc.1 (s t) t, scalar_at hsc.2 (s t) t] at this
    exact this
  · have step : ∀ j, s t ≤ j → j < s (t + 1) → p.content (j + 1) = p.content j +
        (x.etaCharge.at t * (fine.width j * (p.flows.flow x.charging.label).r j) - (x.etaDischarge.at t)⁻¹ * (fine.width j * (p.flows.flow x.discharging.label).r j)) := by
      intro j h1 h2
      have hj := h.inside ht h2
      have bal := hp.balance j hj
      rw [show (x.spread fine.n φ).relLoss = x.relLoss.spread fine.n φ from rfl, show (x.spread fine.n φ).etaCharge = x.etaCharge.spread fine.n φ from rfl,
        show (x.spread fine.n φ).etaDischarge = x.etaDischarge.spread fine.n φ from rfl,
        at_spread h hx.fits.loss hj, at_spread h hx.fits.etaC hj, at_spread h hx.fits.etaD hj, h.part t ht j h1 h2, hloss t ht] at bal
      rw [bal]
      show _ + ((p.flows.flow x.charging.label).r j * _ * _ - (p.flows.flow x.discharging.label).r j * _ / _) = _
      ring
    obtain ⟨d, hd⟩ := Nat.exists_eq_add_of_le (h.more t ht).le
    have sum := climb (a := s t) d (by rw [← hd]; exact step)
    rw [← hd, Finset.sum_sub_distrib, ← Finset.mul_sum, ← Finset.mul_sum, ← mean_mul hv _ ht, ← mean_mul hv _ ht] at sum
    show p.content (s (t + 1)) = p.content (s t) * (1 - x.relLoss.at t * sys.width t) + (meanOver s sys fine (p.flows.flow x.charging.label).r t * _ * _ -
      meanOver s sys fine (p.flows.flow x.discharging.label).r t * _ / _)
    rw [hloss t ht, sum]
    ring
  · show p.content (s 0) = v
    rw [h.zero]
    exact hp.ends.start v hv'
  · show p.content (s sys.n) ≤ m
    rw [h.last]
    exact hp.ends.maxF h1 m hm
  · show m ≤ p.content (s sys.n)
    rw [h.last]
    exact hp.ends.minF h1 m hm
  · have := hp.decided
    rw [h.cfg] at this
    exact this
  · have := hp.declined q hq h1 h2 0 (by omega)
    rw [show (x.spread fine.n φ).relMinCharge = x.relMinCharge from rfl, scalar_at hsc.1 0 t] at this
    exact this

theorem delivers_mean (h : Finer φ s sys fine) {t : TransData} (hf : t.Fits sys.n) (ha : t.absLosses = none) {u v : Nat → ℚ}
    (hd : (t.spread fine.n φ).Delivers fine.n u v) : t.Delivers sys.n (meanOver s sys fine u) (meanOver s sys fine v) := by
  intro k hk
  have za : t.absAt k = 0 := by simp [TransData.absAt, ha]
  have each : ∀ j, s k ≤ j → j < s (k + 1) → v j = (1 - t.relAt k) * u j := by
    intro j h1 h2
    have hj := h.inside hk h2
    have := hd j hj
    rw [(losses_spread_at h hf hj).1, (losses_spread_at h hf hj).2, h.part k hk j h1 h2, za] at this
    rcases this with ⟨a, b⟩ | ⟨_, b⟩
    · rw [a, b]; ring
    · rw [b]; ring
  have e : meanOver s sys fine v k = (1 - t.relAt k) * meanOver s sys fine u k := by
    rw [← mean_scale]
    exact mean_congr each
  by_cases hz : meanOver s sys fine u k = 0
  · exact .inl ⟨hz, by rw [e, hz]; ring⟩
  · exact .inr ⟨hz, by rw [e, za]; ring⟩

theorem trans_mean (h : Finer φ s sys fine) (hv : sys.Valid) (hvf : fine.Valid) {t : TransData} (hp : t.Proper sys)
    (hl : ∀ f ∈ t.in1 :: t.out1 :: (t.in2.toList ++ t.out2.toList), ∀ q, f.size ≠ .invest q)
    (hcv : (∀ f ∈ t.in1 :: t.out1 :: (t.in2.toList ++ t.out2.toList), f.onOff = none) ∧ t.onOff = none ∧ (t.in2 = none ∨ t.preventBoth = false) ∧ t.absLosses = none)
    {p : CompPlan} (ha : p.Transmits fine (t.spread fine.n φ)) : (p.mean s sys fine).Transmits sys t := by
  obtain ⟨c1, c2, c3, c4⟩ := hcv
  have no : ∀ q, t.in1.size ≠ .invest q := hl _ (by simp)
  have hpv : t.plain.prevent = [] := by
    unfold TransData.plain
    rcases c3 with c | c
    · simp [c]
    · cases hi : t.in2 <;> simp [c]
  have st : ∀ f ∈ t.in1 :: t.out1 :: (t.in2.toList ++ t.out2.toList), t.stated f = f := by
    intro f hf
    have e : ({ f with onOff := f.onOff <|> if t.absLosses.any Num.anyNonzero then some ({} : OnOffParams) else none } : FlowData) = f := by
      have e : (f.onOff <|> if t.absLosses.any Num.anyNonzero then some ({} : OnOffParams) else none) = f.onOff := by
        rw [c4, c1 f hf]
        rfl
      rw [e]
    unfold TransData.stated
    rw [e]
    exact declared_plain c2 hpv (c1 f hf)
  have each : ∀ f ∈ t.in1 :: t.out1 :: (t.in2.toList ++ t.out2.toList), (p.flow f.label).Allows fine ((t.spread fine.n φ).stated (f.spread fine.n φ)) →
      ((p.mean s sys fine).flow f.label).Allows sys (t.stated f) := by
    intro f hf hal
    rw [stated_spread h hp.fits, st f hf] at hal
    rw [st f hf]
    exact flow_mean h hv hvf (hp.plain.fits f (mem_plain.2 hf)) (hp.plain.sensible f (mem_plain.2 hf)) (c1 f hf) hal
  refine ⟨each _ (by simp) ha.in1, each _ (by simp) ha.out1, fun f hf => ?_, fun f hf _ => ?_, fun _ _ q hq => absurd hq (no q), fun _ _ q hq => absurd hq (no q),
    runs_mean c2 hpv _, ?_, ?_⟩
  · exact each _ (by simp [hf]) (ha.out2 (f.spread fine.n φ) (by simp [TransData.spread, hf]))
  · exact each _ (by simp [hf]) (ha.in2 (f.spread fine.n φ) (by simp [TransData.spread, hf]) (.inl no))
  · exact delivers_mean h hp.fits c4 ha.first_arrives
  · intro i o hi ho
    exact delivers_mean h hp.fits c4 (ha.second_arrives (i.spread fine.n φ) (o.spread fine.n φ) (by simp [TransData.spread, hi]) (by simp [TransData.spread, ho]))

/-- The values in `σ` are the means of those in `τ`. -/
structure Comp.Averages (s : Nat → Nat) (sys fine : Sys) (c : Comp) (σ τ : Assignment) : Prop where
  rate : ∀ f ∈ c.flows, ∀ t < sys.n, σ (rateL c.label f.label) t = meanOver s sys fine (τ (rateL c.label f.label)) t
  charge : ∀ x, c = .storage x → ∀ t ≤ sys.n, σ (chargeStateL x.label) t = τ (chargeStateL x.label) (s t)
  size : ∀ f ∈ c.flows, ∀ q, f.size = .invest q → SameInvest (flowFull c.label f.label) q τ σ
  capacity : ∀ x, c = .storage x → ∀ q, x.capacity = .invest q → SameInvest x.label q τ σ

theorem comp_averages {c : CompData} {N : Nat} {σ τ : Assignment} {p : CompPlan} (hp : p.Realized (c.spread N φ) τ) (hj : (p.mean s sys fine).Realized c σ) :
    (∀ f ∈ c.inputs ++ c.outputs, ∀ t < sys.n, σ (rateL c.label f.label) t = meanOver s sys fine (τ (rateL c.label f.label)) t) ∧
    (∀ f ∈ c.inputs ++ c.outputs, ∀ q, f.size = .invest q → SameInvest (flowFull c.label f.label) q τ σ) := by
  have mem : ∀ f ∈ c.inputs ++ c.outputs, f.spread N φ ∈ (c.spread N φ).inputs ++ (c.spread N φ).outputs := by
    intro f hf
    rw [spread_flows]
    exact List.mem_map.2 ⟨f, hf, rfl⟩
  refine ⟨fun f hf t _ => ?_, fun f hf q hq => ?_⟩
  · have e : τ (rateL c.label f.label) = (p.flow f.label).r := hp.rate (f.spread N φ) (mem f hf)
    rw [hj.rate f hf, e]
    rfl
  · refine ⟨?_, fun ho => ?_, fun e he => ?_⟩
    · rw [hj.size f hf q hq]
      exact (hp.size (f.spread N φ) (mem f hf) q hq).symm
    · rw [hj.built f hf q hq ho]
      exact (hp.built (f.spread N φ) (mem f hf) q hq ho).symm
    · rw [hj.shares f hf q hq e he]
      exact (hp.shares (f.spread N φ) (mem f hf) q hq e he).symm

theorem model_mean (h : Finer φ s sys fine) (hn : 0 < sys.n) (hv : sys.Valid) (hvf : fine.Valid) (hpd : sys.prevDt.Nonneg) {c : Comp} {oc of : CompOut} (hp : c.Proper sys)
    (hl : c.Gridless sys.n) (hcv : c.Convex) (hm : c.model sys = .ok oc) (hnd : oc.tree.labels.Nodup) (hmf : (c.spread fine.n φ).model fine = .ok of) {τ : Assignment}
    (hs : of.tree.Solves τ) :
    ∃ σ, oc.tree.Solves σ ∧ ∀ σ' : Assignment, (∀ l ∈ oc.tree.labels, σ' l = σ l) → c.Averages s sys fine σ' τ := by
  cases c with
  | plain c =>
    have hp : c.Proper sys := hp
    obtain ⟨p, p1, p2⟩ := C82_plain_sound hvf (comp_spread_proper h hp) hmf hs
    obtain ⟨σ, t1, t2⟩ := C82_plain_partial hv hp.fits hm hpd hnd (comp_mean h hv hvf hp hcv.1 hcv.2.1 hcv.2.2 p1)
    refine ⟨σ, t1, fun σ' hag => ?_⟩
    obtain ⟨u1, u4⟩ := comp_averages p2 ((comp_agree hm hag).2 _ t2)
    exact ⟨u1, (fun x hx => by cases hx), u4, (fun x hx => by cases hx)⟩
  | converter c =>
    obtain ⟨hp, hff, hsf⟩ : c.comp.Proper sys ∧ (∀ fs ∈ c.factors, ∀ q ∈ fs, q.2.Fits sys.n) ∧ ∀ r ∈ c.segments, ∀ q ∈ r.2, q.1.Fits sys.n ∧ q.2.Fits sys.n := hp
    obtain ⟨c1, c2, c3, hne⟩ := hcv
    have hwp := comp_spread_proper h hp
    obtain ⟨p, p1, p2, p3⟩ := C82_factors_sound hvf (c := c.spread fine.n φ) hwp hmf (by simpa [ConvData.spread] using hne) (by
      intro fs hfs q hq
      obtain ⟨fs', hfs', rfl⟩ := List.mem_map.1 hfs
      obtain ⟨q', hq', rfl⟩ := List.mem_map.1 hq
      exact fits_spread _ _ _) hs
    obtain ⟨σ, t1, t2⟩ := C82_factors_partial hv hp.fits hm hpd hnd hne hff (comp_mean h hv hvf hp c1 c2 c3 p1) (by
      intro fs hfs t ht
      rw [side_mean h (hff fs hfs) _ ht, side_mean h (hff fs hfs) _ ht]
      refine mean_congr fun j h1 h2 => ?_
      exact p2 _ (List.mem_map.2 ⟨fs, hfs, rfl⟩) j (h.inside ht h2))
    refine ⟨σ, t1, fun σ' hag => ?_⟩
    obtain ⟨o0, h0, hsub⟩ := converter_labels hm
    obtain ⟨u1, u4⟩ := comp_averages p3 ((comp_agree h0 fun l hl => hag l (hsub l hl)).2 _ t2)
    exact ⟨u1, (fun x hx => by cases hx), u4, (fun x hx => by cases hx)⟩
  | storage x =>
    have hp : x.Proper sys := hp
    obtain ⟨sc1, sc2, cyc, loss⟩ := hl
    obtain ⟨o', h', rfl⟩ := map_ok.1 hm
    obtain ⟨of', hm', rfl⟩ := map_ok.1 hmf
    have hwp := storage_spread_proper h hp ⟨sc1, sc2⟩
    obtain ⟨p, p1, p2, p3, p4⟩ := C82_storage_sound hvf hwp hm' hs
    obtain ⟨σ, t1, t2, t3, t4⟩ := C82_storage_partial hv ⟨hp.comp.fits _ (by simp [StorageData.comp]), hp.comp.fits _ (by simp [StorageData.comp])⟩ hp.fits h' hpd hnd
      (storage_mean h hv hvf hp ⟨sc1, sc2⟩ cyc loss hcv p1)
    refine ⟨σ, t1, fun σ' hag => ?_⟩
    obtain ⟨o0, h0, hsub, hc⟩ := storage_labels h'
    have hl3 : o'.chargeState.label = chargeStateL x.label := by
      obtain ⟨_, _, _, _, _, _, _, _, l3, _⟩ := storage_iff hv hp.fits h'
      exact l3
    rw [hl3] at hc
    obtain ⟨u1, u4⟩ := comp_averages (c := x.comp) p2 ((comp_agree h0 fun l hl => hag l (hsub l hl)).2 _ t2)
    refine ⟨u1, fun x' hx' t ht => ?_, u4, fun x' hx' q hq => ?_⟩
    · cases hx'
      have e : τ (chargeStateL x.label) = p.content := p3
      rw [hag _ hc, e]
      exact congrFun t3 t
    · cases hx'
      obtain ⟨m1, m2, m3⟩ := capacity_label h' hq
      obtain ⟨e1, e2, e3⟩ := p4 q hq
      obtain ⟨g1, g2, g3⟩ := t4 q hq
      exact ⟨(congrFun (hag _ m1) 0).trans (g1.trans e1.symm), fun ho => (congrFun (hag _ (m2 ho)) 0).trans ((g2 ho).trans (e2 ho).symm),
        fun e he => (congrFun (hag _ (m3 e he)) 0).trans ((g3 e he).trans (e3 e he).symm)⟩
  | transmission t =>
    have hp : t.Proper sys := hp
    have hl : ∀ f ∈ t.in1 :: t.out1 :: (t.in2.toList ++ t.out2.toList), ∀ q, f.size ≠ .invest q := hl
    obtain ⟨o', h', rfl⟩ := map_ok.1 hm
    obtain ⟨of', hm', rfl⟩ := map_ok.1 hmf
    have hwp := trans_spread_proper h hp
    obtain ⟨p, p1, p2⟩ := C82_transmission_sound hvf hwp hm' hs
    have hfit : ∀ f ∈ t.flows, f.Fits sys.n := by
      intro f hf
      refine hp.plain.fits f ?_
      simp only [TransData.flows, List.mem_cons, List.mem_append, Option.mem_toList] at hf
      simp only [TransData.plain, List.mem_cons, List.mem_append, Option.mem_toList]
      tauto
    obtain ⟨σ, t1, _, t2⟩ := C82_transmission_partial hv hp.big hfit hp.fits h' hpd hnd (trans_mean h hv hvf hp hl hcv p1)
    refine ⟨σ, t1, fun σ' hag => ?_⟩
    obtain ⟨o0, h0, hsub⟩ := trans_joined_labels h'
    obtain ⟨r1, r2, r3⟩ := trans_realized ((comp_agree h0 fun l hl => hag l (hsub l hl)).2 _ t2)
    obtain ⟨w1, w2, w3⟩ := trans_realized p2
    refine ⟨fun f hf i _ => ?_, (fun s hs => by cases hs), fun f hf q hq => absurd hq (hl f (mem_plain.1 hf) q), (fun s hs => by cases hs)⟩
    have e : τ (rateL t.label f.label) = (p.flow f.label).r := w1 (f.spread fine.n φ) (by
      rw [trans_spread_plain, spread_flows]
      exact List.mem_map.2 ⟨f, hf, rfl⟩)
    show σ' (rateL t.label f.label) i = meanOver _ _ _ (τ (rateL t.label f.label)) i
    rw [e]
    exact congrFun (r1 f hf) i

end Flix
