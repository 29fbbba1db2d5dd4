import Verif.Lemmas.Refine
import Verif.Lemmas.Cut

/-! # Plans for a finer grid: every part of a step is operated like the step -/

namespace Flix

variable {φ s : Nat → Nat} {sys fine : Sys}

def FlowPlan.spread (φ : Nat → Nat) (p : FlowPlan) : FlowPlan where
  r j := p.r (φ j)
  b j := p.b (φ j)
  s := p.s
  d := p.d
  val := p.val

def CompPlan.spread (φ : Nat → Nat) (p : CompPlan) : CompPlan where
  flow l := (p.flow l).spread φ
  on j := p.on (φ j)

theorem capacity_spread (f : FlowData) (N : Nat) (p p' : FlowPlan) (h : p'.s = p.s) (cfg : Cfg) : p'.capacity cfg (f.spread N φ) = p.capacity cfg f := by
  unfold FlowPlan.capacity FlowData.spread
  cases hs : f.size with
  | unset => rfl
  | num x => rfl
  | invest q => exact h

theorem sensible_spread (h : Finer φ s sys fine) {f : FlowData} (hf : f.Fits sys.n) (hs : f.Sensible sys.cfg sys.n) : (f.spread fine.n φ).Sensible fine.cfg fine.n where
  size := by rw [h.cfg]; exact hs.size
  low := by
    intro j hj
    rw [(low_spread h hf hj).1, (low_spread h hf hj).2]
    exact hs.low _ (h.owner hj).1
  invest := by rw [h.cfg]; exact hs.invest

theorem proper_spread (h : Finer φ s sys fine) {f : FlowData} (hf : f.Fits sys.n) (hp : f.Proper sys.n) : (f.spread fine.n φ).Proper fine.n := by
  refine ⟨fun q hq => ?_, hp.2⟩
  obtain ⟨q', h1, rfl⟩ := Option.map_eq_some_iff.1 hq
  exact nonneg_spread h (hf.onOff q' h1) (hp.1 q' h1)

theorem follows_spread (h : Finer φ s sys fine) (hn : 0 < sys.n) (hv : sys.Valid) (hvf : fine.Valid) {f : FlowData} (hf : f.Fits sys.n) {p : FlowPlan} {S : ℚ}
    (hp : p.Follows sys f S) : (p.spread φ).Follows fine (f.spread fine.n φ) S := by
  have sum : ∑ j ∈ Finset.range fine.n, fine.width j * (p.spread φ).r j = ∑ t ∈ Finset.range sys.n, sys.width t * p.r t := h.sum_const p.r
  refine ⟨fun ho j hj => ?_, fun ho j hj => ?_, fun q hq => ?_, fun m hm => ?_, fun m hm => ?_, fun m hm => ?_, fun m hm => ?_⟩
  · rw [(low_spread h hf hj).1, (low_spread h hf hj).2]
    exact hp.always (by simpa [FlowData.spread] using ho) _ (h.owner hj).1
  · rw [(low_spread h hf hj).1, (low_spread h hf hj).2, h.cfg]
    exact hp.running (by simpa [FlowData.spread] using ho) _ (h.owner hj).1
  · obtain ⟨q', hq', rfl⟩ := Option.map_eq_some_iff.1 hq
    obtain ⟨h1, last, h2, h3⟩ := hp.schedule q' hq'
    refine ⟨nonneg_spread h (hf.onOff q' hq') h1, last, ?_⟩
    rw [h.cfg]
    exact ⟨h2, schedule_spread h hn hvf (hf.onOff q' hq') h3⟩
  · rw [sum]; exact hp.hmin m hm
  · rw [sum]; exact hp.hmax m hm
  · rw [sum, h.total hv hvf]; exact hp.lmin m hm
  · rw [sum, h.total hv hvf]; exact hp.lmax m hm

theorem flow_spread (h : Finer φ s sys fine) (hn : 0 < sys.n) (hv : sys.Valid) (hvf : fine.Valid) {f : FlowData} (hf : f.Fits sys.n) {p : FlowPlan}
    (hp : p.Allows sys f) : (p.spread φ).Allows fine (f.spread fine.n φ) := by
  refine ⟨sensible_spread h hf hp.sensible, ?_, fun q hq => ?_⟩
  · rw [h.cfg, capacity_spread f fine.n p (p.spread φ) rfl]
    exact follows_spread h hn hv hvf hf hp.follows
  · have hi := hp.invests q hq
    refine ⟨by rw [h.cfg]; exact hi.decided, hi.mandatory, hi.segments, fun h1 h2 h3 j hj => ?_, fun g hg j hj => ?_⟩
    · rw [(low_spread h hf hj).1]
      exact hi.declined h1 h2 (by simpa [FlowData.spread] using h3) _ (h.owner hj).1
    · obtain ⟨g', hg', rfl⟩ := Option.map_eq_some_iff.1 hg
      rw [at_spread h (hf.prof g' hg') hj]
      exact hi.profile g' hg' _ (h.owner hj).1

theorem spread_flows (c : CompData) (N : Nat) : (c.spread N φ).inputs ++ (c.spread N φ).outputs = (c.inputs ++ c.outputs).map (·.spread N φ) := by
  simp [CompData.spread]

theorem orElse_spread (N : Nat) (o : Option OnOffParams) (b : Prop) [Decidable b] :
    (o.map (OnOffParams.spread N φ) <|> if b then some ({} : OnOffParams) else none) =
      (o <|> if b then some ({} : OnOffParams) else none).map (OnOffParams.spread N φ) := by
  cases o with
  | some q => rfl
  | none => by_cases hb : b
            · simp only [if_pos hb]; rfl
            · simp only [if_neg hb]; rfl

theorem declared_spread (c : CompData) (f : FlowData) (N : Nat) : (c.spread N φ).declared (f.spread N φ) = (c.declared f).spread N φ := by
  have e : ((c.spread N φ).onOff.isSome ∨ (f.spread N φ).label ∈ (c.spread N φ).prevent) = (c.onOff.isSome ∨ f.label ∈ c.prevent) := by
    simp [CompData.spread, FlowData.spread]
  unfold CompData.declared
  simp only [e]
  rw [show (f.spread N φ).onOff = f.onOff.map (OnOffParams.spread N φ) from rfl, orElse_spread]
  rfl

theorem orElse_fits {o : Option OnOffParams} {b : Prop} [Decidable b] {n : Nat} (ho : ∀ q, o = some q → q.Fits n) :
    ∀ q, (o <|> if b then some ({} : OnOffParams) else none) = some q → q.Fits n := by
  intro q hq
  cases o with
  | some q' => cases hq; exact ho _ rfl
  | none =>
    by_cases hb : b
    · simp only [if_pos hb] at hq
      cases hq
      exact free_local.fits n
    · simp only [if_neg hb] at hq
      cases hq

theorem declared_fits' {c : CompData} {f : FlowData} {n : Nat} (h : f.Fits n) : (c.declared f).Fits n :=
  ⟨h.relMin, h.relMax, h.prof, orElse_fits h.onOff⟩

theorem comp_spread_proper (h : Finer φ s sys fine) {c : CompData} (hp : c.Proper sys) : (c.spread fine.n φ).Proper fine := by
  refine ⟨?_, ?_, ?_, ?_, ?_⟩
  · rw [spread_flows, List.map_map]
    exact hp.labels
  all_goals try
    rw [spread_flows]
    intro f hf
    obtain ⟨g, hg, rfl⟩ := List.mem_map.1 hf
  · exact flow_spread_fits _ _ _
  · exact sensible_spread h (hp.fits g hg) (hp.sensible g hg)
  · exact proper_spread h (hp.fits g hg) (hp.proper g hg)
  · intro q hq
    obtain ⟨q', h1, rfl⟩ := Option.map_eq_some_iff.1 hq
    exact ⟨onOff_spread_fits _ _ _, nonneg_spread h (hp.onOff q' h1).1 (hp.onOff q' h1).2⟩

theorem runs_of_spread (h : Finer φ s sys fine) (hn : 0 < sys.n) (hvf : fine.Valid) {c : CompData} {p : CompPlan} (hp : p.Runs sys c) :
    (p.spread φ).Runs fine (c.spread fine.n φ) := by
  refine ⟨fun q hq => ?_, fun ho j hj => ?_, fun j hj => ?_⟩
  · obtain ⟨q', h1, rfl⟩ := Option.map_eq_some_iff.1 hq
    obtain ⟨w1, w2, hist, last, w3, w4, w5⟩ := hp.schedule q' h1
    refine ⟨onOff_spread_fits _ _ _, nonneg_spread h w1 w2, hist, last, ?_, w4, schedule_spread h hn hvf w1 w5⟩
    rw [spread_flows, List.filterMap_map, h.cfg]
    exact w3
  · have hw := hp.state (by simpa [CompData.spread] using ho) _ (h.owner hj).1
    rw [spread_flows, List.map_map, h.cfg]
    rcases hw with ⟨w1, w2⟩ | ⟨w1, w2⟩
    · refine .inl ⟨w1, fun f hf => ?_⟩
      obtain ⟨g, hg, rfl⟩ := List.mem_map.1 hf
      exact w2 g hg
    · exact .inr ⟨w1, w2⟩
  · exact hp.exclusive _ (h.owner hj).1

theorem comp_spread (h : Finer φ s sys fine) (hn : 0 < sys.n) (hv : sys.Valid) (hvf : fine.Valid) {c : CompData} (hc : c.Proper sys) {p : CompPlan}
    (hp : p.Allows sys c) : (p.spread φ).Allows fine (c.spread fine.n φ) := by
  refine ⟨fun f hf => ?_, runs_of_spread h hn hvf hp.runs⟩
  rw [spread_flows] at hf
  obtain ⟨g, hg, rfl⟩ := List.mem_map.1 hf
  rw [declared_spread]
  exact flow_spread h hn hv hvf (declared_fits' (hc.fits g hg)) (hp.flows g hg)

/-- The factor of a flow in a step. -/
def factorIn (fs : Factors) (l : String) (t : Nat) : ℚ := (((fs.get l).map fun x => x.at t).getD 0)

theorem factor_spread (h : Finer φ s sys fine) {fs : Factors} (hf : ∀ q ∈ fs, q.2.Fits sys.n) {j : Nat} (hj : j < fine.n) (l : String) :
    factorIn (fs.map fun q => (q.1, q.2.spread fine.n φ)) l j = factorIn fs l (φ j) := by
  unfold factorIn
  simp only [Factors.get, List.find?_map]
  have : ((fun q : String × Num => q.1 == l) ∘ fun q : String × Num => (q.1, q.2.spread fine.n φ)) = fun q => q.1 == l := rfl
  rw [this]
  cases hfd : fs.find? fun q => q.1 == l with
  | none => rfl
  | some r => exact at_spread h (hf r (List.mem_of_find?_eq_some hfd)) hj

theorem curve_spread (h : Finer φ s sys fine) {segs : List (String × List (Num × Num))} (hf : ∀ r ∈ segs, ∀ q ∈ r.2, q.1.Fits sys.n ∧ q.2.Fits sys.n)
    {l : List FlowData} {j : Nat} (hj : j < fine.n) (p : CompPlan) (hc : p.OnCurve l segs (φ j)) :
    (p.spread φ).OnCurve (l.map (·.spread fine.n φ)) (segs.map fun r => (r.1, r.2.map fun q => (q.1.spread fine.n φ, q.2.spread fine.n φ))) j := by
  obtain ⟨i, u, h0, h1, hall⟩ := hc
  refine ⟨i, u, h0, h1, fun f' hf' r' hr' => ?_⟩
  obtain ⟨f, hfm, rfl⟩ := List.mem_map.1 hf'
  rw [List.find?_map] at hr'
  have : ((fun r : String × List (Num × Num) => r.1 == (FlowData.spread fine.n φ f).label) ∘
      fun r : String × List (Num × Num) => (r.1, r.2.map fun q => (q.1.spread fine.n φ, q.2.spread fine.n φ))) = fun r => r.1 == f.label := rfl
  rw [this] at hr'
  obtain ⟨r, hr, rfl⟩ := Option.map_eq_some_iff.1 hr'
  obtain ⟨x, y, k1, k2⟩ := hall f hfm r hr
  have hm := hf r (List.mem_of_find?_eq_some hr) _ (List.mem_of_getElem? k1)
  refine ⟨x.spread fine.n φ, y.spread fine.n φ, ?_, ?_⟩
  · simp [List.getElem?_map, k1]
  · rw [at_spread h hm.1 hj, at_spread h hm.2 hj]
    exact k2

/-! ## Storages -/

theorem storage_spread_comp (x : StorageData) (N : Nat) : (x.spread N φ).comp = x.comp.spread N φ := rfl

theorem storage_spread_proper (h : Finer φ s sys fine) {x : StorageData} (hp : x.Proper sys) (hsc : x.relMinCharge.isScalar = true ∧ x.relMaxCharge.isScalar = true) :
    (x.spread fine.n φ).Proper fine where
  comp := comp_spread_proper h hp.comp
  fits := ⟨.inl hsc.1, .inl hsc.2, fits_spread _ _ _, fits_spread _ _ _, fits_spread _ _ _⟩
  rel := by
    intro t _
    have := hp.rel 0 (by omega)
    rw [← scalar_window hsc.1 0 0 0 0, ← scalar_window hsc.2 0 0 0 0] at this
    show 0 ≤ x.relMinCharge.at t ∧ 0 ≤ x.relMaxCharge.at t
    rwa [← scalar_window hsc.1 0 0 0 t, ← scalar_window hsc.2 0 0 0 t]
  capacity := by rw [h.cfg]; exact hp.capacity

/-- The content changes evenly within a step. -/
def lineContent (φ : Nat → Nat) (sys fine : Sys) (c : Nat → ℚ) (j : Nat) : ℚ :=
  c 0 + ∑ i ∈ Finset.range j, fine.width i * ((c (φ i + 1) - c (φ i)) / sys.width (φ i))

def StoragePlan.spread (φ : Nat → Nat) (sys fine : Sys) (p : StoragePlan) : StoragePlan where
  flows := p.flows.spread φ
  content := lineContent φ sys fine p.content
  size := p.size
  built := p.built
  val := p.val

theorem line_first (h : Finer φ s sys fine) (hv : sys.Valid) (c : Nat → ℚ) : ∀ t ≤ sys.n, lineContent φ sys fine c (s t) = c t
  | 0, _ => by simp [lineContent, h.zero]
  | t + 1, ht => by
    have ih := line_first h hv c t (by omega)
    unfold lineContent at ih ⊢
    have hw := hv.width_pos (t := t) (by omega)
    rw [Finset.range_eq_Ico, ← Finset.sum_Ico_consecutive _ (Nat.zero_le (s t)) (h.more t (by omega)).le, ← Finset.range_eq_Ico, ← add_assoc, ih]
    have : ∑ i ∈ Finset.Ico (s t) (s (t + 1)), fine.width i * ((c (φ i + 1) - c (φ i)) / sys.width (φ i)) =
        ∑ i ∈ Finset.Ico (s t) (s (t + 1)), fine.width i * ((c (t + 1) - c t) / sys.width t) := by
      refine Finset.sum_congr rfl fun i hi => ?_
      obtain ⟨i1, i2⟩ := Finset.mem_Ico.1 hi
      rw [h.part t (by omega) i i1 i2]
    rw [this, ← Finset.sum_mul, show ∑ i ∈ Finset.Ico (s t) (s (t + 1)), fine.width i = sys.width t from h.width t (by omega)]
    field_simp
    ring

/-- Within a step the content lies between the contents at its ends. -/
theorem line_between (h : Finer φ s sys fine) (hv : sys.Valid) (hvf : fine.Valid) (c : Nat → ℚ) {a b : ℚ} (hc : ∀ t ≤ sys.n, a ≤ c t ∧ c t ≤ b) {j : Nat} (hj : j ≤ fine.n) :
    a ≤ lineContent φ sys fine c j ∧ lineContent φ sys fine c j ≤ b := by
  rcases Nat.lt_or_ge j fine.n with hlt | hge
  · obtain ⟨o1, o2, o3⟩ := h.owner hlt
    have e0 := line_first h hv c (φ j) o1.le
    have hw := hv.width_pos o1
    have key : lineContent φ sys fine c j = c (φ j) + (∑ i ∈ Finset.Ico (s (φ j)) j, fine.width i) * ((c (φ j + 1) - c (φ j)) / sys.width (φ j)) := by
      rw [← e0]
      unfold lineContent
      rw [Finset.range_eq_Ico, ← Finset.sum_Ico_consecutive _ (Nat.zero_le (s (φ j))) o2, ← Finset.range_eq_Ico, ← add_assoc]
      have e0' := e0
      unfold lineContent at e0'
      rw [e0', Finset.sum_mul]
      congr 1
      refine Finset.sum_congr rfl fun i hi => ?_
      obtain ⟨i1, i2⟩ := Finset.mem_Ico.1 hi
      rw [h.part _ o1 i i1 (by omega)]
    have w0 : 0 ≤ ∑ i ∈ Finset.Ico (s (φ j)) j, fine.width i :=
      Finset.sum_nonneg fun i hi => (hvf.width_pos (by have := (Finset.mem_Ico.1 hi).2; omega)).le
    have w1 : ∑ i ∈ Finset.Ico (s (φ j)) j, fine.width i ≤ sys.width (φ j) := by
      rw [show sys.width (φ j) = _ from (h.width (φ j) o1).symm]
      exact Finset.sum_le_sum_of_subset_of_nonneg (Finset.Ico_subset_Ico_right o3.le) fun i hi _ => (hvf.width_pos (h.inside o1 (Finset.mem_Ico.1 hi).2)).le
    rw [key]
    generalize ∑ i ∈ Finset.Ico (s (φ j)) j, fine.width i = W at w0 w1
    obtain ⟨c1, c2⟩ := hc (φ j) o1.le
    obtain ⟨c3, c4⟩ := hc (φ j + 1) (by omega)
    have e : c (φ j) + W * ((c (φ j + 1) - c (φ j)) / sys.width (φ j)) = (1 - W / sys.width (φ j)) * c (φ j) + W / sys.width (φ j) * c (φ j + 1) := by
      field_simp
      ring
    have q0 : 0 ≤ W / sys.width (φ j) := by positivity
    have q1 : W / sys.width (φ j) ≤ 1 := by rw [div_le_one hw]; exact w1
    rw [e]
    generalize W / sys.width (φ j) = u at q0 q1
    constructor <;> nlinarith
  · rw [show j = fine.n by omega, ← h.last, line_first h hv c _ le_rfl]
    exact hc _ le_rfl

theorem scalar_at {x : Num} (h : x.isScalar = true) (i j : Nat) : x.at i = x.at j := by
  rw [← scalar_window h 0 0 0 i, ← scalar_window h 0 0 0 j]

theorem storage_spread (h : Finer φ s sys fine) (hn : 0 < sys.n) (hv : sys.Valid) (hvf : fine.Valid) {x : StorageData} (hx : x.Proper sys)
    (hsc : x.relMinCharge.isScalar = true ∧ x.relMaxCharge.isScalar = true) (hl : x.initial ≠ .lastValueOfSim) (hloss : ∀ t < sys.n, x.relLoss.at t = 0) {p : StoragePlan}
    (hp : p.Allows sys x) : (p.spread φ sys fine).Allows fine (x.spread fine.n φ) := by
  have cap : (p.spread φ sys fine).capacity (x.spread fine.n φ) = p.capacity x := rfl
  have first := line_first h hv p.content
  have e0 : lineContent φ sys fine p.content 0 = p.content 0 := by simp [lineContent]
  have en : lineContent φ sys fine p.content fine.n = p.content sys.n := by rw [← h.last]; exact first _ le_rfl
  have rel := storage_spread_proper h hx hsc
  refine ⟨comp_spread h hn hv hvf hx.comp hp.flows, fun j hj => ?_, fun j hj => ?_, ⟨fun v hv' => ?_, fun hl' => absurd hl' hl, fun h1 m hm => ?_, fun h1 m hm => ?_⟩,
    rel.rel, by rw [h.cfg]; exact hp.decided, fun q hq h1 h2 j _ => ?_⟩
  · rw [cap]
    exact line_between h hv hvf p.content (fun t ht => by
      have := hp.content t ht
      rwa [scalar_at hsc.1 t j, scalar_at hsc.2 t j] at this) hj
  · obtain ⟨o1, o2, o3⟩ := h.owner hj
    have hw := hv.width_pos o1
    have bal := hp.balance (φ j) o1
    rw [hloss _ o1] at bal
    show lineContent φ sys fine p.content (j + 1) = lineContent φ sys fine p.content j * (1 - (x.relLoss.spread fine.n φ).at j * fine.width j) +
      ((p.flows.flow x.charging.label).r (φ j) * (x.etaCharge.spread fine.n φ).at j * fine.width j -
        (p.flows.flow x.discharging.label).r (φ j) * fine.width j / (x.etaDischarge.spread fine.n φ).at j)
    rw [at_spread h hx.fits.loss hj, at_spread h hx.fits.etaC hj, at_spread h hx.fits.etaD hj, hloss _ o1]
    have step : lineContent φ sys fine p.content (j + 1) = lineContent φ sys fine p.content j + fine.width j * ((p.content (φ j + 1) - p.content (φ j)) / sys.width (φ j)) := by
      unfold lineContent
      rw [Finset.sum_range_succ, add_assoc]
    rw [step, bal]
    field_simp
    ring
  · exact e0.trans (hp.ends.start v hv')
  · exact en.trans_le (hp.ends.maxF h1 m hm)
  · exact (hp.ends.minF h1 m hm).trans_eq en.symm
  · show x.relMinCharge.at j * _ ≤ 0
    rw [scalar_at hsc.1 j 0]
    exact hp.declined q hq h1 h2 0 (by omega)

/-! ## Transmissions -/

theorem trans_spread_plain (t : TransData) (N : Nat) : (t.spread N φ).plain = t.plain.spread N φ := by
  unfold TransData.plain TransData.spread CompData.spread
  cases t.in2 with
  | none => cases t.out2 <;> rfl
  | some f => cases t.out2 <;> rfl

theorem losses_spread (h : Finer φ s sys fine) {t : TransData} (hf : t.Fits sys.n) :
    (t.spread fine.n φ).absLosses.any Num.anyNonzero = t.absLosses.any Num.anyNonzero := by
  show (t.absLosses.map (·.spread fine.n φ)).any _ = _
  cases ha : t.absLosses with
  | none => rfl
  | some x =>
    cases x with
    | s x => rfl
    | v xs =>
      have hlen : xs.length = sys.n := by
        rcases hf.abs _ ha with h | h
        · cases h
        · exact h
      show (((List.range fine.n).map fun j => xs.getD (φ j) 0).any fun x => decide (x ≠ 0)) = xs.any fun x => decide (x ≠ 0)
      rw [Bool.eq_iff_iff, List.any_eq_true, List.any_eq_true]
      constructor
      · rintro ⟨x, hx, h0⟩
        obtain ⟨j, hj, rfl⟩ := List.mem_map.1 hx
        have hlt := (h.owner (List.mem_range.1 hj)).1
        refine ⟨xs[φ j]'(by omega), List.getElem_mem _, ?_⟩
        simpa [List.getD_eq_getElem?_getD, hlen, hlt] using h0
      · rintro ⟨x, hx, h0⟩
        obtain ⟨i, hi, rfl⟩ := List.getElem_of_mem hx
        obtain ⟨e, hlt⟩ := h.first (t := i) (by omega)
        exact ⟨_, List.mem_map.2 ⟨s i, List.mem_range.2 hlt, rfl⟩, by simpa [e, List.getD_eq_getElem?_getD, hi] using h0⟩

theorem stated_spread (h : Finer φ s sys fine) {t : TransData} (hf : t.Fits sys.n) (f : FlowData) :
    (t.spread fine.n φ).stated (f.spread fine.n φ) = (t.stated f).spread fine.n φ := by
  unfold TransData.stated
  rw [trans_spread_plain, losses_spread h hf, ← declared_spread t.plain]
  congr 1
  rw [show (f.spread fine.n φ).onOff = f.onOff.map (OnOffParams.spread fine.n φ) from rfl, orElse_spread]
  rfl

theorem losses_spread_at (h : Finer φ s sys fine) {t : TransData} (hf : t.Fits sys.n) {j : Nat} (hj : j < fine.n) :
    (t.spread fine.n φ).relAt j = t.relAt (φ j) ∧ (t.spread fine.n φ).absAt j = t.absAt (φ j) := by
  have key : ∀ x : Option Num, (∀ r, x = some r → r.Fits sys.n) → (((x.map (·.spread fine.n φ)).map fun r => r.at j).getD 0) = ((x.map fun r => r.at (φ j)).getD 0) := by
    intro x hx
    cases x with
    | none => rfl
    | some r => exact at_spread h (hx r rfl) hj
  exact ⟨key _ hf.rel, key _ hf.abs⟩

theorem trans_spread_proper (h : Finer φ s sys fine) {t : TransData} (hp : t.Proper sys) : (t.spread fine.n φ).Proper fine where
  plain := by rw [trans_spread_plain]; exact comp_spread_proper h hp.plain
  fits := by
    constructor <;>
    · intro r hr
      obtain ⟨r', _, rfl⟩ := Option.map_eq_some_iff.1 hr
      exact fits_spread _ _ _
  big := by rw [h.cfg]; exact hp.big

theorem delivers_spread (h : Finer φ s sys fine) {t : TransData} (hf : t.Fits sys.n) {x y : Nat → ℚ} (hd : t.Delivers sys.n x y) :
    (t.spread fine.n φ).Delivers fine.n (fun j => x (φ j)) fun j => y (φ j) := by
  intro j hj
  rw [(losses_spread_at h hf hj).1, (losses_spread_at h hf hj).2]
  exact hd _ (h.owner hj).1

theorem mem_plain {t : TransData} {f : FlowData} : f ∈ t.plain.inputs ++ t.plain.outputs ↔ f ∈ t.in1 :: t.out1 :: (t.in2.toList ++ t.out2.toList) := by
  simp only [TransData.plain, List.mem_append, List.mem_cons]
  tauto

theorem trans_spread (h : Finer φ s sys fine) (hn : 0 < sys.n) (hv : sys.Valid) (hvf : fine.Valid) {t : TransData} (hp : t.Proper sys)
    (hl : ∀ f ∈ t.in1 :: t.out1 :: (t.in2.toList ++ t.out2.toList), ∀ q, f.size ≠ .invest q) {p : CompPlan} (ha : p.Transmits sys t) :
    (p.spread φ).Transmits fine (t.spread fine.n φ) := by
  have no : ∀ q, t.in1.size ≠ .invest q := hl _ (by simp)
  have each : ∀ f ∈ t.in1 :: t.out1 :: (t.in2.toList ++ t.out2.toList), (p.flow f.label).Allows sys (t.stated f) →
      ((p.spread φ).flow f.label).Allows fine ((t.spread fine.n φ).stated (f.spread fine.n φ)) := by
    intro f hf hal
    rw [stated_spread h hp.fits]
    have hff := hp.plain.fits f (mem_plain.2 hf)
    have hff' : FlowData.Fits sys.n { f with onOff := f.onOff <|> if t.absLosses.any Num.anyNonzero then some ({} : OnOffParams) else none } :=
      ⟨hff.relMin, hff.relMax, hff.prof, orElse_fits hff.onOff⟩
    exact flow_spread h hn hv hvf (declared_fits' hff') hal
  refine ⟨each _ (by simp) ha.in1, each _ (by simp) ha.out1, fun f hf => ?_, fun f hf _ => ?_, fun _ _ q hq => absurd hq (no q), fun _ _ q hq => absurd hq (no q), ?_, ?_, ?_⟩
  · obtain ⟨g, hg, rfl⟩ := Option.map_eq_some_iff.1 hf
    exact each _ (by simp [hg]) (ha.out2 g hg)
  · obtain ⟨g, hg, rfl⟩ := Option.map_eq_some_iff.1 hf
    exact each _ (by simp [hg]) (ha.in2 g hg (.inl no))
  · rw [trans_spread_plain]
    exact runs_of_spread h hn hvf ha.runs
  · exact delivers_spread h hp.fits ha.first_arrives
  · intro i o hi' ho
    obtain ⟨i', hi2, rfl⟩ := Option.map_eq_some_iff.1 hi'
    obtain ⟨o', ho2, rfl⟩ := Option.map_eq_some_iff.1 ho
    exact delivers_spread h hp.fits (ha.second_arrives i' o' hi2 ho2)

end Flix
