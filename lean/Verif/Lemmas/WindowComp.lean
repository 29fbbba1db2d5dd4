import Verif.Lemmas.Window

/-! # Plans of the segments of a component put one after the other -/

namespace Flix

variable {sys : Sys} {L m : Nat} {len : Nat → Nat}

theorem flow_window_onOff (f : FlowData) (a len : Nat) (prev : Option Num) : (f.window a len prev).onOff = f.onOff.map (·.window a len) := rfl

/-- The component has only flows and states without limits on sums and durations. -/
structure CompData.Local (c : CompData) : Prop where
  flows : ∀ f ∈ c.inputs ++ c.outputs, f.Local
  onOff : ∀ q, c.onOff = some q → q.Local

theorem window_flows (c : CompData) (a len : Nat) (st : SegStart) :
    (c.window a len st).inputs ++ (c.window a len st).outputs = (c.inputs ++ c.outputs).map fun f => f.window a len (st.rate c.label f.label) := by
  simp [CompData.window]

theorem comp_window_proper {c : CompData} {a len : Nat} {st : SegStart} (h : c.Proper sys) (hl : c.Local) (hi : a + len ≤ sys.n) :
    (c.window a len st).Proper (sys.window a len) := by
  refine ⟨?_, ?_, ?_, ?_, ?_⟩
  · rw [window_flows, List.map_map]
    exact h.labels
  all_goals try
    rw [window_flows]
    intro f hf
    obtain ⟨g, hg, rfl⟩ := List.mem_map.1 hf
  · exact flow_window_fits (h.fits g hg) (hl.flows g hg).onOff hi
  · exact flow_window_sensible (sys := sys) (h.fits g hg) (h.sensible g hg) hi
  · exact flow_window_proper (hl.flows g hg)
  · intro q hq
    obtain ⟨q', h1, rfl⟩ := Option.map_eq_some_iff.1 hq
    exact ⟨((hl.onOff q' h1).window a len).fits len, ((hl.onOff q' h1).window a len).nonneg len⟩

theorem declared_window (c : CompData) (f : FlowData) (a len : Nat) (st : SegStart) (prev : Option Num) :
    (c.window a len st).declared (f.window a len prev) = (c.declared f).window a len prev := by
  have key : ((f.window a len prev).onOff <|> if (c.window a len st).onOff.isSome ∨ (f.window a len prev).label ∈ (c.window a len st).prevent then some ({} : OnOffParams) else none) =
      (f.onOff <|> if c.onOff.isSome ∨ f.label ∈ c.prevent then some ({} : OnOffParams) else none).map (OnOffParams.window a len) := by
    have e : ((c.window a len st).onOff.isSome ∨ (f.window a len prev).label ∈ (c.window a len st).prevent) = (c.onOff.isSome ∨ f.label ∈ c.prevent) := by
      simp [CompData.window, FlowData.window]
    simp only [e]
    rw [flow_window_onOff]
    cases f.onOff with
    | some q => rfl
    | none =>
      by_cases hb : c.onOff.isSome ∨ f.label ∈ c.prevent
      · simp only [if_pos hb]; rfl
      · simp only [if_neg hb]; rfl
  unfold CompData.declared
  rw [key]
  rfl

theorem free_local : OnOffParams.Local ({} : OnOffParams) := ⟨⟨rfl, rfl⟩, rfl, ⟨rfl, rfl⟩, ⟨rfl, rfl⟩⟩

theorem orElse_local {o : Option OnOffParams} {b : Prop} [Decidable b] (ho : ∀ q, o = some q → q.Local) :
    ∀ q, (o <|> if b then some ({} : OnOffParams) else none) = some q → q.Local := by
  intro q hq
  cases o with
  | some q' => cases hq; exact ho _ rfl
  | none =>
    by_cases hb : b
    · simp only [if_pos hb] at hq
      cases hq
      exact free_local
    · simp only [if_neg hb] at hq
      cases hq

theorem declared_local {c : CompData} {f : FlowData} (h : f.Local) : (c.declared f).Local := ⟨h.size, h.hours, h.load, orElse_local h.onOff⟩

theorem declared_fits {c : CompData} {f : FlowData} {n : Nat} (h : f.Fits n) (hl : f.Local) : (c.declared f).Fits n :=
  ⟨h.relMin, h.relMax, h.prof, fun q hq => ((declared_local (c := c) hl).onOff q hq).fits n⟩

theorem runs_join (hc : Cover sys.n L m len) {c : CompData} (hl : c.Local) {st : Nat → SegStart}
    (h0 : ∀ f ∈ c.inputs ++ c.outputs, (st 0).rate c.label f.label = f.previousFlowRate) {p : Nat → CompPlan}
    (hp : ∀ k < m, (p k).Runs (sys.window (k * L) (len k)) (c.window (k * L) (len k) (st k))) : (CompPlan.join L p).Runs sys c := by
  refine ⟨fun q hq => ?_, fun ho t ht => ?_, fun t ht => ?_⟩
  · have hq' := hl.onOff q hq
    refine ⟨hq'.fits _, hq'.nonneg _, ?_⟩
    obtain ⟨_, _, hist, last, h1, h2, _⟩ := (hp 0 hc.some).schedule (q.window (0 * L) (len 0)) (by simp [CompData.window, hq])
    rw [window_flows, List.filterMap_map, show List.filterMap ((fun x : FlowData => x.previousFlowRate) ∘ fun f => FlowData.window (0 * L) (len 0) ((st 0).rate c.label f.label) f) (c.inputs ++ c.outputs) =
      List.filterMap (fun f : FlowData => f.previousFlowRate) (c.inputs ++ c.outputs) from List.filterMap_congr fun f hf => h0 f hf] at h1
    refine ⟨hist, last, h1, h2, hq'.schedule fun t ht => ?_⟩
    obtain ⟨o1, o2, o3⟩ := hc.owner ht
    obtain ⟨_, _, _, _, _, _, hsch⟩ := (hp _ o1).schedule (q.window (t / L * L) (len (t / L))) (by simp [CompData.window, hq])
    exact hsch.bin _ o2
  · obtain ⟨o1, o2, o3⟩ := hc.owner ht
    have hw := (hp _ o1).state (by simpa [CompData.window] using ho) _ o2
    rw [window_flows, List.map_map] at hw
    rcases hw with ⟨w1, w2⟩ | ⟨w1, w2⟩
    · exact .inl ⟨w1, fun f hf => w2 (f.window _ _ _) (List.mem_map.2 ⟨f, hf, rfl⟩)⟩
    · exact .inr ⟨w1, w2⟩
  · obtain ⟨o1, o2, o3⟩ := hc.owner ht
    exact (hp _ o1).exclusive _ o2

theorem comp_join (hv : sys.Valid) (hc : Cover sys.n L m len) {c : CompData} (hp : c.Proper sys) (hl : c.Local) {st : Nat → SegStart}
    (h0 : ∀ f ∈ c.inputs ++ c.outputs, (st 0).rate c.label f.label = f.previousFlowRate) {p : Nat → CompPlan}
    (ha : ∀ k < m, (p k).Allows (sys.window (k * L) (len k)) (c.window (k * L) (len k) (st k))) : (CompPlan.join L p).Allows sys c := by
  refine ⟨fun f hf => ?_, runs_join hc hl h0 fun k hk => (ha k hk).runs⟩
  refine flow_join (p := fun k => (p k).flow f.label) hv hc (declared_fits (hp.fits f hf) (hl.flows f hf)) (declared_sensible (hp.sensible f hf)) (declared_local (hl.flows f hf))
    (prev := fun k => (st k).rate c.label f.label) (h0 f hf) fun k hk => ?_
  have := (ha k hk).flows (f.window (k * L) (len k) ((st k).rate c.label f.label)) (by rw [window_flows]; exact List.mem_map.2 ⟨f, hf, rfl⟩)
  rw [declared_window] at this
  exact this

/-! ## Converters -/

theorem side_window {fs : Factors} {l : List FlowData} {a len t : Nat} {lab : String} {st : SegStart} (hf : ∀ q ∈ fs, q.2.Fits sys.n) (hi : a + len ≤ sys.n) (ht : t < len)
    (p : CompPlan) (q : CompPlan) (hq : ∀ x, (q.flow x).r (a + t) = (p.flow x).r t) :
    p.side (l.map fun f => f.window a len (st.rate lab f.label)) (fs.map fun q => (q.1, q.2.window a len)) t = q.side l fs (a + t) := by
  unfold CompPlan.side
  rw [List.map_map]
  refine congrArg List.sum (List.map_congr_left fun f _ => ?_)
  simp only [Function.comp, Factors.get, List.find?_map]
  have e : (FlowData.window a len (st.rate lab f.label) f).label = f.label := rfl
  rw [e, hq]
  congr 1
  have : ((fun q : String × Num => q.1 == f.label) ∘ fun q : String × Num => (q.1, q.2.window a len)) = fun q => q.1 == f.label := rfl
  rw [this]
  cases hfd : fs.find? fun q => q.1 == f.label with
  | none => rfl
  | some r => exact at_window (hf r (List.mem_of_find?_eq_some hfd)) hi ht

theorem curve_window {segs : List (String × List (Num × Num))} {l : List FlowData} {a len t : Nat} {lab : String} {st : SegStart}
    (hf : ∀ r ∈ segs, ∀ q ∈ r.2, q.1.Fits sys.n ∧ q.2.Fits sys.n) (hi : a + len ≤ sys.n) (ht : t < len)
    (p : CompPlan) (q : CompPlan) (hq : ∀ x, (q.flow x).r (a + t) = (p.flow x).r t)
    (h : p.OnCurve (l.map fun f => f.window a len (st.rate lab f.label)) (segs.map fun r => (r.1, r.2.map fun q => (q.1.window a len, q.2.window a len))) t) :
    q.OnCurve l segs (a + t) := by
  obtain ⟨i, u, h0, h1, hall⟩ := h
  refine ⟨i, u, h0, h1, fun f hf' r hr => ?_⟩
  obtain ⟨x, y, k1, k2⟩ := hall _ (List.mem_map.2 ⟨f, hf', rfl⟩) (r.1, r.2.map fun q => (q.1.window a len, q.2.window a len)) (by
    rw [List.find?_map]
    have : ((fun r : String × List (Num × Num) => r.1 == (FlowData.window a len (st.rate lab f.label) f).label) ∘
      fun r : String × List (Num × Num) => (r.1, r.2.map fun q => (q.1.window a len, q.2.window a len))) = fun r => r.1 == f.label := rfl
    rw [this, hr]
    rfl)
  simp only [List.getElem?_map, Option.map_eq_some_iff] at k1
  obtain ⟨⟨x', y'⟩, k3, k4⟩ := k1
  cases k4
  have hm := hf r (List.mem_of_find?_eq_some hr) _ (List.mem_of_getElem? k3)
  refine ⟨x', y', k3, ?_⟩
  rw [hq]
  rw [at_window hm.1 hi ht, at_window hm.2 hi ht] at k2
  exact k2

/-! ## Storages -/

/-- A storage of given capacity with fixed limits, without a condition between its first and last content. -/
structure StorageData.Local (s : StorageData) : Prop where
  comp : s.comp.Local
  capacity : ∀ q, s.capacity ≠ .invest q
  scalar : s.relMinCharge.isScalar = true ∧ s.relMaxCharge.isScalar = true
  cyclic : s.initial ≠ .lastValueOfSim

/-- The segment that a content belongs to: the last one also gives the content at the very end. -/
def contentOwner (L m t : Nat) : Nat := min (t / L) (m - 1)

def StoragePlan.join (L m : Nat) (p : Nat → StoragePlan) : StoragePlan where
  flows := CompPlan.join L fun k => (p k).flows
  content t := (p (contentOwner L m t)).content (t - contentOwner L m t * L)
  size := 0
  built := 1
  val := fun _ => 0

theorem scalar_window {x : Num} (h : x.isScalar = true) (a len i j : Nat) : (x.window a len).at i = x.at j := by
  cases x with
  | s x => rfl
  | v xs => cases h

theorem Cover.content {N : Nat} (hc : Cover N L m len) {t : Nat} (ht : t ≤ N) :
    contentOwner L m t < m ∧ contentOwner L m t * L ≤ t ∧ t - contentOwner L m t * L ≤ len (contentOwner L m t) := by
  have hm := hc.some
  have e := Nat.div_add_mod' t L
  have hlt := Nat.mod_lt t hc.pos
  unfold contentOwner
  by_cases h : t / L < m - 1
  · rw [min_eq_left h.le]
    have := hc.whole (t / L) (by omega)
    exact ⟨by omega, by omega, by omega⟩
  · rw [min_eq_right (by omega)]
    have hle : (m - 1) * L ≤ t := le_trans (Nat.mul_le_mul_right L (not_lt.1 h)) (Nat.div_mul_le_self t L)
    have := hc.last (m - 1) (by omega)
    exact ⟨by omega, hle, by omega⟩

/-- Step `t` begins with content number `t % L` of its segment and ends with the next one. -/
theorem Cover.steps {N : Nat} (hc : Cover N L m len) {t : Nat} (ht : t < N) :
    contentOwner L m t = t / L ∧ ((contentOwner L m (t + 1) = t / L ∧ t + 1 - t / L * L = t % L + 1) ∨
      (contentOwner L m (t + 1) = t / L + 1 ∧ t / L + 1 < m ∧ t + 1 - (t / L + 1) * L = 0 ∧ t % L + 1 = L)) := by
  obtain ⟨o1, o2, o3⟩ := hc.owner ht
  have hlt := Nat.mod_lt t hc.pos
  have hm := hc.some
  have e1 : contentOwner L m t = t / L := min_eq_left (by omega)
  refine ⟨e1, ?_⟩
  have hdiv : (t + 1) / L = if t % L + 1 = L then t / L + 1 else t / L := by
    by_cases h : t % L + 1 = L
    · rw [if_pos h]
      have : t + 1 = (t / L + 1) * L := by rw [Nat.add_mul, Nat.one_mul]; omega
      rw [this, Nat.mul_div_cancel _ hc.pos]
    · rw [if_neg h]
      have : t + 1 = (t % L + 1) + t / L * L := by omega
      rw [this, Nat.add_mul_div_right _ _ hc.pos, Nat.div_eq_of_lt (by omega)]
      omega
  by_cases h : t % L + 1 = L ∧ t / L + 1 < m
  · right
    rw [if_pos h.1] at hdiv
    refine ⟨?_, h.2, ?_, h.1⟩
    · unfold contentOwner
      rw [hdiv, min_eq_left (by omega)]
    · have : (t / L + 1) * L = t / L * L + L := by rw [Nat.add_mul, Nat.one_mul]
      omega
  · left
    refine ⟨?_, by omega⟩
    unfold contentOwner
    rw [hdiv]
    by_cases h' : t % L + 1 = L
    · rw [if_pos h', min_eq_right (by omega)]
      have : ¬ t / L + 1 < m := fun hh => h ⟨h', hh⟩
      omega
    · rw [if_neg h', min_eq_left (by omega)]

theorem storage_comp_window (s : StorageData) (a len : Nat) (st : SegStart) : (s.window a len st).comp = s.comp.window a len st := by
  rfl

theorem storage_window_proper {s : StorageData} {a len : Nat} {st : SegStart} (h : s.Proper sys) (hl : s.Local) (hi : a + len ≤ sys.n) :
    (s.window a len st).Proper (sys.window a len) where
  comp := comp_window_proper h.comp hl.comp hi
  fits := by
    have sc : ∀ x : Num, x.isScalar = true → (x.window a len).Fits (len + 1) := by
      intro x hx
      cases x with
      | s x => exact .inl rfl
      | v xs => cases hx
    exact ⟨sc _ hl.scalar.1, sc _ hl.scalar.2, fits_window h.fits.etaC hi, fits_window h.fits.etaD hi, fits_window h.fits.loss hi⟩
  rel := fun t _ => by
    have := h.rel 0 (Nat.zero_le _)
    rw [show (s.window a len st).relMinCharge = s.relMinCharge.window a len from rfl, show (s.window a len st).relMaxCharge = s.relMaxCharge.window a len from rfl,
      scalar_window hl.scalar.1 a len t 0, scalar_window hl.scalar.2 a len t 0]
    exact this
  capacity := fun q hq => absurd hq (hl.capacity q)

theorem storage_join (hv : sys.Valid) (hc : Cover sys.n L m len) {s : StorageData} (hp : s.Proper sys) (hl : s.Local) {st : Nat → SegStart}
    (h0 : ∀ f ∈ s.comp.inputs ++ s.comp.outputs, (st 0).rate s.label f.label = f.previousFlowRate) (h0' : (st 0).charge s.label = s.initial) {p : Nat → StoragePlan}
    (hh : ∀ k, k + 1 < m → (st (k + 1)).charge s.label = .num ((p k).content L))
    (ha : ∀ k < m, (p k).Allows (sys.window (k * L) (len k)) (s.window (k * L) (len k) (st k))) : (StoragePlan.join L m p).Allows sys s := by
  have cap : ∀ k, (p k).capacity (s.window (k * L) (len k) (st k)) = (StoragePlan.join L m p).capacity s := by
    intro k
    unfold StoragePlan.capacity StorageData.window
    cases hs : s.capacity with
    | num x => rfl
    | invest q => exact absurd hs (hl.capacity q)
  have hand : ∀ k, k + 1 < m → (p (k + 1)).content 0 = (p k).content L := fun k hk => (ha (k + 1) hk).ends.start _ (hh k hk)
  refine ⟨comp_join hv hc hp.comp hl.comp h0 fun k hk => (ha k hk).flows, fun t ht => ?_, fun t ht => ?_, ⟨?_, fun h => absurd h hl.cyclic, ?_, ?_⟩, hp.rel,
    fun q hq => absurd hq (hl.capacity q), fun q hq => absurd hq (hl.capacity q)⟩
  · obtain ⟨c1, c2, c3⟩ := hc.content ht
    have := (ha _ c1).content _ c3
    rw [cap, show (s.window _ _ _).relMinCharge = s.relMinCharge.window _ _ from rfl, show (s.window _ _ _).relMaxCharge = s.relMaxCharge.window _ _ from rfl,
      scalar_window hl.scalar.1 _ _ _ t, scalar_window hl.scalar.2 _ _ _ t] at this
    exact this
  · obtain ⟨o1, o2, o3⟩ := hc.owner ht
    obtain ⟨s1, s2⟩ := hc.steps ht
    have hb := (ha _ o1).balance _ o2
    have hi := hc.inside _ o1
    rw [width_window hv hi o2, show (s.window _ _ _).relLoss = s.relLoss.window _ _ from rfl, show (s.window _ _ _).etaCharge = s.etaCharge.window _ _ from rfl,
      show (s.window _ _ _).etaDischarge = s.etaDischarge.window _ _ from rfl, at_window hp.fits.loss hi o2, at_window hp.fits.etaC hi o2,
      at_window hp.fits.etaD hi o2, o3] at hb
    have e0 : (StoragePlan.join L m p).content t = (p (t / L)).content (t % L) := by
      show (p (contentOwner L m t)).content (t - contentOwner L m t * L) = _
      rw [s1, show t - t / L * L = t % L by omega]
    have e1 : (StoragePlan.join L m p).content (t + 1) = (p (t / L)).content (t % L + 1) := by
      show (p (contentOwner L m (t + 1))).content (t + 1 - contentOwner L m (t + 1) * L) = _
      rcases s2 with ⟨a1, a2⟩ | ⟨a1, a2, a3, a4⟩
      · rw [a1, a2]
      · rw [a1, a3, a4]
        exact hand _ a2
    rw [e0, e1]
    exact hb
  · intro x hx
    have := (ha 0 hc.some).ends.start x (by rw [← hx, ← h0']; rfl)
    have e : contentOwner L m 0 = 0 := by simp [contentOwner]
    show (p (contentOwner L m 0)).content (0 - contentOwner L m 0 * L) = x
    rw [e, Nat.zero_sub]
    exact this
  all_goals
    intro hne x hx
    have hm := hc.some
    have ini : (s.window ((m - 1) * L) (len (m - 1)) (st (m - 1))).initial ≠ .none := by
      show (st (m - 1)).charge s.label ≠ .none
      by_cases h1 : m = 1
      · subst h1; rw [h0']; exact hne
      · have := hh (m - 2) (by omega)
        rw [show m - 2 + 1 = m - 1 by omega] at this
        rw [this]
        intro h
        cases h
    have hlast := hc.last (m - 1) (by omega)
    have hne' := hc.nonempty (m - 1) (by omega)
    have e : contentOwner L m sys.n = m - 1 := min_eq_right ((Nat.le_div_iff_mul_le hc.pos).2 (by omega))
    have e2 : (StoragePlan.join L m p).content sys.n = (p (m - 1)).content (len (m - 1)) := by
      show (p (contentOwner L m sys.n)).content (sys.n - contentOwner L m sys.n * L) = _
      rw [e, show sys.n - (m - 1) * L = len (m - 1) by omega]
    rw [e2]
  · exact (ha (m - 1) (by omega)).ends.maxF ini x hx
  · exact (ha (m - 1) (by omega)).ends.minF ini x hx

/-! ## Transmissions -/

/-- A transmission of given size whose absolute losses are zero everywhere or nowhere. -/
structure TransData.Local (t : TransData) : Prop where
  plain : t.plain.Local
  losses : ∀ xs, t.absLosses = some (.v xs) → (∀ x ∈ xs, x = 0) ∨ ∀ x ∈ xs, x ≠ 0

theorem plain_window (t : TransData) (a len : Nat) (st : SegStart) : (t.window a len st).plain = t.plain.window a len st := by
  unfold TransData.plain TransData.window CompData.window
  cases t.in2 with
  | none => cases t.out2 <;> rfl
  | some f => cases t.out2 <;> rfl

theorem losses_window {t : TransData} (hl : t.Local) (hf : t.Fits sys.n) {a len : Nat} {st : SegStart} (hi : a + len ≤ sys.n) (h0 : 0 < len) :
    (t.window a len st).absLosses.any Num.anyNonzero = t.absLosses.any Num.anyNonzero := by
  show (t.absLosses.map (·.window a len)).any _ = _
  cases ha : t.absLosses with
  | none => rfl
  | some x =>
    cases x with
    | s x => rfl
    | v xs =>
      have hlen : xs.length = sys.n := by
        rcases hf.abs _ ha with h | h
        · cases h
        · exact h
      have sub : ∀ x ∈ (xs.drop a).take len, x ∈ xs := fun x hx => List.mem_of_mem_drop (List.mem_of_mem_take hx)
      show (((xs.drop a).take len).any fun x => decide (x ≠ 0)) = xs.any fun x => decide (x ≠ 0)
      rcases hl.losses xs ha with h | h
      · rw [List.any_eq_false.2 fun x hx => by simpa using h x (sub x hx), List.any_eq_false.2 fun x hx => by simpa using h x hx]
      · have e1 : (xs.any fun x => decide (x ≠ 0)) = true := List.any_eq_true.2 ⟨xs[0]'(by omega), List.getElem_mem _, by simpa using h _ (List.getElem_mem _)⟩
        have hl' : 0 < ((xs.drop a).take len).length := by simp; omega
        rw [e1]
        exact List.any_eq_true.2 ⟨((xs.drop a).take len)[0], List.getElem_mem _, by simpa using h _ (sub _ (List.getElem_mem hl'))⟩

theorem stated_window {t : TransData} (hl : t.Local) (hf : t.Fits sys.n) {a len : Nat} {st : SegStart} (hi : a + len ≤ sys.n) (h0 : 0 < len) (f : FlowData) (prev : Option Num) :
    (t.window a len st).stated (f.window a len prev) = (t.stated f).window a len prev := by
  unfold TransData.stated
  rw [plain_window, losses_window hl hf hi h0, ← declared_window t.plain _ a len st]
  congr 1
  rw [flow_window_onOff]
  have key : ((f.onOff.map (OnOffParams.window a len)) <|> if t.absLosses.any Num.anyNonzero then some ({} : OnOffParams) else none) =
      (f.onOff <|> if t.absLosses.any Num.anyNonzero then some ({} : OnOffParams) else none).map (OnOffParams.window a len) := by
    cases f.onOff with
    | some q => rfl
    | none =>
      by_cases hb : t.absLosses.any Num.anyNonzero = true
      · simp only [if_pos hb]; rfl
      · simp only [if_neg hb]; rfl
  rw [key]
  rfl

theorem losses_at {t : TransData} (hf : t.Fits sys.n) {a len k : Nat} {st : SegStart} (hi : a + len ≤ sys.n) (hk : k < len) :
    (t.window a len st).relAt k = t.relAt (a + k) ∧ (t.window a len st).absAt k = t.absAt (a + k) := by
  have key : ∀ x : Option Num, (∀ r, x = some r → r.Fits sys.n) → (((x.map (·.window a len)).map fun r => r.at k).getD 0) = ((x.map fun r => r.at (a + k)).getD 0) := by
    intro x hx
    cases x with
    | none => rfl
    | some r => exact at_window (hx r rfl) hi hk
  exact ⟨key _ hf.rel, key _ hf.abs⟩

theorem delivers_join (hc : Cover sys.n L m len) {t : TransData} (hf : t.Fits sys.n) {st : Nat → SegStart} {x y : Nat → Nat → ℚ}
    (h : ∀ k < m, (t.window (k * L) (len k) (st k)).Delivers (len k) (x k) (y k)) :
    t.Delivers sys.n (fun i => x (i / L) (i % L)) (fun i => y (i / L) (i % L)) := by
  intro i hi
  obtain ⟨o1, o2, o3⟩ := hc.owner hi
  have := h _ o1 _ o2
  rw [(losses_at hf (hc.inside _ o1) o2).1, (losses_at hf (hc.inside _ o1) o2).2, o3] at this
  exact this

theorem trans_window_proper {t : TransData} {a len : Nat} {st : SegStart} (h : t.Proper sys) (hl : t.Local) (hi : a + len ≤ sys.n) :
    (t.window a len st).Proper (sys.window a len) where
  plain := by rw [plain_window]; exact comp_window_proper h.plain hl.plain hi
  fits := by
    constructor <;> intro r hr <;> obtain ⟨r', h1, rfl⟩ := Option.map_eq_some_iff.1 hr
    · exact fits_window (h.fits.rel _ h1) hi
    · exact fits_window (h.fits.abs _ h1) hi
  big := h.big

theorem trans_join (hv : sys.Valid) (hc : Cover sys.n L m len) {t : TransData} (hp : t.Proper sys) (hl : t.Local) {st : Nat → SegStart}
    (h0 : ∀ f ∈ t.plain.inputs ++ t.plain.outputs, (st 0).rate t.label f.label = f.previousFlowRate) {p : Nat → CompPlan}
    (ha : ∀ k < m, (p k).Transmits (sys.window (k * L) (len k)) (t.window (k * L) (len k) (st k))) : (CompPlan.join L p).Transmits sys t := by
  have m1 : t.in1 ∈ t.plain.inputs ++ t.plain.outputs := by simp [TransData.plain]
  have m2 : t.out1 ∈ t.plain.inputs ++ t.plain.outputs := by simp [TransData.plain]
  have m3 : ∀ f, t.in2 = some f → f ∈ t.plain.inputs ++ t.plain.outputs := fun f hf => by simp [TransData.plain, hf]
  have m4 : ∀ f, t.out2 = some f → f ∈ t.plain.inputs ++ t.plain.outputs := fun f hf => by simp [TransData.plain, hf]
  have no : ∀ q, t.in1.size ≠ .invest q := (hl.plain.flows _ m1).size
  have each : ∀ f ∈ t.plain.inputs ++ t.plain.outputs, (∀ k < m, ((p k).flow f.label).Allows (sys.window (k * L) (len k))
      ((t.window (k * L) (len k) (st k)).stated (f.window (k * L) (len k) ((st k).rate t.label f.label)))) → ((CompPlan.join L p).flow f.label).Allows sys (t.stated f) := by
    intro f hf h
    have hlf := hl.plain.flows f hf
    have hlf' : FlowData.Local { f with onOff := f.onOff <|> if t.absLosses.any Num.anyNonzero then some ({} : OnOffParams) else none } :=
      ⟨hlf.size, hlf.hours, hlf.load, orElse_local hlf.onOff⟩
    have hff := hp.plain.fits f hf
    have hff' : FlowData.Fits sys.n { f with onOff := f.onOff <|> if t.absLosses.any Num.anyNonzero then some ({} : OnOffParams) else none } :=
      ⟨hff.relMin, hff.relMax, hff.prof, fun q hq => (hlf'.onOff q hq).fits _⟩
    have hsf := hp.plain.sensible f hf
    refine flow_join (p := fun k => (p k).flow f.label) hv hc (f := t.stated f) (declared_fits hff' hlf') (declared_sensible ⟨hsf.size, hsf.low, hsf.invest⟩) (declared_local hlf')
      (prev := fun k => (st k).rate t.label f.label) (h0 f hf) fun k hk => ?_
    rw [← stated_window hl hp.fits (hc.inside k hk) (hc.nonempty k hk) (st := st k)]
    exact h k hk
  refine ⟨each _ m1 fun k hk => (ha k hk).in1, each _ m2 fun k hk => (ha k hk).out1, fun f hf => each _ (m4 f hf) fun k hk => ?_, fun f hf _ => each _ (m3 f hf) fun k hk => ?_,
    fun _ _ q hq => absurd hq (no q), fun _ _ q hq => absurd hq (no q), ?_, ?_, ?_⟩
  · exact (ha k hk).out2 _ (by simp [TransData.window, hf])
  · exact (ha k hk).in2 _ (by simp [TransData.window, hf]) (.inl no)
  · refine runs_join hc hl.plain h0 fun k hk => ?_
    rw [← plain_window]
    exact (ha k hk).runs
  · exact delivers_join hc hp.fits fun k hk => (ha k hk).first_arrives
  · intro i o hi ho
    exact delivers_join hc hp.fits fun k hk => (ha k hk).second_arrives (i.window (k * L) (len k) ((st k).rate t.label i.label))
      (o.window (k * L) (len k) ((st k).rate t.label o.label)) (by simp [TransData.window, hi]) (by simp [TransData.window, ho])

end Flix
