import Verif.Lemmas.WindowSystem

/-! # The part of an operation of the whole horizon that belongs to a segment -/

namespace Flix

variable {sys : Sys} {a k : Nat} {st : SegStart}

def FlowPlan.cut (a : Nat) (p : FlowPlan) : FlowPlan where
  r t := p.r (a + t)
  b t := p.b (a + t)
  s := p.s
  d := p.d
  val := p.val

def CompPlan.cut (a : Nat) (p : CompPlan) : CompPlan where
  flow l := (p.flow l).cut a
  on t := p.on (a + t)

def StoragePlan.cut (a : Nat) (p : StoragePlan) : StoragePlan where
  flows := p.flows.cut a
  content t := p.content (a + t)
  size := p.size
  built := p.built
  val := p.val

/-- The previous rates are those of the user, or one number for every flow. -/
def Begun (st : SegStart) (lab : String) (l : List FlowData) : Prop :=
  (∀ f ∈ l, st.rate lab f.label = f.previousFlowRate) ∨ ∀ f ∈ l, ∃ x, st.rate lab f.label = some (.s x)

theorem Begun.flow {lab : String} {l : List FlowData} (h : Begun st lab l) {f : FlowData} (hf : f ∈ l) :
    st.rate lab f.label = f.previousFlowRate ∨ ∃ x, st.rate lab f.label = some (.s x) := h.imp (· f hf) (· f hf)

theorem flow_cut {f : FlowData} (hf : f.Fits sys.n) (hl : f.Local) (hi : a + k ≤ sys.n) {prev : Option Num}
    (h0 : prev = f.previousFlowRate ∨ ∃ x, prev = some (.s x)) {p : FlowPlan} (hp : p.Allows sys f) :
    (p.cut a).Allows (sys.window a k) (f.window a k prev) := by
  have cap : (p.cut a).capacity (sys.window a k).cfg (f.window a k prev) = p.capacity sys.cfg f := capacity_window _ _ hl
  refine ⟨flow_window_sensible (sys := sys) hf hp.sensible hi, ⟨fun ho t ht => ?_, fun ho t ht => ?_, fun q hq => ?_, ?_, ?_, ?_, ?_⟩, fun q hq => absurd hq (hl.size q)⟩
  · have ht : t < k := ht
    rw [cap, (low_window hf hi ht).1, (low_window hf hi ht).2]
    exact hp.follows.always (by simpa [FlowData.window] using ho) _ (by omega)
  · have ht : t < k := ht
    rw [cap, (low_window hf hi ht).1, (low_window hf hi ht).2]
    exact hp.follows.running (by simpa [FlowData.window] using ho) _ (by omega)
  · obtain ⟨q', hq', rfl⟩ := Option.map_eq_some_iff.1 hq
    obtain ⟨_, last, h1, h2⟩ := hp.follows.schedule q' hq'
    refine ⟨((hl.onOff q' hq').window a k).nonneg _, ?_⟩
    have : ∃ last, (flowHistory sys.cfg.eps prev).getLast? = some last := by
      rcases h0 with rfl | ⟨x, rfl⟩
      · exact ⟨last, h1⟩
      · exact ⟨_, rfl⟩
    obtain ⟨l', h'⟩ := this
    exact ⟨l', h', ((hl.onOff q' hq').window a k).schedule fun t (ht : t < k) => h2.bin _ (by omega)⟩
  · intro m hm
    have : f.flowHoursTotalMin = some m := hm
    simp [hl.hours] at this
  · intro m hm
    have : f.flowHoursTotalMax = some m := hm
    simp [hl.hours] at this
  · intro m hm
    have : f.loadFactorMin = some m := hm
    simp [hl.load] at this
  · intro m hm
    have : f.loadFactorMax = some m := hm
    simp [hl.load] at this

theorem scalar_history (eps : ℚ) : ∀ (l : List Num), (∀ x ∈ l, x.isScalar = true) → ∃ hist last, prevOnOfList eps l = .ok hist ∧ hist.getLast? = some last := by
  intro l hl
  unfold prevOnOfList
  by_cases h0 : l.isEmpty = true
  · rw [if_pos h0]
    exact ⟨_, 0, rfl, rfl⟩
  · rw [if_neg h0]
    rw [if_pos (by
      rw [List.isEmpty_iff, List.filterMap_eq_nil_iff]
      intro x hx
      cases x with
      | s x => rfl
      | v xs => cases hl _ hx)]
    refine ⟨_, _, rfl, List.getLast?_eq_some_getLast ?_⟩
    cases l with
    | nil => simp at h0
    | cons x xs =>
      cases x with
      | s x => simp
      | v ys => cases hl (.v ys) (by simp)

theorem runs_cut {c : CompData} (hl : c.Local) (hi : a + k ≤ sys.n) (h0 : Begun st c.label (c.inputs ++ c.outputs)) {p : CompPlan} (hp : p.Runs sys c) :
    (p.cut a).Runs (sys.window a k) (c.window a k st) := by
  refine ⟨fun q hq => ?_, fun ho t ht => ?_, fun t ht => ?_⟩
  · obtain ⟨q', hq', rfl⟩ := Option.map_eq_some_iff.1 hq
    obtain ⟨_, _, hist, last, h1, h2, h3⟩ := hp.schedule q' hq'
    have hw := (hl.onOff q' hq').window a k
    refine ⟨hw.fits _, hw.nonneg _, ?_⟩
    have : ∃ hist last, prevOnOfList sys.cfg.eps (((c.window a k st).inputs ++ (c.window a k st).outputs).filterMap (·.previousFlowRate)) = .ok hist ∧ hist.getLast? = some last := by
      rw [window_flows, List.filterMap_map]
      rcases h0 with h0 | h0
      · rw [show List.filterMap ((fun x : FlowData => x.previousFlowRate) ∘ fun f => FlowData.window a k (st.rate c.label f.label) f) (c.inputs ++ c.outputs) =
          List.filterMap (fun f : FlowData => f.previousFlowRate) (c.inputs ++ c.outputs) from List.filterMap_congr fun f hf => h0 f hf]
        exact ⟨hist, last, h1, h2⟩
      · refine scalar_history _ _ fun x hx => ?_
        obtain ⟨f, hf, hfx⟩ := List.mem_filterMap.1 hx
        obtain ⟨y, hy⟩ := h0 f hf
        have hfx : st.rate c.label f.label = some x := hfx
        rw [hy] at hfx
        cases hfx
        rfl
    obtain ⟨hist', last', e1, e2⟩ := this
    exact ⟨hist', last', e1, e2, hw.schedule fun t (ht : t < k) => h3.bin _ (by omega)⟩
  · have ht : t < k := ht
    have := hp.state (by simpa [CompData.window] using ho) (a + t) (by omega)
    rw [window_flows, List.map_map]
    rcases this with ⟨w1, w2⟩ | ⟨w1, w2⟩
    · refine .inl ⟨w1, fun f hf => ?_⟩
      obtain ⟨g, hg, rfl⟩ := List.mem_map.1 hf
      exact w2 g hg
    · exact .inr ⟨w1, w2⟩
  · have ht : t < k := ht
    exact hp.exclusive (a + t) (by omega)

theorem comp_cut {c : CompData} (hp : c.Proper sys) (hl : c.Local) (hi : a + k ≤ sys.n) (h0 : Begun st c.label (c.inputs ++ c.outputs)) {p : CompPlan} (ha : p.Allows sys c) :
    (p.cut a).Allows (sys.window a k) (c.window a k st) := by
  refine ⟨fun f hf => ?_, runs_cut hl hi h0 ha.runs⟩
  rw [window_flows] at hf
  obtain ⟨g, hg, rfl⟩ := List.mem_map.1 hf
  rw [declared_window]
  exact flow_cut (declared_fits (hp.fits g hg) (hl.flows g hg)) (declared_local (hl.flows g hg)) hi (h0.flow (f := g) hg) (ha.flows g hg)

theorem curve_cut {segs : List (String × List (Num × Num))} {l : List FlowData} {t : Nat} {lab : String}
    (hf : ∀ r ∈ segs, ∀ q ∈ r.2, q.1.Fits sys.n ∧ q.2.Fits sys.n) (hi : a + k ≤ sys.n) (ht : t < k) (p : CompPlan) (h : p.OnCurve l segs (a + t)) :
    (p.cut a).OnCurve (l.map fun f => f.window a k (st.rate lab f.label)) (segs.map fun r => (r.1, r.2.map fun q => (q.1.window a k, q.2.window a k))) t := by
  obtain ⟨i, u, h0, h1, hall⟩ := h
  refine ⟨i, u, h0, h1, fun f hf' r hr => ?_⟩
  obtain ⟨g, hg, rfl⟩ := List.mem_map.1 hf'
  rw [List.find?_map] at hr
  have : ((fun r : String × List (Num × Num) => r.1 == (FlowData.window a k (st.rate lab g.label) g).label) ∘
      fun r : String × List (Num × Num) => (r.1, r.2.map fun q => (q.1.window a k, q.2.window a k))) = fun r => r.1 == g.label := rfl
  rw [this] at hr
  obtain ⟨r', hr', rfl⟩ := Option.map_eq_some_iff.1 hr
  obtain ⟨x, y, k1, k2⟩ := hall g hg r' hr'
  have hm := hf r' (List.mem_of_find?_eq_some hr') _ (List.mem_of_getElem? k1)
  refine ⟨x.window a k, y.window a k, by simp [List.getElem?_map, k1], ?_⟩
  rw [at_window hm.1 hi ht, at_window hm.2 hi ht]
  exact k2

/-- No limits for the final content, unless the segment is the last one and the code enforces them in the whole horizon too. -/
def StorageData.OpenEnd (n a k : Nat) (s : StorageData) : Prop := (s.minFinal = none ∧ s.maxFinal = none) ∨ (a + k = n ∧ s.initial ≠ .none)

theorem storage_cut {s : StorageData} (hv : sys.Valid) (hp : s.Proper sys) (hl : s.Local) (hi : a + k ≤ sys.n) (h0 : Begun st s.label (s.comp.inputs ++ s.comp.outputs))
    (he : s.OpenEnd sys.n a k) {p : StoragePlan} (hc : ∀ x, st.charge s.label = .num x → p.content a = x) (hlast : st.charge s.label ≠ .lastValueOfSim)
    (ha : p.Allows sys s) : (p.cut a).Allows (sys.window a k) (s.window a k st) := by
  have cap : (p.cut a).capacity (s.window a k st) = p.capacity s := by
    unfold StoragePlan.capacity StorageData.window
    cases hs : s.capacity with
    | num x => rfl
    | invest q => exact absurd hs (hl.capacity q)
  refine ⟨comp_cut hp.comp hl.comp hi h0 ha.flows, fun t ht => ?_, fun t ht => ?_, ⟨hc, fun h => absurd h hlast, fun hne x hx => ?_, fun hne x hx => ?_⟩,
    (storage_window_proper hp hl hi).rel, fun q hq => absurd hq (hl.capacity q), fun q hq => absurd hq (hl.capacity q)⟩
  · have ht : t ≤ k := ht
    have := ha.content (a + t) (by omega)
    rw [cap, show (s.window a k st).relMinCharge = s.relMinCharge.window a k from rfl, show (s.window a k st).relMaxCharge = s.relMaxCharge.window a k from rfl,
      scalar_window hl.scalar.1 a k t (a + t), scalar_window hl.scalar.2 a k t (a + t)]
    exact this
  · have ht : t < k := ht
    have := ha.balance (a + t) (by omega)
    rw [width_window hv hi ht, show (s.window a k st).relLoss = s.relLoss.window a k from rfl, show (s.window a k st).etaCharge = s.etaCharge.window a k from rfl,
      show (s.window a k st).etaDischarge = s.etaDischarge.window a k from rfl, at_window hp.fits.loss hi ht, at_window hp.fits.etaC hi ht,
      at_window hp.fits.etaD hi ht]
    exact this
  · have hx : s.maxFinal = some x := hx
    rcases he with ⟨_, h2⟩ | ⟨h1, h2⟩
    · rw [h2] at hx; cases hx
    · have := ha.ends.maxF h2 x hx
      rw [← h1] at this
      exact this
  · have hx : s.minFinal = some x := hx
    rcases he with ⟨h2, _⟩ | ⟨h1, h2⟩
    · rw [h2] at hx; cases hx
    · have := ha.ends.minF h2 x hx
      rw [← h1] at this
      exact this

theorem delivers_cut {t : TransData} (hf : t.Fits sys.n) (hi : a + k ≤ sys.n) {x y : Nat → ℚ} (h : t.Delivers sys.n x y) :
    (t.window a k st).Delivers k (fun i => x (a + i)) (fun i => y (a + i)) := by
  intro i hik
  rw [(losses_at hf hi hik).1, (losses_at hf hi hik).2]
  exact h (a + i) (by omega)

theorem trans_cut {t : TransData} (hp : t.Proper sys) (hl : t.Local) (hi : a + k ≤ sys.n) (hk : 0 < k) (h0 : Begun st t.label (t.plain.inputs ++ t.plain.outputs))
    {p : CompPlan} (ha : p.Transmits sys t) : (p.cut a).Transmits (sys.window a k) (t.window a k st) := by
  have m1 : t.in1 ∈ t.plain.inputs ++ t.plain.outputs := by simp [TransData.plain]
  have m2 : t.out1 ∈ t.plain.inputs ++ t.plain.outputs := by simp [TransData.plain]
  have m3 : ∀ f, t.in2 = some f → f ∈ t.plain.inputs ++ t.plain.outputs := fun f hf => by simp [TransData.plain, hf]
  have m4 : ∀ f, t.out2 = some f → f ∈ t.plain.inputs ++ t.plain.outputs := fun f hf => by simp [TransData.plain, hf]
  have no : ∀ q, t.in1.size ≠ .invest q := (hl.plain.flows _ m1).size
  have each : ∀ f ∈ t.plain.inputs ++ t.plain.outputs, (p.flow f.label).Allows sys (t.stated f) →
      ((p.cut a).flow f.label).Allows (sys.window a k) ((t.window a k st).stated (f.window a k (st.rate t.label f.label))) := by
    intro f hf h
    have hlf := hl.plain.flows f hf
    have hlf' : FlowData.Local { f with onOff := f.onOff <|> if t.absLosses.any Num.anyNonzero then some ({} : OnOffParams) else none } :=
      ⟨hlf.size, hlf.hours, hlf.load, orElse_local hlf.onOff⟩
    have hff := hp.plain.fits f hf
    have hff' : FlowData.Fits sys.n { f with onOff := f.onOff <|> if t.absLosses.any Num.anyNonzero then some ({} : OnOffParams) else none } :=
      ⟨hff.relMin, hff.relMax, hff.prof, fun q hq => (hlf'.onOff q hq).fits _⟩
    rw [stated_window hl hp.fits hi hk]
    exact flow_cut (f := t.stated f) (declared_fits hff' hlf') (declared_local hlf') hi (h0.flow (f := f) hf) h
  refine ⟨each _ m1 ha.in1, each _ m2 ha.out1, fun f hf => ?_, fun f hf _ => ?_, fun _ _ q hq => absurd hq (no q), fun _ _ q hq => absurd hq (no q), ?_, ?_, ?_⟩
  · obtain ⟨g, hg, rfl⟩ := Option.map_eq_some_iff.1 hf
    exact each _ (m4 g hg) (ha.out2 g hg)
  · obtain ⟨g, hg, rfl⟩ := Option.map_eq_some_iff.1 hf
    exact each _ (m3 g hg) (ha.in2 g hg (.inl no))
  · rw [plain_window]
    exact runs_cut hl.plain hi h0 ha.runs
  · exact delivers_cut hp.fits hi ha.first_arrives
  · intro i o hi' ho
    obtain ⟨i', hi2, rfl⟩ := Option.map_eq_some_iff.1 hi'
    obtain ⟨o', ho2, rfl⟩ := Option.map_eq_some_iff.1 ho
    exact delivers_cut hp.fits hi (ha.second_arrives i' o' hi2 ho2)

/-! ## Components -/

/-- The values in `τ` are those of `σ` from step `a` on. -/
structure Comp.Cuts (a k : Nat) (c : Comp) (σ τ : Assignment) : Prop where
  rate : ∀ f ∈ c.flows, ∀ t < k, τ (rateL c.label f.label) t = σ (rateL c.label f.label) (a + t)
  flowOn : ∀ f ∈ c.flows, f.onOff ≠ none → ∀ t < k, τ (stateL (flowFull c.label f.label)) t = σ (stateL (flowFull c.label f.label)) (a + t)
  on : c.onOff ≠ none → ∀ t < k, τ (stateL c.label) t = σ (stateL c.label) (a + t)
  charge : ∀ s, c = .storage s → ∀ t ≤ k, τ (chargeStateL s.label) t = σ (chargeStateL s.label) (a + t)

theorem comp_cuts {c : CompData} {σ τ : Assignment} {p : CompPlan} (hp : p.Realized c σ) (hj : (p.cut a).Realized (c.window a k st) τ) :
    (∀ f ∈ c.inputs ++ c.outputs, ∀ t < k, τ (rateL c.label f.label) t = σ (rateL c.label f.label) (a + t)) ∧
    (∀ f ∈ c.inputs ++ c.outputs, f.onOff ≠ none → ∀ t < k, τ (stateL (flowFull c.label f.label)) t = σ (stateL (flowFull c.label f.label)) (a + t)) ∧
    (c.onOff ≠ none → ∀ t < k, τ (stateL c.label) t = σ (stateL c.label) (a + t)) := by
  have mem : ∀ f ∈ c.inputs ++ c.outputs, f.window a k (st.rate c.label f.label) ∈ (c.window a k st).inputs ++ (c.window a k st).outputs := by
    intro f hf
    rw [window_flows]
    exact List.mem_map.2 ⟨f, hf, rfl⟩
  have decl : ∀ f : FlowData, f.onOff ≠ none → (c.declared f).onOff ≠ none := by
    intro f ho
    unfold CompData.declared
    cases hq : f.onOff with
    | none => exact absurd hq ho
    | some q => exact fun h => by cases h
  refine ⟨fun f hf t _ => ?_, fun f hf ho t _ => ?_, fun ho t _ => ?_⟩
  · rw [hp.rate f hf]
    exact congrFun (hj.rate _ (mem f hf)) t
  · rw [hp.flowOn f hf (decl f ho)]
    exact congrFun (hj.flowOn _ (mem f hf) (by
      rw [declared_window, flow_window_onOff]
      simpa using decl f ho)) t
  · rw [hp.on ho]
    exact congrFun (hj.on (by simpa [CompData.window] using ho)) t

/-- The start values of a segment that begins with step `a` are those of the operation `σ`: the rates of the step before and the content at the
beginning of the step, for the first segment those of the user. -/
structure Comp.Begins (a : Nat) (σ : Assignment) (st : SegStart) (c : Comp) : Prop where
  rate0 : a = 0 → ∀ f ∈ c.flows, st.rate c.label f.label = f.previousFlowRate
  charge0 : a = 0 → ∀ s, c = .storage s → st.charge s.label = s.initial
  rate : a ≠ 0 → ∀ f ∈ c.flows, st.rate c.label f.label = some (.s (σ (rateL c.label f.label) (a - 1)))
  charge : a ≠ 0 → ∀ s, c = .storage s → st.charge s.label = .num (σ (chargeStateL s.label) a)

theorem Comp.Begins.begun {c : Comp} {σ : Assignment} (h : c.Begins a σ st) : Begun st c.label c.flows := by
  by_cases h0 : a = 0
  · exact .inl (h.rate0 h0)
  · exact .inr fun f hf => ⟨_, h.rate h0 f hf⟩

theorem model_cut (hv : sys.Valid) (hpd : sys.prevDt.Nonneg) (hi : a + k ≤ sys.n) (hk : 0 < k) {c : Comp} {oc ok : CompOut} (hp : c.Proper sys) (hl : c.Local)
    (h : c.model sys = .ok oc) {σ : Assignment} (hs : oc.tree.Solves σ) (hb : c.Begins a σ st) (he : ∀ s, c = .storage s → s.OpenEnd sys.n a k)
    (hm : (c.window a k st).model (sys.window a k) = .ok ok) (hnd : ok.tree.labels.Nodup) :
    ∃ τ, ok.tree.Solves τ ∧ ∀ τ' : Assignment, (∀ l ∈ ok.tree.labels, τ' l = τ l) → c.Cuts a k σ τ' := by
  have hn : sys.n ≠ 0 := by omega
  have hvk := valid_window hv hi
  cases c with
  | plain c =>
    have hp : c.Proper sys := hp
    have hl : c.Local := hl
    obtain ⟨p, p1, p2⟩ := C82_plain_sound hv hp h hs
    have hwp := comp_window_proper (st := st) hp hl hi
    obtain ⟨τ, t1, t2⟩ := C82_plain_partial hvk hwp.fits hm hpd hnd (comp_cut hp hl hi hb.begun p1)
    refine ⟨τ, t1, fun τ' hag => ?_⟩
    obtain ⟨u1, u2, u3⟩ := comp_cuts p2 ((comp_agree hm hag).2 _ t2)
    exact ⟨u1, u2, u3, fun s hs => by cases hs⟩
  | converter c =>
    obtain ⟨hp, hff, hsf⟩ : c.comp.Proper sys ∧ (∀ fs ∈ c.factors, ∀ q ∈ fs, q.2.Fits sys.n) ∧ ∀ r ∈ c.segments, ∀ q ∈ r.2, q.1.Fits sys.n ∧ q.2.Fits sys.n := hp
    have hl : c.comp.Local := hl
    have hwp := comp_window_proper (st := st) hp hl hi
    by_cases hne : c.factors = []
    · obtain ⟨p, p1, p2, p3⟩ := C82_segments_sound hv hn hp h hne hsf hs
      obtain ⟨τ, t1, t2⟩ := C82_segments_partial hvk (show (sys.window a k).n ≠ 0 from hk.ne') (c := c.window a k st) hwp.fits hm hpd hnd (by simp [ConvData.window, hne]) (by
        intro r hr q hq
        obtain ⟨r', hr', rfl⟩ := List.mem_map.1 hr
        obtain ⟨q', hq', rfl⟩ := List.mem_map.1 hq
        exact ⟨fits_window (hsf r' hr' q' hq').1 hi, fits_window (hsf r' hr' q' hq').2 hi⟩) (comp_cut hp hl hi hb.begun p1) (by
        intro t ht
        have ht : t < k := ht
        rcases p2 (a + t) (by omega) with ⟨w1, w2⟩ | w
        · exact .inl ⟨by simpa [ConvData.window, CompData.window] using w1, w2⟩
        · right
          show (p.cut a).OnCurve ((c.comp.window a k st).inputs ++ (c.comp.window a k st).outputs) _ t
          rw [window_flows]
          exact curve_cut hsf hi ht p w)
      refine ⟨τ, t1, fun τ' hag => ?_⟩
      obtain ⟨o0, h0, hsub⟩ := converter_labels hm
      obtain ⟨u1, u2, u3⟩ := comp_cuts p3 ((comp_agree h0 fun l hl => hag l (hsub l hl)).2 _ t2)
      exact ⟨u1, u2, u3, fun s hs => by cases hs⟩
    · obtain ⟨p, p1, p2, p3⟩ := C82_factors_sound hv hp h hne hff hs
      obtain ⟨τ, t1, t2⟩ := C82_factors_partial hvk (c := c.window a k st) hwp.fits hm hpd hnd (by simpa [ConvData.window] using hne) (by
        intro fs hfs q hq
        obtain ⟨fs', hfs', rfl⟩ := List.mem_map.1 hfs
        obtain ⟨q', hq', rfl⟩ := List.mem_map.1 hq
        exact fits_window (hff fs' hfs' q' hq') hi) (comp_cut hp hl hi hb.begun p1) (by
        intro fs hfs t ht
        have ht : t < k := ht
        obtain ⟨fs', hfs', rfl⟩ := List.mem_map.1 hfs
        have k1 := side_window (l := c.comp.inputs) (lab := c.comp.label) (st := st) (hff fs' hfs') hi ht (p.cut a) p fun _ => rfl
        have k2 := side_window (l := c.comp.outputs) (lab := c.comp.label) (st := st) (hff fs' hfs') hi ht (p.cut a) p fun _ => rfl
        exact k1.trans ((p2 fs' hfs' (a + t) (by omega)).trans k2.symm))
      refine ⟨τ, t1, fun τ' hag => ?_⟩
      obtain ⟨o0, h0, hsub⟩ := converter_labels hm
      obtain ⟨u1, u2, u3⟩ := comp_cuts p3 ((comp_agree h0 fun l hl => hag l (hsub l hl)).2 _ t2)
      exact ⟨u1, u2, u3, fun s hs => by cases hs⟩
  | storage s =>
    have hp : s.Proper sys := hp
    have hl : s.Local := hl
    obtain ⟨o', h', rfl⟩ := map_ok.1 h
    obtain ⟨ok', hm', rfl⟩ := map_ok.1 hm
    obtain ⟨p, p1, p2, p3, _⟩ := C82_storage_sound hv hp h' hs
    have hwp := storage_window_proper (st := st) hp hl hi
    have hch : ∀ x, st.charge s.label = .num x → p.content a = x := by
      intro x hx
      by_cases h0 : a = 0
      · subst h0
        exact p1.ends.start x ((hb.charge0 rfl s rfl).symm.trans hx)
      · rw [hb.charge h0 s rfl, p3] at hx
        cases hx
        rfl
    have hlast : st.charge s.label ≠ .lastValueOfSim := by
      by_cases h0 : a = 0
      · rw [hb.charge0 h0 s rfl]; exact hl.cyclic
      · rw [hb.charge h0 s rfl]; exact fun h => by cases h
    obtain ⟨τ, t1, t2, t3, _⟩ := C82_storage_partial hvk ⟨hwp.comp.fits _ (by simp [StorageData.comp]), hwp.comp.fits _ (by simp [StorageData.comp])⟩ hwp.fits hm' hpd hnd
      (storage_cut hv hp hl hi hb.begun (he s rfl) hch hlast p1)
    refine ⟨τ, t1, fun τ' hag => ?_⟩
    obtain ⟨o0, h0, hsub, hc⟩ := storage_labels hm'
    have hl3 : ok'.chargeState.label = chargeStateL s.label := by
      obtain ⟨_, _, _, _, _, _, _, _, l3, _⟩ := storage_iff hvk hwp.fits hm'
      exact l3
    rw [hl3] at hc
    obtain ⟨u1, u2, u3⟩ := comp_cuts (c := s.comp) (st := st) p2 ((comp_agree h0 fun l hl => hag l (hsub l hl)).2 _ t2)
    refine ⟨u1, u2, fun h => absurd rfl h, fun s' hs' t ht => ?_⟩
    cases hs'
    rw [hag _ hc, p3]
    exact congrFun t3 t
  | transmission t =>
    have hp : t.Proper sys := hp
    have hl : t.Local := hl
    obtain ⟨o', h', rfl⟩ := map_ok.1 h
    obtain ⟨ok', hm', rfl⟩ := map_ok.1 hm
    obtain ⟨p, p1, p2⟩ := C82_transmission_sound hv hp h' hs
    have hwp := trans_window_proper (st := st) hp hl hi
    have hfit : ∀ f ∈ (t.window a k st).flows, f.Fits k := by
      intro f hf
      refine hwp.plain.fits f ?_
      simp only [TransData.flows, List.mem_cons, List.mem_append, Option.mem_toList] at hf
      simp only [TransData.plain, List.mem_cons, List.mem_append, Option.mem_toList]
      tauto
    obtain ⟨τ, t1, _, t2⟩ := C82_transmission_partial hvk hwp.big hfit hwp.fits hm' hpd hnd (trans_cut hp hl hi hk hb.begun p1)
    refine ⟨τ, t1, fun τ' hag => ?_⟩
    obtain ⟨o0, h0, hsub⟩ := trans_joined_labels hm'
    obtain ⟨r1, r2, r3⟩ := trans_realized ((comp_agree h0 fun l hl => hag l (hsub l hl)).2 _ t2)
    obtain ⟨w1, w2, w3⟩ := trans_realized p2
    have mem : ∀ f ∈ t.plain.inputs ++ t.plain.outputs, f.window a k (st.rate t.label f.label) ∈
        (t.window a k st).plain.inputs ++ (t.window a k st).plain.outputs := by
      intro f hf
      rw [plain_window, window_flows]
      exact List.mem_map.2 ⟨f, hf, rfl⟩
    refine ⟨fun f hf i _ => ?_, fun f hf ho i _ => ?_, fun ho i _ => ?_, fun s hs => by cases hs⟩
    · show _ = σ (rateL t.label f.label) _
      rw [w1 f hf]
      exact congrFun (r1 _ (mem f hf)) i
    · show _ = σ (stateL (flowFull t.label f.label)) _
      rw [w2 f hf ho]
      exact congrFun (r2 _ (mem f hf) (by rw [flow_window_onOff]; simpa using ho)) i
    · show _ = σ (stateL t.label) _
      rw [w3 ho]
      exact congrFun (r3 (by
        show t.onOff.map _ ≠ none
        have : t.onOff ≠ none := ho
        simpa using this)) i

end Flix
