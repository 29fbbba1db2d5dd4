import Verif.Props.Idle
import Verif.Props.Converters
import Verif.Props.Transmission

/-!
# C78: energy does not come from nowhere
-/

namespace Flix

variable {sys : Sys} {σ : Assignment}

/-! ## Flows only run forward -/

/-- The declared data of a flow only allow non-negative rates. -/
structure FlowData.Forward (sys : Sys) (f : FlowData) : Prop where
  rel : ∀ t < sys.n, 0 ≤ f.relBounds.1.at t
  size : ∀ x, f.size = .num x → 0 ≤ x
  invest : ∀ q, f.size = .invest q → 0 ≤ q.minimumSize ∧ ∀ x, q.fixedSize = some x → 0 ≤ x

theorem forward_bound {f : FlowData} (hf : f.Fits sys.n) (h : f.Forward sys) (hb : 0 ≤ sys.cfg.big) : ∀ t < sys.n, 0 ≤ (f.absBounds sys.cfg).1.at t := by
  intro t ht
  have hr := h.rel t ht
  have hfit := hf.relBounds.1
  unfold FlowData.absBounds FlowData.effSize
  cases hs : f.size with
  | unset =>
    simp only [at_map hfit ht]
    exact mul_nonneg hr hb
  | num x =>
    simp only [at_map hfit ht]
    refine mul_nonneg hr ?_
    unfold pyOr
    simp only
    split
    · exact hb
    · exact h.size x hs
  | invest q =>
    obtain ⟨h1, h2⟩ := h.invest q hs
    simp only
    cases hq : q.fixedSize with
    | some x =>
      simp only [at_map hfit ht]
      exact mul_nonneg hr (h2 x hq)
    | none =>
      simp only [at_map hfit ht]
      refine mul_nonneg hr ?_
      unfold InvestParams.minSize pyOr
      rw [hq]
      exact h1

theorem flow_nonneg (hv : sys.Valid) {el : String} {f : FlowData} {o : FlowOut} (hf : f.Fits sys.n) (hfw : f.Forward sys) (hb : 0 ≤ sys.cfg.big)
    (h : flowModel sys el f = .ok o) (hs : o.tree.Solves σ) : ∀ t < sys.n, 0 ≤ σ o.flowRate.label t := by
  have r := (flow_iff hv hf h σ).1 hs
  intro t ht
  cases ho : f.onOff with
  | none => exact le_trans (forward_bound hf hfw hb t ht) (r.lower ho t ht)
  | some q => exact r.nonneg (by simp [ho]) t ht

theorem forward_onOff {f : FlowData} {q : Option OnOffParams} (h : f.Forward sys) : ({ f with onOff := q } : FlowData).Forward sys := ⟨h.rel, h.size, h.invest⟩

theorem comp_nonneg (hv : sys.Valid) {c : CompData} {o : CompOut} (hb : 0 ≤ sys.cfg.big) (h : compModel sys c = .ok o) (hs : o.tree.Solves σ) {f : FlowData}
    (hf : f ∈ c.inputs ++ c.outputs) (hfit : f.Fits sys.n) (hfw : f.Forward sys) : ∀ t < sys.n, 0 ≤ σ (rateL c.label f.label) t := by
  obtain ⟨h1, h2, _⟩ := comp_inv h
  have hsol := ((comp_solves h σ).2 hs).1
  have key : ∀ q ∈ o.flows, flowModel sys (flowFull c.label f.label) (fillOnOff c f) = .ok q.2 → ∀ t < sys.n, 0 ≤ σ (rateL c.label f.label) t := by
    intro q hq hm t ht
    have hfw' : (fillOnOff c f).Forward sys := by
      unfold fillOnOff
      split
      · exact forward_onOff hfw
      · exact hfw
    have := flow_nonneg hv (fillOnOff_fits hfit) hfw' hb hm (hsol q hq) t ht
    rwa [(flowRate_ok (flow_inv hm).1).1] at this
  rcases List.mem_append.1 hf with hf | hf
  · obtain ⟨q, hq, _, hm⟩ := forall₂_mem_left h1 hf
    exact key q (List.mem_append_left _ hq) hm
  · obtain ⟨q, hq, _, hm⟩ := forall₂_mem_left h2 hf
    exact key q (List.mem_append_right _ hq) hm

/-! ## One component -/

/-- What a component delivers in step `t`. -/
def Comp.given (σ : Assignment) (c : Comp) (t : Nat) : ℚ := (c.outputs.map fun f => σ (c.label ++ "__" ++ f.label ++ "_" ++ "flow_rate") t).sum

/-- What a component takes in step `t`. -/
def Comp.taken (σ : Assignment) (c : Comp) (t : Nat) : ℚ := (c.inputs.map fun f => σ (c.label ++ "__" ++ f.label ++ "_" ++ "flow_rate") t).sum

/-- What the content of a component falls by over the horizon. -/
def Comp.released (sys : Sys) (σ : Assignment) : Comp → ℚ
  | .storage s => σ (s.label ++ "_" ++ "charge_state") 0 - σ (s.label ++ "_" ++ "charge_state") sys.n
  | _ => 0

/-- A line with losses: relative and absolute losses are not negative and flows run forward. -/
structure TransData.Lossy (sys : Sys) (t : TransData) : Prop where
  fits : t.Fits sys.n
  flows : ∀ f ∈ t.flows, f.Fits sys.n
  rel : ∀ k < sys.n, 0 ≤ t.relAt k
  abs : ∀ k < sys.n, 0 ≤ t.absAt k
  in1 : t.in1.Forward sys
  in2 : ∀ f, t.in2 = some f → f.Forward sys
  both : t.out2 ≠ none → t.in2 ≠ none

theorem forward_fill {t : TransData} {f : FlowData} (h : f.Forward sys) : (t.fill f).Forward sys := by
  unfold TransData.fill
  cases t.absLosses with
  | none => exact h
  | some a =>
    simp only
    split
    · exact forward_onOff h
    · exact h

theorem forward_fillIn2 {t : TransData} {f : FlowData} (h : f.Forward sys) : (t.fillIn2 sys.cfg f).Forward sys := by
  unfold TransData.fillIn2
  split
  · exact h
  · refine ⟨h.rel, by simp, ?_⟩
    intro q hq
    simp only [SizeArg.invest.injEq] at hq
    subst hq
    exact ⟨le_refl _, by simp⟩
  · exact h

/-- **C78 (transmission, per step).**  A line never delivers more than it takes. -/
theorem C78_transmission_partial (hv : sys.Valid) (hb : 0 ≤ sys.cfg.big) {t : TransData} {oc : CompOut} (h : Comp.model sys (.transmission t) = .ok oc) (hl : t.Lossy sys)
    (hs : oc.tree.Solves σ) : ∀ k < sys.n, (Comp.transmission t).given σ k ≤ (Comp.transmission t).taken σ k := by
  obtain ⟨o, ho, rfl⟩ := map_ok.1 (show (·.comp) <$> transmissionModel sys t = .ok oc from h)
  obtain ⟨o0, h0, _, _, _, hbase⟩ := trans_base ho
  have pos : ∀ f ∈ (t.comp sys.cfg).inputs, f.Fits sys.n → f.Forward sys → ∀ k < sys.n, 0 ≤ σ (rateL t.label f.label) k := fun f hf h1 h2 =>
    comp_nonneg hv hb h0 (hbase σ hs) (List.mem_append_left _ hf) h1 h2
  have loss : ∀ {a b : ℚ} {k : Nat}, k < sys.n → 0 ≤ a → (a = 0 ∧ b = 0) ∨ (a ≠ 0 ∧ b = a * (1 - t.relAt k) - t.absAt k) → b ≤ a := by
    rintro a b k hk ha (⟨h1, h2⟩ | ⟨_, h2⟩)
    · rw [h1, h2]
    · rw [h2]
      have := mul_nonneg ha (hl.rel k hk)
      linarith [hl.abs k hk]
  intro k hk
  have p1 := pos (t.fill t.in1) (by simp [TransData.comp]) (fill_fits (hl.flows _ (by simp [TransData.flows]))) (forward_fill hl.in1) k hk
  rw [fill_label] at p1
  have d1 := loss hk p1 (C35_first hv hl.fits hl.flows ho hs k hk)
  show ((t.out1 :: t.out2.toList).map fun f => σ (rateL t.label f.label) k).sum ≤ ((t.in1 :: t.in2.toList).map fun f => σ (rateL t.label f.label) k).sum
  cases h2 : t.in2 with
  | none =>
    have : t.out2 = none := by
      by_contra hne
      exact hl.both hne h2
    rw [this]
    simpa using d1
  | some f2 =>
    obtain ⟨g2, hg, hd⟩ := C35_second hv hl.fits hl.flows ho hs h2
    have p2 := pos (t.fillIn2 sys.cfg (t.fill f2)) (by simp [TransData.comp, h2]) (fillIn2_fits (fill_fits (hl.flows _ (by simp [TransData.flows, h2]))))
      (forward_fillIn2 (forward_fill (hl.in2 f2 h2))) k hk
    rw [fillIn2_label, fill_label] at p2
    have d2 := loss hk p2 (hd k hk)
    rw [hg]
    simp only [Option.toList_some, List.map_cons, List.map_nil, List.sum_cons, List.sum_nil, add_zero]
    exact add_le_add d1 d2

/-- A converter whose factors do not create energy: there are weights of the sets of factors such that the weighted factors are at most 1 for every
input and at least 1 for every output. -/
structure ConvData.Lossy (sys : Sys) (c : ConvData) (w : Nat → Nat → ℚ) : Prop where
  flows : ∀ f ∈ c.comp.inputs ++ c.comp.outputs, f.Fits sys.n ∧ f.Forward sys
  factors : ∀ fs ∈ c.factors, ∀ q ∈ fs, q.2.Fits sys.n
  inputs : ∀ t < sys.n, ∀ f ∈ c.comp.inputs, (c.factors.zipIdx.map fun p => w p.2 t * ((p.1.get f.label).map fun φ => φ.at t).getD 0).sum ≤ 1
  outputs : ∀ t < sys.n, ∀ f ∈ c.comp.outputs, 1 ≤ (c.factors.zipIdx.map fun p => w p.2 t * ((p.1.get f.label).map fun φ => φ.at t).getD 0).sum

theorem sum_swap {ι κ} (xs : List ι) (ys : List κ) (f : ι → κ → ℚ) : (xs.map fun x => (ys.map fun y => f x y).sum).sum = (ys.map fun y => (xs.map fun x => f x y).sum).sum := by
  induction xs with
  | nil => simp
  | cons x xs ih => simp [ih, List.sum_map_add]

/-- **C78 (converters, per step).** -/
theorem C78_converter (hv : sys.Valid) (hb : 0 ≤ sys.cfg.big) {c : ConvData} {oc : CompOut} (h : Comp.model sys (.converter c) = .ok oc) {w : Nat → Nat → ℚ}
    (hl : c.Lossy sys w) (hs : oc.tree.Solves σ) : ∀ k < sys.n, (Comp.converter c).given σ k ≤ (Comp.converter c).taken σ k := by
  have h' : converterModel sys c = .ok oc := h
  obtain ⟨o0, h0, _, _, _, _, hbase⟩ := converter_base h'
  intro k hk
  have pos : ∀ f ∈ c.comp.inputs ++ c.comp.outputs, 0 ≤ σ (rateL c.comp.label f.label) k := fun f hf =>
    comp_nonneg hv hb h0 (hbase σ hs) hf (hl.flows f hf).1 (hl.flows f hf).2 k hk
  have hside : ∀ flows : List FlowData, (c.factors.zipIdx.map fun p => w p.2 k * convSide σ c.comp.label flows p.1 k).sum =
      (flows.map fun f => (c.factors.zipIdx.map fun p => w p.2 k * ((p.1.get f.label).map fun φ => φ.at k).getD 0).sum * σ (rateL c.comp.label f.label) k).sum := by
    intro flows
    unfold convSide
    simp only [← List.sum_map_mul_left, ← List.sum_map_mul_right]
    rw [sum_swap]
    simp only [mul_assoc]
  have hrow : (c.factors.zipIdx.map fun p => w p.2 k * convSide σ c.comp.label c.comp.inputs p.1 k).sum =
      (c.factors.zipIdx.map fun p => w p.2 k * convSide σ c.comp.label c.comp.outputs p.1 k).sum := by
    refine congrArg List.sum (List.map_congr_left fun p hp => ?_)
    rw [C30 h' hl.factors hs p.1 (by rw [(List.mem_zipIdx hp).2.2]; exact List.getElem_mem _) k hk]
  rw [hside, hside] at hrow
  have e1 : (Comp.converter c).given σ k ≤ (c.comp.outputs.map fun f => (c.factors.zipIdx.map fun p => w p.2 k * ((p.1.get f.label).map fun φ => φ.at k).getD 0).sum *
      σ (rateL c.comp.label f.label) k).sum := by
    refine List.sum_le_sum fun f hf => ?_
    have := mul_le_mul_of_nonneg_right (hl.outputs k hk f hf) (pos f (List.mem_append_right _ hf))
    rwa [one_mul] at this
  have e2 : (c.comp.inputs.map fun f => (c.factors.zipIdx.map fun p => w p.2 k * ((p.1.get f.label).map fun φ => φ.at k).getD 0).sum *
      σ (rateL c.comp.label f.label) k).sum ≤ (Comp.converter c).taken σ k := by
    refine List.sum_le_sum fun f hf => ?_
    have := mul_le_mul_of_nonneg_right (hl.inputs k hk f hf) (pos f (List.mem_append_left _ hf))
    rwa [one_mul] at this
  linarith

/-- The declared value of a flow at the start (`Prod.fst`) or end (`Prod.snd`) of segment `i`. -/
def ConvData.corner (c : ConvData) (e : Num × Num → Num) (i t : Nat) (f : FlowData) : ℚ := (((segmentsOf c f).bind fun l => l[i]?).map fun seg => (e seg).at t).getD 0

/-- A segmented converter that does not create energy at the corners of its segments. -/
structure ConvData.LossySegments (sys : Sys) (c : ConvData) : Prop where
  factors : c.factors = []
  flows : ∀ f ∈ c.comp.inputs ++ c.comp.outputs, f.Fits sys.n
  onOff : ∀ q, c.comp.onOff = some q → q.Fits sys.n
  segments : ∀ r ∈ c.segments, ∀ s ∈ r.2, s.1.Fits sys.n ∧ s.2.Fits sys.n
  starts : ∀ t < sys.n, ∀ i, (c.comp.outputs.map (c.corner Prod.fst i t)).sum ≤ (c.comp.inputs.map (c.corner Prod.fst i t)).sum
  ends : ∀ t < sys.n, ∀ i, (c.comp.outputs.map (c.corner Prod.snd i t)).sum ≤ (c.comp.inputs.map (c.corner Prod.snd i t)).sum

/-- **C78 (segmented converters, per step).** -/
theorem C78_segments (hv : sys.Valid) (hn : sys.n ≠ 0) {c : ConvData} {oc : CompOut} (h : Comp.model sys (.converter c) = .ok oc) (hl : c.LossySegments sys)
    (hs : oc.tree.Solves σ) : ∀ k < sys.n, (Comp.converter c).given σ k ≤ (Comp.converter c).taken σ k := by
  intro k hk
  show (c.comp.outputs.map fun f => σ (rateL c.comp.label f.label) k).sum ≤ (c.comp.inputs.map fun f => σ (rateL c.comp.label f.label) k).sum
  rcases C20_converter hv hn (show converterModel sys c = .ok oc from h) hl.factors hl.flows hl.onOff hl.segments hs k hk with ⟨i, ⟨u, u0, u1, hu⟩, _⟩ | ⟨_, _, _, hz⟩
  · have hval : ∀ f ∈ c.comp.inputs ++ c.comp.outputs, σ (rateL c.comp.label f.label) k = (1 - u) * c.corner Prod.fst i k f + u * c.corner Prod.snd i k f := by
      intro f hf
      obtain ⟨segs, seg, e1, e2, e3⟩ := hu f hf
      rw [e3]
      unfold ConvData.corner
      rw [e1]
      simp [e2]
    rw [List.map_congr_left fun f hf => hval f (List.mem_append_right _ hf), List.map_congr_left fun f hf => hval f (List.mem_append_left _ hf)]
    simp only [List.sum_map_add, List.sum_map_mul_left]
    exact add_le_add (mul_le_mul_of_nonneg_left (hl.starts k hk i) (by linarith)) (mul_le_mul_of_nonneg_left (hl.ends k hk i) u0)
  · rw [List.map_congr_left fun f hf => hz f (List.mem_append_right _ hf), List.map_congr_left fun f hf => hz f (List.mem_append_left _ hf)]
    simp

/-- A storage with losses. -/
structure StorageData.Lossy (sys : Sys) (s : StorageData) : Prop where
  fits : s.Fits sys.n
  flows : s.charging.Fits sys.n ∧ s.charging.Forward sys ∧ s.discharging.Fits sys.n ∧ s.discharging.Forward sys
  loss : ∀ t < sys.n, 0 ≤ s.relLoss.at t
  charge : ∀ t < sys.n, s.etaCharge.at t ≤ 1
  discharge : ∀ t < sys.n, 0 < s.etaDischarge.at t ∧ s.etaDischarge.at t ≤ 1
  content : ∀ t < sys.n, 0 ≤ (s.absBounds sys.cfg).1.at t

/-- **C78 (storages, over the horizon).**  A storage delivers at most what it takes plus what its content falls by. -/
theorem C78_storage (hv : sys.Valid) (hb : 0 ≤ sys.cfg.big) {s : StorageData} {oc : CompOut} (h : Comp.model sys (.storage s) = .ok oc) (hl : s.Lossy sys)
    (hs : oc.tree.Solves σ) :
    ∑ t ∈ Finset.range sys.n, sys.width t * (Comp.storage s).given σ t ≤ ∑ t ∈ Finset.range sys.n, sys.width t * (Comp.storage s).taken σ t + (Comp.storage s).released sys σ := by
  obtain ⟨o, ho, rfl⟩ := map_ok.1 (show (·.comp) <$> storageModel sys s = .ok oc from h)
  obtain ⟨o0, h0, _, _, _, _, hbase⟩ := storage_base ho
  have f1 := comp_nonneg hv hb h0 (hbase σ hs) (f := s.charging) (by simp [StorageData.comp]) hl.flows.1 hl.flows.2.1
  have f2 := comp_nonneg hv hb h0 (hbase σ hs) (f := s.discharging) (by simp [StorageData.comp]) hl.flows.2.2.1 hl.flows.2.2.2
  have hrows := storage_rows hv hl.fits ho hs
  have := C32_no_gain hv hl.fits ho hs hl.loss hl.charge hl.discharge (fun t ht => le_trans (hl.content t ht) (hrows.lower t (by omega))) (fun t ht => ⟨f1 t ht, f2 t ht⟩) sys.n le_rfl
  have e : ∑ k ∈ Finset.range sys.n, sys.width k * (σ (rateL s.label s.charging.label) k - σ (rateL s.label s.discharging.label) k) =
      ∑ t ∈ Finset.range sys.n, sys.width t * (Comp.storage s).taken σ t - ∑ t ∈ Finset.range sys.n, sys.width t * (Comp.storage s).given σ t := by
    rw [← Finset.sum_sub_distrib]
    refine Finset.sum_congr rfl fun t _ => ?_
    simp only [Comp.given, Comp.taken, Comp.inputs, Comp.outputs, List.map_cons, List.map_nil, List.sum_cons, List.sum_nil, add_zero, Comp.label, rateL]
    ring
  rw [e] at this
  unfold Comp.released
  have hh : ∀ i, σ (s.label ++ "_" ++ "charge_state") i = σ (chargeStateL s.label) i := fun _ => rfl
  simp only [hh]
  linarith

/-! ## The whole system -/

/-- Components that do not create energy. -/
def Comp.Lossy (sys : Sys) : Comp → Prop
  | .plain c => c.outputs = [] ∧ ∀ f ∈ c.inputs, f.Fits sys.n ∧ f.Forward sys
  | .converter c => (∃ w, c.Lossy sys w) ∨ c.LossySegments sys
  | .storage s => s.Lossy sys
  | .transmission t => t.Lossy sys

theorem C78_component (hv : sys.Valid) (hn : sys.n ≠ 0) (hb : 0 ≤ sys.cfg.big) {c : Comp} {oc : CompOut} (h : c.model sys = .ok oc) (hl : c.Lossy sys) (hs : oc.tree.Solves σ) :
    ∑ t ∈ Finset.range sys.n, sys.width t * c.given σ t ≤ ∑ t ∈ Finset.range sys.n, sys.width t * c.taken σ t + c.released sys σ := by
  have step : (∀ t < sys.n, c.given σ t ≤ c.taken σ t) → 0 = c.released sys σ →
      ∑ t ∈ Finset.range sys.n, sys.width t * c.given σ t ≤ ∑ t ∈ Finset.range sys.n, sys.width t * c.taken σ t + c.released sys σ := by
    intro h1 h2
    rw [← h2, add_zero]
    exact Finset.sum_le_sum fun t ht => mul_le_mul_of_nonneg_left (h1 t (Finset.mem_range.1 ht)) (hv.width_pos (Finset.mem_range.1 ht)).le
  cases c with
  | plain c =>
    refine step (fun t ht => ?_) rfl
    have e : (Comp.plain c).given σ t = 0 := by simp [Comp.given, Comp.outputs, hl.1]
    rw [e]
    refine List.sum_nonneg fun x hx => ?_
    obtain ⟨f, hf, rfl⟩ := List.mem_map.1 hx
    exact comp_nonneg hv hb (show compModel sys c = .ok oc from h) hs (List.mem_append_left _ hf) (hl.2 f hf).1 (hl.2 f hf).2 t ht
  | converter c =>
    rcases hl with ⟨w, hw⟩ | hl
    · exact step (C78_converter hv hb h hw hs) rfl
    · exact step (C78_segments hv hn h hl hs) rfl
  | storage s => exact C78_storage hv hb h hl hs
  | transmission t => exact step (C78_transmission_partial hv hb h hl hs) rfl

variable {s : System} {o : SysOut}

theorem sum_split {ι} (p : ι → Bool) (f : ι → ℚ) (xs : List ι) : (xs.map f).sum = ((xs.filter p).map f).sum + ((xs.filter fun x => !p x).map f).sum := by
  induction xs with
  | nil => simp
  | cons x xs ih =>
    cases hp : p x <;> simp [hp, ih] <;> ring

/-- **C78.**  Over the horizon, what the components chosen by `ext` (e.g. sources and sinks) take is at most what they deliver, plus the net excess supplied
by the buses, plus what the contents of the others fall by, if the others do not create energy on their own. -/
theorem C78_partial (hv : sys.Valid) (hn : sys.n ≠ 0) (hb : 0 ≤ sys.cfg.big) (hf : s.Fits sys.n) (h : systemModel sys s = .ok o) (hc : ∀ c ∈ s.comps, ∀ f ∈ c.flows, f.bus ∈ s.buses.map (·.label))
    (hs : o.solver.Solves σ) (ext : Comp → Bool) (hl : ∀ c ∈ s.comps, ext c = false → c.Lossy sys) :
    ((s.comps.filter ext).map fun c => ∑ t ∈ Finset.range sys.n, sys.width t * c.taken σ t).sum ≤
      ((s.comps.filter ext).map fun c => ∑ t ∈ Finset.range sys.n, sys.width t * c.given σ t).sum + ∑ t ∈ Finset.range sys.n, sys.width t * s.excess σ t +
      ((s.comps.filter fun c => !ext c).map fun c => c.released sys σ).sum := by
  have hbal := C74 hv hf h hc hs
  have swap : ∀ f : Comp → Nat → ℚ, (s.comps.map fun c => ∑ t ∈ Finset.range sys.n, sys.width t * f c t).sum = ∑ t ∈ Finset.range sys.n, sys.width t * (s.comps.map fun c => f c t).sum := by
    intro f
    induction s.comps with
    | nil => simp
    | cons c cs ih => simp only [List.map_cons, List.sum_cons, ih, mul_add, Finset.sum_add_distrib]
  have htot : (s.comps.map fun c => ∑ t ∈ Finset.range sys.n, sys.width t * c.given σ t).sum + ∑ t ∈ Finset.range sys.n, sys.width t * s.excess σ t =
      (s.comps.map fun c => ∑ t ∈ Finset.range sys.n, sys.width t * c.taken σ t).sum := by
    rw [swap, swap, ← Finset.sum_add_distrib]
    refine Finset.sum_congr rfl fun t ht => ?_
    rw [← mul_add]
    congr 1
    exact hbal t (Finset.mem_range.1 ht)
  rw [sum_split ext, sum_split ext (fun c => ∑ t ∈ Finset.range sys.n, sys.width t * c.taken σ t)] at htot
  have hrest : ((s.comps.filter fun c => !ext c).map fun c => ∑ t ∈ Finset.range sys.n, sys.width t * c.given σ t).sum ≤
      ((s.comps.filter fun c => !ext c).map fun c => ∑ t ∈ Finset.range sys.n, sys.width t * c.taken σ t).sum +
      ((s.comps.filter fun c => !ext c).map fun c => c.released sys σ).sum := by
    rw [← List.sum_map_add]
    refine List.sum_le_sum fun c hcm => ?_
    obtain ⟨hcm, hx⟩ := List.mem_filter.1 hcm
    obtain ⟨oc, hoc, hm⟩ := forall₂_mem_left (system_inv h).1 hcm
    exact C78_component hv hn hb hm (hl c hcm (by simpa using hx)) (((system_solves h σ).1 hs).2.1 oc hoc)
  linarith

/-! ## Named converters -/

/-- **C78 (Boiler, Power2Heat).**  Efficiencies up to 1 do not create energy. -/
theorem C78_boiler {label : String} {eta : Num} {i ou : FlowData} {q : Option OnOffParams} (hne : i.label ≠ ou.label) (hfit : eta.Fits sys.n)
    (hi : i.Fits sys.n ∧ i.Forward sys) (ho : ou.Fits sys.n ∧ ou.Forward sys) (he : ∀ t < sys.n, eta.at t ≤ 1) : (simpleConverter label eta i ou q).Lossy sys fun _ _ => 1 := by
  refine ⟨?_, ?_, ?_, ?_⟩
  · simp [simpleConverter, hi, ho]
  · simp only [simpleConverter, List.forall_mem_cons, List.not_mem_nil, false_imp_iff, implies_true, and_true]
    exact ⟨hfit, fits_s _ _⟩
  · intro t ht
    simpa [simpleConverter, get_hit] using he t ht
  · intro t ht
    simp [simpleConverter, get_hit, get_miss hne]

/-- **C78 (CHP).**  Efficiencies that add up to at most 1 do not create energy. -/
theorem C78_chp {label : String} {etaTh etaEl : Num} {qfu pel qth : FlowData} {q : Option OnOffParams} (h1 : qfu.label ≠ pel.label)
    (h2 : qfu.label ≠ qth.label) (h3 : pel.label ≠ qth.label) (hft : etaTh.Fits sys.n) (hfe : etaEl.Fits sys.n)
    (hf : ∀ f ∈ [qfu, qth, pel], f.Fits sys.n ∧ f.Forward sys) (he : ∀ t < sys.n, etaTh.at t + etaEl.at t ≤ 1) : (chp label etaTh etaEl qfu pel qth q).Lossy sys fun _ _ => 1 := by
  refine ⟨by simpa [chp] using hf, ?_, ?_, ?_⟩
  · simp only [chp, List.forall_mem_cons, List.not_mem_nil, false_imp_iff, implies_true, and_true]
    exact ⟨⟨hft, fits_s _ _⟩, hfe, fits_s _ _⟩
  · intro t ht
    simpa [chp, get_hit] using he t ht
  · intro t ht
    simp [chp, get_hit, get_miss h1, get_miss h2, get_miss h3, get_miss h3.symm, get_nil]

/-- **C78 (HeatPumpWithSource).**  With the heat of the source the heat pump does not create energy, whatever its COP. -/
theorem C78_source {label : String} {cop : Num} {pel qab qth : FlowData} {q : Option OnOffParams} {c : ConvData} (h1 : pel.label ≠ qab.label)
    (h2 : pel.label ≠ qth.label) (h3 : qab.label ≠ qth.label) (hfit : cop.Fits sys.n) (hc : heatPumpWithSource label cop pel qab qth q = .ok c)
    (hf : ∀ f ∈ [pel, qab, qth], f.Fits sys.n ∧ f.Forward sys) (h0 : ∀ t < sys.n, cop.at t ≠ 0) :
    c.Lossy sys fun r t => if r = 0 then 1 / cop.at t else (cop.at t - 1) / cop.at t := by
  unfold heatPumpWithSource at hc
  peel hc with inv, hinv
  peel hc with f, hff
  simp only [except_pure, Except.ok.injEq] at hc
  subst hc
  obtain ⟨hif, hiv⟩ := Num.inv_ok hinv (fits_map.2 hfit)
  obtain ⟨hfit', hfv⟩ := mul_fits' hff hfit hif
  refine ⟨by simpa using hf, ?_, ?_, ?_⟩
  · simp only [List.forall_mem_cons, List.not_mem_nil, false_imp_iff, implies_true, and_true]
    exact ⟨⟨hfit, fits_s _ _⟩, hfit', fits_s _ _⟩
  · intro t ht
    obtain ⟨hn0, hval⟩ := hiv t ht
    rw [at_map hfit ht] at hn0 hval
    have h0 := h0 t ht
    simp only [List.forall_mem_cons, List.not_mem_nil, false_imp_iff, implies_true, and_true]
    constructor
    · simp [get_hit, get_miss h1.symm, get_miss h2.symm, get_nil, h0]
    · simp [get_hit, get_miss h1, get_miss h3.symm, get_nil, hfv t ht, hval]
      field_simp
      exact le_refl _
  · intro t ht
    have h0 := h0 t ht
    simp only [List.forall_mem_cons, List.not_mem_nil, false_imp_iff, implies_true, and_true, List.zipIdx_cons, List.zipIdx_nil, List.map_cons, List.map_nil, List.sum_cons, List.sum_nil,
      get_hit, get_miss h2, get_miss h3, Option.map_some, Option.getD_some, at_s, mul_one, add_zero, if_true, zero_add, one_ne_zero, if_false]
    rw [← add_div, show 1 + (cop.at t - 1) = cop.at t by ring, div_self h0]

/-! ## Examples and counterexamples -/

/-- A line with a second output only. -/
def exOneWay : TransData :=
  { label := "tr", in1 := { label := "i1", bus := "A", size := .num 10 }, out1 := { label := "o1", bus := "B", size := .num 10 }
    out2 := some { label := "o2", bus := "A", size := .num 10 } }

/-- **C78 (wrong).**  A line with a second output but no second input delivers without taking anything. -/
theorem C78_wrong : ∃ (t : TransData) (oc : CompOut) (τ : Assignment), Comp.model exSys (.transmission t) = .ok oc ∧ oc.tree.Solves τ ∧
    (∀ k < exSys.n, 0 ≤ t.relAt k ∧ 0 ≤ t.absAt k) ∧ ∀ k < exSys.n, (Comp.transmission t).taken τ k = 0 ∧ (Comp.transmission t).given τ k = 5 := by
  obtain ⟨oc, h, hs⟩ : ∃ oc, Comp.model exSys (.transmission exOneWay) = .ok oc ∧ oc.tree.Solves (tableSol [("tr__o2_flow_rate", [5, 5, 5]), ("tr__o2_sumFlowHours", [20])]) :=
    builds_and_solves (by decide +kernel)
  exact ⟨_, oc, _, h, hs, by decide +kernel, by decide +kernel⟩

/-- The hypotheses of `C78_transmission_partial` are met. -/
example : exTrans.Lossy exSys := by
  have hf : ∀ f ∈ exTrans.flows, f.Fits exSys.n := by
    intro f hf
    simp only [TransData.flows, exTrans, Option.toList_some, List.mem_cons, List.mem_append, List.not_mem_nil, or_false] at hf
    rcases hf with rfl | rfl | rfl | rfl <;> constructor <;> simp
  refine ⟨by constructor <;> simp [exTrans, exSys, Num.Fits, Num.len, Num.isScalar], hf, by decide +kernel, by decide +kernel, ?_, ?_, by simp [exTrans]⟩
  · exact ⟨by decide +kernel, by simp [exTrans], by simp [exTrans]⟩
  · intro f h
    simp only [exTrans, Option.some.injEq] at h
    subst h
    exact ⟨by decide +kernel, by simp, by simp⟩

def Comp.isPlain : Comp → Bool
  | .plain _ => true
  | _ => false

/-- The hypotheses of `C78_partial` are met: what the load takes is at most what the gas source delivers, reduced by the excess. -/
example : ((exSystem.comps.filter Comp.isPlain).map fun c => ∑ t ∈ Finset.range exSys.n, exSys.width t * c.taken exSystemSol t).sum ≤
      ((exSystem.comps.filter Comp.isPlain).map fun c => ∑ t ∈ Finset.range exSys.n, exSys.width t * c.given exSystemSol t).sum +
      ∑ t ∈ Finset.range exSys.n, exSys.width t * exSystem.excess exSystemSol t + ((exSystem.comps.filter fun c => !c.isPlain).map fun c => c.released exSys exSystemSol).sum := by
  obtain ⟨o, h, hs⟩ := exSystem_ok
  refine C78_partial exSys_valid (by decide) (by decide +kernel) exSystem_fits h ?_ hs Comp.isPlain ?_
  · intro c hc f hf
    simp only [exSystem, List.mem_cons, List.not_mem_nil, or_false] at hc
    rcases hc with rfl | rfl | rfl <;>
      simp only [Comp.flows, Comp.inputs, Comp.outputs, List.nil_append, List.append_nil, List.cons_append, List.mem_cons, List.not_mem_nil, or_false] at hf
    · subst hf; decide +kernel
    · rcases hf with rfl | rfl <;> decide +kernel
    · subst hf; decide +kernel
  · intro c hc hp
    simp only [exSystem, List.mem_cons, List.not_mem_nil, or_false] at hc
    rcases hc with rfl | rfl | rfl
    · cases hp
    · refine Or.inl ⟨_, C78_boiler (q := none) (label := "Boiler") (eta := .s (1 / 2)) (i := exBoilerIn) (ou := exBoilerOut) (by decide) (fits_s _ _) ?_ ?_ (by decide +kernel)⟩
      · exact ⟨by constructor <;> simp [exBoilerIn], by decide +kernel, by simp [exBoilerIn], by simp [exBoilerIn]⟩
      · exact ⟨by constructor <;> simp [exBoilerOut], by decide +kernel, by simp [exBoilerOut], by simp [exBoilerOut, exBoilerInvest]⟩
    · cases hp

def exTank : StorageData :=
  { label := "S", charging := { label := "in", size := .num 5 }, discharging := { label := "out", size := .num 5 }, capacity := .num 10
    etaCharge := .s (9 / 10), etaDischarge := .v [9 / 10, 1, 4 / 5], relLoss := .s (1 / 100) }

def exSteps : ConvData :=
  { comp := { label := "C", inputs := [{ label := "f", size := .num 10 }], outputs := [{ label := "q", size := .num 10 }] }
    segments := [("f", [(.s 1, .s 4), (.s 4, .s 10)]), ("q", [(.s 0, .s 3), (.s 3, .s 9)])] }

/-- A storage that meets the hypotheses of `C78_storage`. -/
example : exTank.Lossy exSys := by
  refine ⟨?_, ⟨?_, ?_, ?_, ?_⟩, by decide +kernel, by decide +kernel, by decide +kernel, by decide +kernel⟩
  · constructor <;> simp [exTank, Num.Fits, Num.len, Num.isScalar, exSys]
  · constructor <;> simp [exTank]
  · exact ⟨by decide +kernel, by simp [exTank], by simp [exTank]⟩
  · constructor <;> simp [exTank]
  · exact ⟨by decide +kernel, by simp [exTank], by simp [exTank]⟩

/-- A segmented converter that meets the hypotheses of `C78_segments`. -/
example : exSteps.LossySegments exSys := by
  refine ⟨rfl, ?_, by simp [exSteps], ?_, ?_, ?_⟩
  · intro f hf
    simp only [exSteps, List.cons_append, List.nil_append, List.mem_cons, List.not_mem_nil, or_false] at hf
    rcases hf with rfl | rfl <;> constructor <;> simp
  · simp only [exSteps, List.forall_mem_cons, List.not_mem_nil, false_imp_iff, implies_true, and_true, fits_s]
  · intro t _ i
    match i with
    | 0 => simp [ConvData.corner, segmentsOf, exSteps]
    | 1 => simp [ConvData.corner, segmentsOf, exSteps]; norm_num
    | i + 2 => simp [ConvData.corner, segmentsOf, exSteps]
  · intro t _ i
    match i with
    | 0 => simp [ConvData.corner, segmentsOf, exSteps]; norm_num
    | 1 => simp [ConvData.corner, segmentsOf, exSteps]; norm_num
    | i + 2 => simp [ConvData.corner, segmentsOf, exSteps]

end Flix
