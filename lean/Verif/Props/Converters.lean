import Verif.Lemmas.Converter
import Verif.Lemmas.Check
import Verif.Props.Segments

/-!
# C30, C31: linear converters; C20 for segmented converters
-/

namespace Flix

variable {sys : Sys} {c : ConvData} {o : CompOut} {σ : Assignment}

/-- **C30.**  For every set of conversion factors the weighted inputs equal the weighted outputs. -/
theorem C30 (h : converterModel sys c = .ok o) (hf : ∀ fs ∈ c.factors, ∀ q ∈ fs, q.2.Fits sys.n) (hs : o.tree.Solves σ) :
    ∀ fs ∈ c.factors, ∀ t < sys.n, convSide σ c.comp.label c.comp.inputs fs t = convSide σ c.comp.label c.comp.outputs fs t := by
  intro fs hfs t ht
  obtain ⟨o0, h0, _, _, _, _, hiff⟩ := converter_factors h (List.ne_nil_of_mem hfs) hf
  obtain ⟨r1, r2⟩ := comp_rates h0
  have := ((hiff σ).1 hs).2 fs hfs t ht
  rwa [convSum_eq r1, convSum_eq r2] at this

/-- **C30 (nothing else is required).**  The solutions of the converter are those of its flows and its on/off model that
convert as declared. -/
theorem C30_exact (h : converterModel sys c = .ok o) (hne : c.factors ≠ []) (hf : ∀ fs ∈ c.factors, ∀ q ∈ fs, q.2.Fits sys.n) :
    ∃ o0, compModel sys c.comp = .ok o0 ∧ ∀ σ : Assignment, o.tree.Solves σ ↔ o0.tree.Solves σ ∧
      ∀ fs ∈ c.factors, ∀ t < sys.n, convSide σ c.comp.label c.comp.inputs fs t = convSide σ c.comp.label c.comp.outputs fs t := by
  obtain ⟨o0, h0, _, _, _, _, hiff⟩ := converter_factors h hne hf
  obtain ⟨r1, r2⟩ := comp_rates h0
  refine ⟨o0, h0, fun σ => ?_⟩
  rw [hiff σ]
  simp only [convSum_eq r1, convSum_eq r2]

/-! ## Named converters -/

theorem get_hit {s : String} {φ : Num} {fs : Factors} : Factors.get ((s, φ) :: fs) s = some φ := by simp [Factors.get]

theorem get_miss {s s' : String} {φ : Num} {fs : Factors} (h : s ≠ s') : Factors.get ((s, φ) :: fs) s' = Factors.get fs s' := by
  simp [Factors.get, h]

theorem get_nil {s : String} : Factors.get [] s = none := rfl

/-- **C31 (Boiler, Power2Heat, HeatPump).**  The output is efficiency × input. -/
theorem C31_simple {label : String} {eta : Num} {i ou : FlowData} {q : Option OnOffParams} (hne : i.label ≠ ou.label) (hfit : eta.Fits sys.n)
    (h : converterModel sys (simpleConverter label eta i ou q) = .ok o) (hs : o.tree.Solves σ) :
    ∀ t < sys.n, σ (rateL label ou.label) t = eta.at t * σ (rateL label i.label) t := by
  intro t ht
  have := C30 h (by simp only [simpleConverter, List.forall_mem_cons, List.not_mem_nil, false_imp_iff, implies_true, and_true]; exact ⟨hfit, fits_s _ _⟩) hs _ (List.mem_singleton.2 rfl) t ht
  simp only [simpleConverter, convSide, List.map_cons, List.map_nil, List.sum_cons, List.sum_nil, get_hit, get_miss hne,
    Option.map_some, Option.getD_some, add_zero, at_s] at this
  rw [this]; ring

/-- **C31 (CoolingTower).** -/
theorem C31_tower {label : String} {demand : Num} {pel qth : FlowData} {q : Option OnOffParams} (hne : pel.label ≠ qth.label)
    (hfit : demand.Fits sys.n) (h : converterModel sys (coolingTower label demand pel qth q) = .ok o) (hs : o.tree.Solves σ) :
    ∀ t < sys.n, σ (rateL label pel.label) t = demand.at t * σ (rateL label qth.label) t := by
  intro t ht
  have := C30 h (by simp only [coolingTower, List.forall_mem_cons, List.not_mem_nil, false_imp_iff, implies_true, and_true]; exact ⟨fits_s _ _, fits_map.2 hfit⟩) hs _ (List.mem_singleton.2 rfl) t ht
  simp only [coolingTower, convSide, List.map_cons, List.map_nil, List.sum_cons, List.sum_nil, get_hit, get_miss hne,
    Option.map_some, Option.getD_some, add_zero, at_s, at_map hfit ht] at this
  linarith

/-- **C31 (CHP).**  Heat and power are fuel × efficiency each; together they are fuel × (sum of the efficiencies), hence never more
than the fuel if the efficiencies add up to at most one. -/
theorem C31_chp {label : String} {etaTh etaEl : Num} {qfu pel qth : FlowData} {q : Option OnOffParams} (h1 : qfu.label ≠ pel.label)
    (h2 : qfu.label ≠ qth.label) (h3 : pel.label ≠ qth.label) (hft : etaTh.Fits sys.n) (hfe : etaEl.Fits sys.n)
    (h : converterModel sys (chp label etaTh etaEl qfu pel qth q) = .ok o) (hs : o.tree.Solves σ) :
    ∀ t < sys.n, σ (rateL label qth.label) t = etaTh.at t * σ (rateL label qfu.label) t ∧
      σ (rateL label pel.label) t = etaEl.at t * σ (rateL label qfu.label) t ∧
      σ (rateL label qth.label) t + σ (rateL label pel.label) t = (etaTh.at t + etaEl.at t) * σ (rateL label qfu.label) t ∧
      (0 ≤ σ (rateL label qfu.label) t → etaTh.at t + etaEl.at t ≤ 1 →
        σ (rateL label qth.label) t + σ (rateL label pel.label) t ≤ σ (rateL label qfu.label) t) := by
  intro t ht
  have hall := C30 h (by simp only [chp, List.forall_mem_cons, List.not_mem_nil, false_imp_iff, implies_true, and_true]; exact ⟨⟨hft, fits_s _ _⟩, hfe, fits_s _ _⟩) hs
  have a := hall _ (List.mem_cons_self) t ht
  have b := hall _ (List.mem_cons_of_mem _ (List.mem_singleton.2 rfl)) t ht
  simp only [chp, convSide, List.map_cons, List.map_nil, List.sum_cons, List.sum_nil, get_hit, get_miss h1, get_miss h2, get_miss h3,
    get_miss h3.symm, get_nil, Option.map_some, Option.map_none, Option.getD_some, Option.getD_none, add_zero, zero_mul, zero_add, at_s, one_mul] at a b
  refine ⟨a.symm, b.symm, by rw [← a, ← b]; ring, fun hp hle => ?_⟩
  rw [← a, ← b]
  nlinarith

/-- **C31 (HeatPumpWithSource).**  The heat is COP × electricity and, for COP ≠ 0, the sum of both inputs. -/
theorem C31_source {label : String} {cop : Num} {pel qab qth : FlowData} {q : Option OnOffParams} {c : ConvData} (h1 : pel.label ≠ qab.label)
    (h2 : pel.label ≠ qth.label) (h3 : qab.label ≠ qth.label) (hfit : cop.Fits sys.n) (hc : heatPumpWithSource label cop pel qab qth q = .ok c)
    (h : converterModel sys c = .ok o) (hs : o.tree.Solves σ) :
    ∀ t < sys.n, σ (rateL label qth.label) t = cop.at t * σ (rateL label pel.label) t ∧
      (cop.at t ≠ 0 → σ (rateL label pel.label) t + σ (rateL label qab.label) t = σ (rateL label qth.label) t) := by
  unfold heatPumpWithSource at hc
  peel hc with inv, hinv
  peel hc with f, hf
  simp only [except_pure, Except.ok.injEq] at hc
  subst hc
  obtain ⟨hif, hiv⟩ := Num.inv_ok hinv (fits_map.2 hfit)
  obtain ⟨hff, hfv⟩ := mul_fits' hf hfit hif
  intro t ht
  have hall := C30 h (by simp only [List.forall_mem_cons, List.not_mem_nil, false_imp_iff, implies_true, and_true]; exact ⟨⟨hfit, fits_s _ _⟩, hff, fits_s _ _⟩) hs
  have a := hall _ (List.mem_cons_self) t ht
  have b := hall _ (List.mem_cons_of_mem _ (List.mem_singleton.2 rfl)) t ht
  simp only [convSide, List.map_cons, List.map_nil, List.sum_cons, List.sum_nil, get_hit, get_miss h1, get_miss h2, get_miss h3,
    get_miss h2.symm, get_miss h1.symm, get_miss h3.symm, get_nil, Option.map_some, Option.map_none, Option.getD_some, Option.getD_none, add_zero, zero_mul, zero_add, at_s, one_mul] at a b
  refine ⟨a.symm, fun hcop => ?_⟩
  obtain ⟨hn0, hval⟩ := hiv t ht
  rw [at_map hfit ht] at hn0 hval
  rw [hfv t ht, hval] at b
  rw [← a]
  rw [← a] at b
  field_simp at b
  rw [b]; ring

/-! ## Segmented converters -/

/-- The declared segments of a flow. -/
def segmentsOf (c : ConvData) (f : FlowData) : Option (List (Num × Num)) :=
  (c.segments.find? (fun r => r.1 == f.label)).map (·.2)

/-- All flows of the converter lie at one common position of segment `i`. -/
def FlowsOnSegment (c : ConvData) (σ : Assignment) (t i : Nat) : Prop :=
  ∃ u : ℚ, 0 ≤ u ∧ u ≤ 1 ∧ ∀ f ∈ c.comp.inputs ++ c.comp.outputs, ∃ segs seg, segmentsOf c f = some segs ∧ segs[i]? = some seg ∧
    σ (rateL c.comp.label f.label) t = (1 - u) * seg.1.at t + u * seg.2.at t

theorem flowsOnSegment_iff {pts : List (Var × List (Num × Num))} {t i : Nat}
    (hp : List.Forall₂ (fun f p => p.1.label = rateL c.comp.label f.label ∧ p.1.length = sys.n ∧
      ∃ r, c.segments.find? (fun r => r.1 == f.label) = some r ∧ p.2 = r.2) (c.comp.inputs ++ c.comp.outputs) pts) :
    OnSegment pts (fun x => σ x.label t) t i ↔ FlowsOnSegment c σ t i := by
  unfold OnSegment FlowsOnSegment
  refine exists_congr fun u => and_congr_right fun _ => and_congr_right fun _ => ?_
  constructor
  · intro hh f hf
    obtain ⟨p, hpm, hl, _, r, hr, hpr⟩ := forall₂_mem_left hp hf
    obtain ⟨seg, hs, hv⟩ := hh p hpm
    exact ⟨p.2, seg, by rw [segmentsOf, hr, hpr]; rfl, hs, by rw [← hl]; exact hv⟩
  · intro hh p hpm
    obtain ⟨f, hf, hl, _, r, hr, hpr⟩ := forall₂_mem_right hp hpm
    obtain ⟨segs, seg, h1, h2, h3⟩ := hh f hf
    rw [segmentsOf, hr] at h1
    simp only [Option.map_some, Option.some.injEq] at h1
    exact ⟨seg, by rw [hpr, h1]; exact h2, by show σ p.1.label t = _; rw [hl, h3]; rfl⟩

/-- **C20 (segmented converter).**  In every step all flows lie at one common position of one common segment; if the converter has
an on/off model and is off, all flows are zero. -/
theorem C20_converter (hv : sys.Valid) (hn : sys.n ≠ 0) (h : converterModel sys c = .ok o) (he : c.factors = [])
    (hf : ∀ f ∈ c.comp.inputs ++ c.comp.outputs, f.Fits sys.n) (hq : ∀ q, c.comp.onOff = some q → q.Fits sys.n)
    (hfit : ∀ r ∈ c.segments, ∀ s ∈ r.2, s.1.Fits sys.n ∧ s.2.Fits sys.n) (hs : o.tree.Solves σ) :
    ∀ t < sys.n, (∃ i, FlowsOnSegment c σ t i ∧ ∀ oo, o.on = some oo → σ oo.on.label t = 1) ∨
      (∃ oo, o.on = some oo ∧ σ oo.on.label t = 0 ∧ ∀ f ∈ c.comp.inputs ++ c.comp.outputs, σ (rateL c.comp.label f.label) t = 0) := by
  obtain ⟨o0, pts, tree, h0, h1, h2, _, _, hon, _, hiff⟩ := converter_segments h he
  obtain ⟨hs0, hst⟩ := (hiff σ).1 hs
  have hp := segmentPoints_ok h0 h1
  rw [hon]
  have hlen : ∀ q ∈ pts, q.1.length = sys.n := fun q hq => by
    obtain ⟨_, _, _, hl, _⟩ := forall₂_mem_right hp hq; exact hl
  have hfits : ∀ q ∈ pts, ∀ s ∈ q.2, s.1.Fits sys.n ∧ s.2.Fits sys.n := fun q hq => by
    obtain ⟨_, _, _, _, r, hr, hpr⟩ := forall₂_mem_right hp hq
    rw [hpr]; exact hfit r (List.mem_of_find?_eq_some hr)
  cases hoo : c.comp.onOff with
  | none =>
    have hnone : o0.on = none := by
      obtain ⟨_, _, h3, _⟩ := comp_inv h0
      unfold compOnOff at h3
      rw [hoo] at h3
      exact (Except.ok.inj h3).symm
    rw [hnone] at h2 ⊢
    intro t ht
    rcases C20_sound hlen hfits hn (by simp) h2 hst (by simp) t ht with ⟨h0, _⟩ | ⟨_, i, _, hi, _⟩
    · simp [segmentSwitch] at h0
    · exact Or.inl ⟨i, (flowsOnSegment_iff hp).1 hi, by simp⟩
  | some q =>
    obtain ⟨oo, ho, hstate⟩ := C07_component hv hf hoo (hq q hoo) h0 hs0
    have hol : oo.on.length = sys.n := by
      obtain ⟨_, _, h3, _⟩ := comp_inv h0
      unfold compOnOff at h3
      rw [hoo] at h3
      obtain ⟨oo', h4, h5⟩ := map_ok.1 h3
      rw [ho] at h5
      cases h5
      exact (onOff_on_length h4).1
    rw [ho] at h2 ⊢
    intro t ht
    have hsound := C20_sound hlen hfits hn (by intro x hx; cases hx; exact hol) h2 hst
      (by intro x hx; cases hx; exact fun t ht => (hstate t ht).1) t ht
    rcases hsound with ⟨h0, hz⟩ | ⟨h1, i, _, hi, _⟩
    · refine Or.inr ⟨oo, rfl, h0, fun f hf => ?_⟩
      obtain ⟨p, hpm, hl, _⟩ := forall₂_mem_left hp hf
      rw [← hl]; exact hz p hpm
    · refine Or.inl ⟨i, (flowsOnSegment_iff hp).1 hi, ?_⟩
      intro oo' h; cases h; exact h1

/-! ## Examples -/

/-- A heat pump with a COP series, switched off in the middle step, with an on/off model. -/
def exHeatPump : ConvData := simpleConverter "hp" (.v [2, 3, 4]) { label := "P", size := .num 10 } { label := "Q", size := .num 40 } (some {})

def exHeatPumpSol : Assignment := tableSol [
  ("hp__P_flow_rate", [5, 0, 10]), ("hp__P_sumFlowHours", [25]), ("hp__Q_flow_rate", [10, 0, 40]), ("hp__Q_sumFlowHours", [90]),
  ("hp__P__OnOff_on", [1, 0, 1]), ("hp__P__OnOff_totalOnHours", [3]), ("hp__Q__OnOff_on", [1, 0, 1]), ("hp__Q__OnOff_totalOnHours", [3]),
  ("hp__OnOff_on", [1, 0, 1]), ("hp__OnOff_totalOnHours", [3]),
  ("hp__P__OnOff_switchOn", [1, 0, 1]), ("hp__P__OnOff_switchOff", [0, 1, 0]), ("hp__P__OnOff_nrSwitchOn", [2]),
  ("hp__Q__OnOff_switchOn", [1, 0, 1]), ("hp__Q__OnOff_switchOff", [0, 1, 0]), ("hp__Q__OnOff_nrSwitchOn", [2]),
  ("hp__OnOff_switchOn", [1, 0, 1]), ("hp__OnOff_switchOff", [0, 1, 0]), ("hp__OnOff_nrSwitchOn", [2])]

example : ∃ o, converterModel exSys exHeatPump = .ok o ∧ o.tree.Solves exHeatPumpSol := builds_and_solves (by decide +kernel)

example : ∃ o, converterModel exSys (coolingTower "ct" (.s (1 / 50)) { label := "P", size := .num 10 } { label := "Q", size := .num 400 } none) = .ok o ∧
    o.tree.Solves (tableSol [("ct__P_flow_rate", [2, 8, 1]), ("ct__P_sumFlowHours", [12]), ("ct__Q_flow_rate", [100, 400, 50]), ("ct__Q_sumFlowHours", [600])]) :=
  builds_and_solves (by decide +kernel)

example : ∃ o, converterModel exSys (chp "chp" (.s (1 / 2)) (.v [1 / 5, 3 / 10, 1 / 4]) { label := "F", size := .num 100 }
      { label := "P", size := .num 40 } { label := "Q", size := .num 50 } none) = .ok o ∧
    o.tree.Solves (tableSol [("chp__F_flow_rate", [100, 100, 40]), ("chp__F_sumFlowHours", [280]), ("chp__P_flow_rate", [20, 30, 10]),
      ("chp__P_sumFlowHours", [70]), ("chp__Q_flow_rate", [50, 50, 20]), ("chp__Q_sumFlowHours", [140])]) :=
  builds_and_solves (by decide +kernel)

def exSource : Except Err CompOut := do
  let c ← heatPumpWithSource "hp" (.v [2, 3, 4]) { label := "P", size := .num 10 } { label := "A", size := .num 40 } { label := "Q", size := .num 40 } none
  converterModel exSys c

example : ∃ o, exSource = .ok o ∧ o.tree.Solves (tableSol [("hp__P_flow_rate", [5, 10, 10]), ("hp__P_sumFlowHours", [35]),
    ("hp__A_flow_rate", [5, 20, 30]), ("hp__A_sumFlowHours", [85]), ("hp__Q_flow_rate", [10, 30, 40]), ("hp__Q_sumFlowHours", [120])]) :=
  builds_and_solves (by decide +kernel)

/-- A boiler with two segments and a gap. -/
def exSegBoiler : ConvData :=
  { comp := { label := "b", inputs := [{ label := "F", size := .num 20 }], outputs := [{ label := "Q", size := .num 20 }] },
    segments := [("F", [(.s 1, .s 5), (.s 10, .v [15, 15, 20])]), ("Q", [(.s 0, .s 4), (.s 8, .s 14)])] }

example : ∃ o, converterModel exSys exSegBoiler = .ok o ∧ o.tree.Solves (tableSol [("b__F_flow_rate", [3, 15, 15]), ("b__F_sumFlowHours", [48]),
    ("b__Q_flow_rate", [2, 14, 11]), ("b__Q_sumFlowHours", [38]), ("b__Segment_0_inSegment", [1, 0, 0]), ("b__Segment_1_inSegment", [0, 1, 1]),
    ("b__Segment_0_lambda0", [1 / 2, 0, 0]), ("b__Segment_0_lambda1", [1 / 2, 0, 0]), ("b__Segment_1_lambda0", [0, 0, 1 / 2]), ("b__Segment_1_lambda1", [0, 1, 1 / 2])]) :=
  builds_and_solves (by decide +kernel)

end Flix
