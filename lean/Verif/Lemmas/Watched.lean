import Verif.Spec.Watched
import Verif.Lemmas.Larger3

/-!
# Other prices, the same restrictions
-/

namespace Flix

variable {sys : Sys} {s : System} {g : EffDict → EffDict} {n : Nat} {big : ℚ}

/-! ## Neither restricts more than the other -/


theorem states_mapEff (o : Option OnOffParams) : LooserStates n o (o.map (OnOffParams.mapEff g)) ∧ LooserStates n (o.map (OnOffParams.mapEff g)) o := by
  cases o with
  | none => exact ⟨trivial, trivial⟩
  | some q =>
    constructor <;> exact ⟨looserMin_refl _, looserMax_refl _, looserMinTS_refl _, looserMaxTS_refl _, looserMinTS_refl _, looserMaxTS_refl _, looserMax_refl _⟩

theorem invest_mapEff (q : InvestParams) : q.Looser big (q.mapEff g) ∧ (q.mapEff g).Looser big q :=
  ⟨⟨rfl, rfl, rfl, le_rfl, le_rfl⟩, ⟨rfl, rfl, rfl, le_rfl, le_rfl⟩⟩

theorem size_mapEff (f : FlowData) : LooserSize big n f (f.mapEff g) ∧ LooserSize big n (f.mapEff g) f := by
  have given : ∀ S, f.size.given big = some S → (f.mapEff g).size.given big = some S := by
    intro S h
    show (f.size.mapEff g).given big = some S
    cases hs : f.size with
    | unset => rw [hs] at h; exact h
    | num x => rw [hs] at h; exact h
    | invest q => rw [hs] at h; cases h
  cases hg : f.size.given big with
  | some S =>
    have same : ∀ {a : Option ℚ} {P : ℚ → ℚ → Prop}, (∀ x, P x x) → ∀ m m', a = some m → a = some m' → P m m' := by
      intro a P hP m m' h h'
      rw [h] at h'
      cases h'
      exact hP m
    exact ⟨.inl ⟨S, S, hg, given S hg, fun t _ => ⟨le_rfl, le_rfl⟩, same fun _ => le_rfl, same fun _ => le_rfl⟩,
      .inl ⟨S, S, given S hg, hg, fun t _ => ⟨le_rfl, le_rfl⟩, same fun _ => le_rfl, same fun _ => le_rfl⟩⟩
  | none =>
    cases hs : f.size with
    | unset => rw [hs] at hg; cases hg
    | num x => rw [hs] at hg; cases hg
    | invest q =>
      have hs' : (f.mapEff g).size = .invest (q.mapEff g) := by show f.size.mapEff g = _; rw [hs]; rfl
      exact ⟨.inr ⟨q, _, hs, hs', (invest_mapEff q).1⟩, .inr ⟨_, q, hs', hs, (invest_mapEff q).2⟩⟩

theorem flow_mapEff (f : FlowData) : f.Looser big n (f.mapEff g) ∧ (f.mapEff g).Looser big n f :=
  ⟨⟨rfl, rfl, rfl, .inr rfl, fun _ _ => le_rfl, fun _ _ => le_rfl, (states_mapEff _).1, looserMin_refl _, looserMax_refl _, looserMin_refl _, looserMax_refl _, (size_mapEff f).1⟩,
   ⟨rfl, rfl, rfl, .inr rfl, fun _ _ => le_rfl, fun _ _ => le_rfl, (states_mapEff _).2, looserMin_refl _, looserMax_refl _, looserMin_refl _, looserMax_refl _, (size_mapEff f).2⟩⟩

theorem compData_mapEff (c : CompData) : c.Looser big n (c.mapEff g) ∧ (c.mapEff g).Looser big n c :=
  ⟨⟨rfl, forall₂_map (fun f => (flow_mapEff f).1) _, forall₂_map (fun f => (flow_mapEff f).1) _, (states_mapEff _).1, rfl⟩,
   ⟨rfl, forall₂_map_left (fun f => (flow_mapEff f).2) _, forall₂_map_left (fun f => (flow_mapEff f).2) _, (states_mapEff _).2, rfl⟩⟩

theorem option_mapEff (o : Option FlowData) : LooserOption big n o (o.map (FlowData.mapEff g)) ∧ LooserOption big n (o.map (FlowData.mapEff g)) o := by
  cases o with
  | none => exact ⟨trivial, trivial⟩
  | some f => exact flow_mapEff f

theorem storage_mapEff (t : StorageData) : t.Looser big n (t.mapEff g) ∧ (t.mapEff g).Looser big n t := by
  have cap : LooserCapacity big n t (t.mapEff g) ∧ LooserCapacity big n (t.mapEff g) t := by
    cases hs : t.capacity with
    | num x =>
      have hs' : (t.mapEff g).capacity = .num x := by show t.capacity.mapEff g = _; rw [hs]; rfl
      exact ⟨.inl ⟨x, x, hs, hs', fun _ _ => ⟨le_rfl, le_rfl⟩⟩, .inl ⟨x, x, hs', hs, fun _ _ => ⟨le_rfl, le_rfl⟩⟩⟩
    | invest q =>
      have hs' : (t.mapEff g).capacity = .invest (q.mapEff g) := by show t.capacity.mapEff g = _; rw [hs]; rfl
      exact ⟨.inr ⟨q, _, hs, hs', (invest_mapEff q).1⟩, .inr ⟨_, q, hs', hs, (invest_mapEff q).2⟩⟩
  exact ⟨⟨rfl, (flow_mapEff _).1, (flow_mapEff _).1, fun _ _ => le_rfl, fun _ _ => le_rfl, cap.1, rfl, looserMin_refl _, looserMax_refl _, rfl, rfl, rfl, rfl⟩,
    ⟨rfl, (flow_mapEff _).2, (flow_mapEff _).2, fun _ _ => le_rfl, fun _ _ => le_rfl, cap.2, rfl, looserMin_refl _, looserMax_refl _, rfl, rfl, rfl, rfl⟩⟩

theorem comp_mapEff (c : Comp) : c.Looser big n (c.mapEff g) ∧ (c.mapEff g).Looser big n c := by
  cases c with
  | plain d => exact compData_mapEff d
  | converter d => exact ⟨⟨(compData_mapEff _).1, rfl, rfl⟩, ⟨(compData_mapEff _).2, rfl, rfl⟩⟩
  | storage t => exact storage_mapEff t
  | transmission t =>
    exact ⟨⟨rfl, (flow_mapEff _).1, (flow_mapEff _).1, (option_mapEff _).1, (option_mapEff _).1, rfl, rfl, (states_mapEff _).1, rfl⟩,
      ⟨rfl, (flow_mapEff _).2, (flow_mapEff _).2, (option_mapEff _).2, (option_mapEff _).2, rfl, rfl, (states_mapEff _).2, rfl⟩⟩

/-! ## Shapes -/

theorem comp_mapEff_shape (c : Comp) : (c.mapEff g).label = c.label ∧ (c.mapEff g).inputs = c.inputs.map (FlowData.mapEff g) ∧
    (c.mapEff g).outputs = c.outputs.map (FlowData.mapEff g) ∧ (c.mapEff g).onOff = c.onOff.map (OnOffParams.mapEff g) := by
  cases c with
  | plain d => exact ⟨rfl, rfl, rfl, rfl⟩
  | converter d => exact ⟨rfl, rfl, rfl, rfl⟩
  | storage t => exact ⟨rfl, rfl, rfl, rfl⟩
  | transmission t =>
    refine ⟨rfl, ?_, ?_, rfl⟩
    · simp only [Comp.mapEff, TransData.mapEff, Comp.inputs, List.map_cons]
      cases t.in2 <;> rfl
    · simp only [Comp.mapEff, TransData.mapEff, Comp.outputs, List.map_cons]
      cases t.out2 <;> rfl

theorem comp_mapEff_flows (c : Comp) : (c.mapEff g).flows = c.flows.map (FlowData.mapEff g) := by
  unfold Comp.flows
  rw [(comp_mapEff_shape c).2.1, (comp_mapEff_shape c).2.2.1, List.map_append]

theorem size_of_mapEff {f : FlowData} {q' : InvestParams} (h : (f.mapEff g).size = .invest q') : ∃ q, f.size = .invest q ∧ q' = q.mapEff g := by
  change f.size.mapEff g = _ at h
  cases hs : f.size with
  | unset => rw [hs] at h; cases h
  | num x => rw [hs] at h; cases h
  | invest q => rw [hs] at h; cases h; exact ⟨q, rfl, rfl⟩

theorem capacity_of_mapEff {t : StorageData} {q' : InvestParams} (h : (t.mapEff g).capacity = .invest q') : ∃ q, t.capacity = .invest q ∧ q' = q.mapEff g := by
  change t.capacity.mapEff g = _ at h
  cases hs : t.capacity with
  | num x => rw [hs] at h; cases h
  | invest q => rw [hs] at h; cases h; exact ⟨q, rfl, rfl⟩

theorem storage_of_mapEff {c : Comp} {t' : StorageData} (h : c.mapEff g = .storage t') : ∃ t, c = .storage t ∧ t' = t.mapEff g := by
  cases c <;> cases h
  exact ⟨_, rfl, rfl⟩

/-! ## Sensible declarations stay sensible -/

/-- The shapes of the values stay. -/
class KeepsShapes (g : EffDict → EffDict) : Prop where
  series : ∀ (n : Nat) (d : EffDict), d.Series n → (g d).Series n
  scalars : ∀ d : EffDict, d.Scalars → (g d).Scalars

variable [hg : KeepsShapes g]

theorem map_someEff {o : Option OnOffParams} {q' : OnOffParams} (h : o.map (OnOffParams.mapEff g) = some q') : ∃ q, o = some q ∧ q' = q.mapEff g := by
  obtain ⟨q, h1, h2⟩ := Option.map_eq_some_iff.1 h
  exact ⟨q, h1, h2.symm⟩

/-! ## Components -/

theorem onOff_fits_mapEff {q : OnOffParams} (h : q.Fits n) : (q.mapEff g).Fits n := ⟨h.onMin, h.onMax, h.offMin, h.offMax⟩

theorem onOff_sane_mapEff {ps : List Num} {q : OnOffParams} (h : q.Sane sys ps) : (q.mapEff g).Sane sys ps :=
  ⟨onOff_fits_mapEff h.fits, ⟨hg.series _ _ h.eff.1, hg.series _ _ h.eff.2⟩, h.shape, h.runs⟩

theorem invest_sane_mapEff {q : InvestParams} (h : q.Sane) : (q.mapEff g).Sane := ⟨⟨hg.scalars _ h.eff.1, hg.scalars _ h.eff.2.1, hg.scalars _ h.eff.2.2⟩, h.segs⟩

theorem flow_fits_mapEff {f : FlowData} (h : f.Fits n) : (f.mapEff g).Fits n := by
  refine ⟨h.relMin, h.relMax, h.prof, fun q hq => ?_⟩
  obtain ⟨q, hr, rfl⟩ := map_someEff hq
  exact onOff_fits_mapEff (h.onOff q hr)

theorem flow_sane_mapEff {f : FlowData} (h : f.Sane sys) : (f.mapEff g).Sane sys := by
  refine ⟨flow_fits_mapEff h.fits, ⟨hg.series _ _ h.eff.op, fun q hq => ?_, fun q hq => ?_⟩, fun q hq => ?_, h.past, fun q hq => ?_⟩
  · obtain ⟨q, hr, rfl⟩ := map_someEff hq
    exact (onOff_sane_mapEff (h.onOff q hr)).eff
  · obtain ⟨q, hr, rfl⟩ := size_of_mapEff hq
    exact (invest_sane_mapEff (h.invest q hr)).eff
  · obtain ⟨q, hr, rfl⟩ := size_of_mapEff hq
    exact invest_sane_mapEff (h.invest q hr)
  · obtain ⟨q, hr, rfl⟩ := map_someEff hq
    exact onOff_sane_mapEff (h.onOff q hr)

theorem flows_sane_mapEff {fs : List FlowData} {o : Option OnOffParams} (h : FlowsSane sys fs o) : FlowsSane sys (fs.map (FlowData.mapEff g)) (o.map (OnOffParams.mapEff g)) := by
  refine ⟨fun f hf => ?_, fun q hq => ?_⟩
  · obtain ⟨f, hg, rfl⟩ := List.mem_map.1 hf
    exact flow_sane_mapEff (h.flows f hg)
  · obtain ⟨q, hr, rfl⟩ := map_someEff hq
    obtain ⟨h1, h2⟩ := h.onOff q hr
    refine ⟨by simpa using h1, ?_⟩
    have e : (fs.map (FlowData.mapEff g)).filterMap (·.previousFlowRate) = fs.filterMap (·.previousFlowRate) := by
      rw [List.filterMap_map]
      rfl
    rw [e]
    exact onOff_sane_mapEff h2

theorem compData_sane_mapEff {c : CompData} (h : c.Sane sys) : (c.mapEff g).Sane sys := by
  have e : (c.mapEff g).inputs ++ (c.mapEff g).outputs = (c.inputs ++ c.outputs).map (FlowData.mapEff g) := List.map_append.symm
  refine ⟨?_, ?_⟩
  · rw [e]
    exact flows_sane_mapEff h.flows
  · refine h.prevent.imp id fun ⟨h1, h2⟩ => ⟨h1, fun l hl => ?_⟩
    obtain ⟨f, hf, rfl⟩ := h2 l hl
    rw [e]
    exact ⟨_, List.mem_map_of_mem hf, rfl⟩

theorem toList_mapEff (o : Option FlowData) : (o.map (FlowData.mapEff g)).toList = o.toList.map (FlowData.mapEff g) := by cases o <;> rfl

theorem comp_sane_mapEff {c : Comp} (h : c.Sane sys) : (c.mapEff g).Sane sys := by
  cases c with
  | plain d => exact compData_sane_mapEff h
  | converter d =>
    have e : (d.comp.mapEff g).inputs ++ (d.comp.mapEff g).outputs = (d.comp.inputs ++ d.comp.outputs).map (FlowData.mapEff g) := List.map_append.symm
    refine ⟨compData_sane_mapEff h.comp, h.rule.imp id fun ⟨h1, h2, h3, h4⟩ => ⟨h1, ?_, ?_, h4⟩⟩
    · show (d.comp.mapEff g).inputs ++ (d.comp.mapEff g).outputs ≠ []
      rw [e]
      simpa using h2
    · show ∀ f ∈ (d.comp.mapEff g).inputs ++ (d.comp.mapEff g).outputs, _
      rw [e]
      intro f hf
      obtain ⟨f, hg, rfl⟩ := List.mem_map.1 hf
      exact h3 f hg
  | storage t =>
    refine ⟨flow_sane_mapEff h.charging, flow_sane_mapEff h.discharging, ⟨h.fits.relMin, h.fits.relMax, h.fits.etaC, h.fits.etaD, h.fits.loss⟩, h.eta, h.initial, fun q hq => ?_⟩
    obtain ⟨q, hr, rfl⟩ := capacity_of_mapEff hq
    exact invest_sane_mapEff (h.capacity q hr)
  | transmission t =>
    refine ⟨?_, ⟨h.fits.rel, h.fits.abs⟩, ?_, fun a ha => ?_⟩
    · have := flows_sane_mapEff (g := g) h.flows
      simpa [TransData.mapEff, toList_mapEff] using this
    · show t.in2.map _ ≠ none → t.out2.map _ ≠ none
      simpa using h.both
    · refine (h.abs a ha).imp id (Or.imp (fun h1 => ?_) fun h1 => ?_)
      · show t.onOff.map _ ≠ none
        simpa using h1
      · show ∀ f ∈ t.in1.mapEff g :: (t.in2.map (FlowData.mapEff g)).toList, f.onOff ≠ none
        rw [toList_mapEff, ← List.map_cons]
        intro f hf
        obtain ⟨f, hg, rfl⟩ := List.mem_map.1 hf
        show f.onOff.map _ ≠ none
        simpa using h1 f hg

theorem flow_proper_mapEff {f : FlowData} (h1 : f.Sensible sys.cfg n) (h2 : f.Proper n) : (f.mapEff g).Sensible sys.cfg n ∧ (f.mapEff g).Proper n := by
  refine ⟨⟨⟨fun x hx => ?_, h1.size.2⟩, h1.low, fun q hq => ?_⟩, fun q hq => ?_, fun q hq => ?_⟩
  · refine h1.size.1 x ?_
    change f.size.mapEff g = _ at hx
    cases hs : f.size <;> rw [hs] at hx <;> cases hx
    rfl
  · obtain ⟨q, hr, rfl⟩ := size_of_mapEff hq
    exact h1.invest q hr
  · obtain ⟨q, hr, rfl⟩ := map_someEff hq
    exact h2.1 q hr
  · obtain ⟨q, hr, rfl⟩ := size_of_mapEff hq
    exact h2.2 q hr

theorem compData_proper_mapEff {c : CompData} (h : c.Proper sys) : (c.mapEff g).Proper sys := by
  have e : (c.mapEff g).inputs ++ (c.mapEff g).outputs = (c.inputs ++ c.outputs).map (FlowData.mapEff g) := List.map_append.symm
  have all : ∀ {P : FlowData → Prop}, (∀ f ∈ c.inputs ++ c.outputs, P (f.mapEff g)) → ∀ f ∈ (c.mapEff g).inputs ++ (c.mapEff g).outputs, P f := by
    intro P hP f hf
    rw [e] at hf
    obtain ⟨f, hg, rfl⟩ := List.mem_map.1 hf
    exact hP f hg
  refine ⟨?_, all fun f hg => flow_fits_mapEff (h.fits f hg), all fun f hg => (flow_proper_mapEff (h.sensible f hg) (h.proper f hg)).1,
    all fun f hg => (flow_proper_mapEff (h.sensible f hg) (h.proper f hg)).2, fun q hq => ?_⟩
  · rw [e, List.map_map]
    exact h.labels
  · obtain ⟨q, hr, rfl⟩ := map_someEff hq
    exact ⟨onOff_fits_mapEff (h.onOff q hr).1, (h.onOff q hr).2⟩

theorem comp_proper_mapEff {c : Comp} (h : c.Proper sys ∧ c.CapacityNonneg) : (c.mapEff g).Proper sys ∧ (c.mapEff g).CapacityNonneg := by
  obtain ⟨h, h0⟩ := h
  cases c with
  | plain d => exact ⟨compData_proper_mapEff h, trivial⟩
  | converter d => exact ⟨⟨compData_proper_mapEff h.1, h.2.1, h.2.2⟩, trivial⟩
  | storage t =>
    refine ⟨⟨compData_proper_mapEff (g := g) h.comp, ⟨h.fits.relMin, h.fits.relMax, h.fits.etaC, h.fits.etaD, h.fits.loss⟩, h.rel, fun q hq => ?_⟩, fun q hq => ?_⟩
    · obtain ⟨q, hr, rfl⟩ := capacity_of_mapEff hq
      exact h.capacity q hr
    · obtain ⟨q, hr, rfl⟩ := capacity_of_mapEff hq
      exact h0 q hr
  | transmission t =>
    refine ⟨⟨?_, ⟨h.fits.rel, h.fits.abs⟩, h.big⟩, trivial⟩
    have e : (t.mapEff g).plain = t.plain.mapEff g := by
      simp only [TransData.plain, TransData.mapEff, CompData.mapEff, toList_mapEff, List.map_cons]
      cases t.in2 <;> rfl
    rw [e]
    exact compData_proper_mapEff h.plain


end Flix
