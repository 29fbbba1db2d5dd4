import Verif.Lemmas.Larger2

/-!
# Sensible declarations stay sensible in other units
-/

namespace Flix

variable {sys : Sys} {s : System} {k : ℚ} {n : Nat}

theorem map_isScalar (a : Num) (f : ℚ → ℚ) : (a.map f).isScalar = a.isScalar := by cases a <;> rfl
theorem map_len (a : Num) (f : ℚ → ℚ) : (a.map f).len = a.len := by cases a <;> simp [Num.map, Num.len]
theorem map_fits {a : Num} (f : ℚ → ℚ) (h : a.Fits n) : (a.map f).Fits n := by
  unfold Num.Fits at h ⊢
  rwa [map_isScalar, map_len]

theorem series_dict {d : EffDict} (h : d.Series n) : EffDict.Series n (EffDict.times k d) := by
  intro q hq
  obtain ⟨p, hp, rfl⟩ := List.mem_map.1 hq
  simpa [map_isScalar, map_len] using h p hp

theorem scalars_dict {d : EffDict} (h : d.Scalars) : EffDict.Scalars (EffDict.times k d) := by
  intro q hq
  obtain ⟨p, hp, rfl⟩ := List.mem_map.1 hq
  simpa [map_isScalar] using h p hp

theorem map_some {o : Option OnOffParams} {q' : OnOffParams} (h : o.map (OnOffParams.times k) = some q') : ∃ q, o = some q ∧ q' = q.times k := by
  obtain ⟨q, h1, h2⟩ := Option.map_eq_some_iff.1 h
  exact ⟨q, h1, h2.symm⟩

/-! ## Components -/

theorem onOff_fits_times {q : OnOffParams} (h : q.Fits n) : (q.times k).Fits n := ⟨h.onMin, h.onMax, h.offMin, h.offMax⟩

theorem onOff_sane_times {ps : List Num} {q : OnOffParams} (h : q.Sane sys ps) : (q.times k).Sane sys ps :=
  ⟨onOff_fits_times h.fits, ⟨series_dict h.eff.1, series_dict h.eff.2⟩, h.shape, h.runs⟩

theorem invest_sane_costly {q : InvestParams} (h : q.Sane) : (q.costly k).Sane := ⟨⟨scalars_dict h.eff.1, scalars_dict h.eff.2.1, scalars_dict h.eff.2.2⟩, h.segs⟩

theorem flow_fits_costly {f : FlowData} (h : f.Fits n) : (f.costly k).Fits n := by
  refine ⟨h.relMin, h.relMax, h.prof, fun q hq => ?_⟩
  obtain ⟨q, hr, rfl⟩ := map_some hq
  exact onOff_fits_times (h.onOff q hr)

theorem flow_sane_costly {f : FlowData} (h : f.Sane sys) : (f.costly k).Sane sys := by
  refine ⟨flow_fits_costly h.fits, ⟨series_dict h.eff.op, fun q hq => ?_, fun q hq => ?_⟩, fun q hq => ?_, h.past, fun q hq => ?_⟩
  · obtain ⟨q, hr, rfl⟩ := map_some hq
    exact (onOff_sane_times (h.onOff q hr)).eff
  · obtain ⟨q, hr, rfl⟩ := size_of_costly hq
    exact (invest_sane_costly (h.invest q hr)).eff
  · obtain ⟨q, hr, rfl⟩ := size_of_costly hq
    exact invest_sane_costly (h.invest q hr)
  · obtain ⟨q, hr, rfl⟩ := map_some hq
    exact onOff_sane_times (h.onOff q hr)

theorem flows_sane_costly {fs : List FlowData} {o : Option OnOffParams} (h : FlowsSane sys fs o) : FlowsSane sys (fs.map (FlowData.costly k)) (o.map (OnOffParams.times k)) := by
  refine ⟨fun f hf => ?_, fun q hq => ?_⟩
  · obtain ⟨f, hg, rfl⟩ := List.mem_map.1 hf
    exact flow_sane_costly (h.flows f hg)
  · obtain ⟨q, hr, rfl⟩ := map_some hq
    obtain ⟨h1, h2⟩ := h.onOff q hr
    refine ⟨by simpa using h1, ?_⟩
    have e : (fs.map (FlowData.costly k)).filterMap (·.previousFlowRate) = fs.filterMap (·.previousFlowRate) := by
      rw [List.filterMap_map]
      rfl
    rw [e]
    exact onOff_sane_times h2

theorem compData_sane_costly {c : CompData} (h : c.Sane sys) : (c.costly k).Sane sys := by
  have e : (c.costly k).inputs ++ (c.costly k).outputs = (c.inputs ++ c.outputs).map (FlowData.costly k) := List.map_append.symm
  refine ⟨?_, ?_⟩
  · rw [e]
    exact flows_sane_costly h.flows
  · refine h.prevent.imp id fun ⟨h1, h2⟩ => ⟨h1, fun l hl => ?_⟩
    obtain ⟨f, hf, rfl⟩ := h2 l hl
    rw [e]
    exact ⟨_, List.mem_map_of_mem hf, rfl⟩

theorem toList_costly (o : Option FlowData) : (o.map (FlowData.costly k)).toList = o.toList.map (FlowData.costly k) := by cases o <;> rfl

theorem comp_sane_costly {c : Comp} (h : c.Sane sys) : (c.costly k).Sane sys := by
  cases c with
  | plain d => exact compData_sane_costly h
  | converter d =>
    have e : (d.comp.costly k).inputs ++ (d.comp.costly k).outputs = (d.comp.inputs ++ d.comp.outputs).map (FlowData.costly k) := List.map_append.symm
    refine ⟨compData_sane_costly h.comp, h.rule.imp id fun ⟨h1, h2, h3, h4⟩ => ⟨h1, ?_, ?_, h4⟩⟩
    · show (d.comp.costly k).inputs ++ (d.comp.costly k).outputs ≠ []
      rw [e]
      simpa using h2
    · show ∀ f ∈ (d.comp.costly k).inputs ++ (d.comp.costly k).outputs, _
      rw [e]
      intro f hf
      obtain ⟨f, hg, rfl⟩ := List.mem_map.1 hf
      exact h3 f hg
  | storage t =>
    refine ⟨flow_sane_costly h.charging, flow_sane_costly h.discharging, ⟨h.fits.relMin, h.fits.relMax, h.fits.etaC, h.fits.etaD, h.fits.loss⟩, h.eta, h.initial, fun q hq => ?_⟩
    obtain ⟨q, hr, rfl⟩ := capacity_of_costly hq
    exact invest_sane_costly (h.capacity q hr)
  | transmission t =>
    refine ⟨?_, ⟨h.fits.rel, h.fits.abs⟩, ?_, fun a ha => ?_⟩
    · have := flows_sane_costly (k := k) h.flows
      simpa [TransData.costly, toList_costly] using this
    · show t.in2.map _ ≠ none → t.out2.map _ ≠ none
      simpa using h.both
    · refine (h.abs a ha).imp id (Or.imp (fun h1 => ?_) fun h1 => ?_)
      · show t.onOff.map _ ≠ none
        simpa using h1
      · show ∀ f ∈ t.in1.costly k :: (t.in2.map (FlowData.costly k)).toList, f.onOff ≠ none
        rw [toList_costly, ← List.map_cons]
        intro f hf
        obtain ⟨f, hg, rfl⟩ := List.mem_map.1 hf
        show f.onOff.map _ ≠ none
        simpa using h1 f hg

theorem flow_proper_costly {f : FlowData} (h1 : f.Sensible sys.cfg n) (h2 : f.Proper n) : (f.costly k).Sensible sys.cfg n ∧ (f.costly k).Proper n := by
  refine ⟨⟨⟨fun x hx => ?_, h1.size.2⟩, h1.low, fun q hq => ?_⟩, fun q hq => ?_, fun q hq => ?_⟩
  · refine h1.size.1 x ?_
    change f.size.costly k = _ at hx
    cases hs : f.size <;> rw [hs] at hx <;> cases hx
    rfl
  · obtain ⟨q, hr, rfl⟩ := size_of_costly hq
    exact h1.invest q hr
  · obtain ⟨q, hr, rfl⟩ := map_some hq
    exact h2.1 q hr
  · obtain ⟨q, hr, rfl⟩ := size_of_costly hq
    exact h2.2 q hr

theorem compData_proper_costly {c : CompData} (h : c.Proper sys) : (c.costly k).Proper sys := by
  have e : (c.costly k).inputs ++ (c.costly k).outputs = (c.inputs ++ c.outputs).map (FlowData.costly k) := List.map_append.symm
  have all : ∀ {P : FlowData → Prop}, (∀ f ∈ c.inputs ++ c.outputs, P (f.costly k)) → ∀ f ∈ (c.costly k).inputs ++ (c.costly k).outputs, P f := by
    intro P hP f hf
    rw [e] at hf
    obtain ⟨f, hg, rfl⟩ := List.mem_map.1 hf
    exact hP f hg
  refine ⟨?_, all fun f hg => flow_fits_costly (h.fits f hg), all fun f hg => (flow_proper_costly (h.sensible f hg) (h.proper f hg)).1,
    all fun f hg => (flow_proper_costly (h.sensible f hg) (h.proper f hg)).2, fun q hq => ?_⟩
  · rw [e, List.map_map]
    exact h.labels
  · obtain ⟨q, hr, rfl⟩ := map_some hq
    exact ⟨onOff_fits_times (h.onOff q hr).1, (h.onOff q hr).2⟩

theorem comp_proper_costly {c : Comp} (h : c.Proper sys ∧ c.CapacityNonneg) : (c.costly k).Proper sys ∧ (c.costly k).CapacityNonneg := by
  obtain ⟨h, h0⟩ := h
  cases c with
  | plain d => exact ⟨compData_proper_costly h, trivial⟩
  | converter d => exact ⟨⟨compData_proper_costly h.1, h.2.1, h.2.2⟩, trivial⟩
  | storage t =>
    refine ⟨⟨compData_proper_costly (k := k) h.comp, ⟨h.fits.relMin, h.fits.relMax, h.fits.etaC, h.fits.etaD, h.fits.loss⟩, h.rel, fun q hq => ?_⟩, fun q hq => ?_⟩
    · obtain ⟨q, hr, rfl⟩ := capacity_of_costly hq
      exact h.capacity q hr
    · obtain ⟨q, hr, rfl⟩ := capacity_of_costly hq
      exact h0 q hr
  | transmission t =>
    refine ⟨⟨?_, ⟨h.fits.rel, h.fits.abs⟩, h.big⟩, trivial⟩
    have e : (t.costly k).plain = t.plain.costly k := by
      simp only [TransData.plain, TransData.costly, CompData.costly, toList_costly, List.map_cons]
      cases t.in2 <;> rfl
    rw [e]
    exact compData_proper_costly h.plain

/-! ## The system -/

theorem names_times (es : List EffectData) (l : String) (o : Option String) : names (es.map (EffectData.times k)) l o = names es l o := by
  cases o with
  | some e => rfl
  | none =>
    unfold names
    induction es with
    | nil => rfl
    | cons e es ih =>
      simp only [List.map_cons, List.find?_cons, show (e.times k).isStandard = e.isStandard from rfl]
      cases e.isStandard with
      | true => rfl
      | false => exact ih

theorem dict_known_times {es : List EffectData} {d : EffDict} (h : EffDict.Known es d) : EffDict.Known (es.map (EffectData.times k)) (EffDict.times k d) := by
  refine ⟨fun q hq => ?_, ?_⟩
  · obtain ⟨p, hp, rfl⟩ := List.mem_map.1 hq
    obtain ⟨e, he, hn⟩ := h.known p hp
    exact ⟨e.times k, List.mem_map_of_mem he, by rw [names_times]; exact hn⟩
  · unfold EffDict.times
    rw [List.pairwise_map]
    simpa only [names_times] using h.once

theorem labels_times (es : List EffectData) : (es.map (EffectData.times k)).map (·.label) = es.map (·.label) := by
  rw [List.map_map]
  rfl

theorem comp_known_costly {es : List EffectData} {c : Comp} (h : c.Known es) : (c.costly k).Known (es.map (EffectData.times k)) := by
  have hoo : ∀ {q : OnOffParams}, q.Known es → (q.times k).Known (es.map (EffectData.times k)) := fun hq => ⟨dict_known_times hq.starts, dict_known_times hq.hours⟩
  have hin : ∀ {q : InvestParams}, q.Known es → (q.costly k).Known (es.map (EffectData.times k)) := fun hq =>
    ⟨dict_known_times hq.fix, dict_known_times hq.specific, dict_known_times hq.divest, fun xs rs he => by rw [labels_times]; exact hq.segs xs rs he⟩
  refine ⟨fun f hf => ?_, fun q hq => ?_, fun t ht q hq => ?_⟩
  · rw [comp_costly_flows] at hf
    obtain ⟨f, hg, rfl⟩ := List.mem_map.1 hf
    have kf := h.flows f hg
    refine ⟨dict_known_times kf.hours, fun q hq => ?_, fun q hq => ?_⟩
    · obtain ⟨q, hr, rfl⟩ := map_some hq
      exact hoo (kf.onOff q hr)
    · obtain ⟨q, hr, rfl⟩ := size_of_costly hq
      exact hin (kf.invest q hr)
  · rw [(comp_costly_shape c).2.2.2] at hq
    obtain ⟨q, hr, rfl⟩ := map_some hq
    exact hoo (h.onOff q hr)
  · obtain ⟨t, hu, rfl⟩ := storage_of_costly ht
    obtain ⟨q, hr, rfl⟩ := capacity_of_costly hq
    exact hin (h.capacity t hu q hr)

theorem system_sane_costly (h : s.Sane sys) : (s.costly k).Sane sys := by
  refine ⟨fun c hc => ?_, fun c hc => ?_, fun b hb pen hp => ?_, fun e he => ?_, ?_⟩
  · obtain ⟨c, hd, rfl⟩ := List.mem_map.1 hc
    exact comp_sane_costly (h.comps c hd)
  · obtain ⟨c, hd, rfl⟩ := List.mem_map.1 hc
    exact comp_known_costly (h.known c hd)
  · obtain ⟨b, hd, rfl⟩ := List.mem_map.1 hb
    obtain ⟨p, hq, rfl⟩ := Option.map_eq_some_iff.1 hp
    exact map_fits _ (h.buses b hd p hq)
  · obtain ⟨e, hd, rfl⟩ := List.mem_map.1 he
    obtain ⟨h1, h2⟩ := h.effects e hd
    refine ⟨⟨h1.op, h1.inv, fun m hm => ?_, fun m hm => ?_⟩, ⟨?_, ?_⟩⟩
    · obtain ⟨p, hq, rfl⟩ := Option.map_eq_some_iff.1 hm
      exact map_fits _ (h1.minH p hq)
    · obtain ⟨p, hq, rfl⟩ := Option.map_eq_some_iff.1 hm
      exact map_fits _ (h1.maxH p hq)
    · refine ⟨h2.operation.1, ?_⟩
      show ∀ q ∈ _, _ ∈ (s.effects.map (EffectData.times k)).map (·.label)
      rw [labels_times]
      exact h2.operation.2
    · refine ⟨h2.invest.1, ?_⟩
      show ∀ q ∈ _, _ ∈ (s.effects.map (EffectData.times k)).map (·.label)
      rw [labels_times]
      exact h2.invest.2
  · obtain ⟨e, he, ho⟩ := h.objective
    exact ⟨e.times k, List.mem_map_of_mem he, ho⟩

theorem system_tied_costly (h : s.Tied) : (s.costly k).Tied := by
  refine ⟨fun c hc => ?_, fun b hb => ?_⟩
  · obtain ⟨c, hd, rfl⟩ := List.mem_map.1 hc
    have hc' := h.comps c hd
    refine ⟨fun f hf q hq => ?_, fun d hdd => ?_, fun t q ht hq => ?_⟩
    · rw [comp_costly_flows] at hf
      obtain ⟨f, hg, rfl⟩ := List.mem_map.1 hf
      obtain ⟨q, hr, rfl⟩ := size_of_costly hq
      exact hc'.flows f hg q hr
    · cases c with
      | plain _ => cases hdd
      | storage _ => cases hdd
      | transmission _ => cases hdd
      | converter d₀ =>
        cases hdd
        have hd' := hc'.converter d₀ rfl
        have e : (d₀.comp.costly k).inputs ++ (d₀.comp.costly k).outputs = (d₀.comp.inputs ++ d₀.comp.outputs).map (FlowData.costly k) := List.map_append.symm
        refine ⟨fun fs hfs => ?_, fun hz => (hd'.segments hz).imp (fun h1 => ?_) id⟩
        · obtain ⟨q, hq, f, hf, hl⟩ := hd'.factors fs hfs
          refine ⟨q, hq, f.costly k, ?_, hl⟩
          show _ ∈ (d₀.comp.costly k).inputs ++ (d₀.comp.costly k).outputs
          rw [e]
          exact List.mem_map_of_mem hf
        · show d₀.comp.onOff.map _ ≠ none
          simpa using h1
    · obtain ⟨t, hu, rfl⟩ := storage_of_costly ht
      obtain ⟨q, hr, rfl⟩ := capacity_of_costly hq
      exact hc'.storage t q hu hr
  · obtain ⟨b, hd, rfl⟩ := List.mem_map.1 hb
    refine (h.buses b hd).imp (fun h1 => ?_) fun ⟨c, hc, f, hf, hl⟩ => ⟨c.costly k, List.mem_map_of_mem hc, f.costly k, ?_, hl⟩
    · show b.excessPenalty.map _ ≠ none
      simpa using h1
    · rw [comp_costly_flows]
      exact List.mem_map_of_mem hf

theorem system_labels_costly (s : System) : (s.costly k).labels = s.labels := by
  simp only [System.labels, System.costly, List.map_map]
  congr 2
  congr 1
  funext c
  exact (comp_costly_shape c).1

theorem system_named_costly (h : s.Named) : (s.costly k).Named := by
  refine ⟨by rw [system_labels_costly]; exact h.names, by rw [system_labels_costly]; exact h.distinct, fun c hc f hf => ?_, fun c hc => ?_, fun a b ha hb hi => ?_⟩
  · obtain ⟨c, hd, rfl⟩ := List.mem_map.1 hc
    rw [comp_costly_flows] at hf
    obtain ⟨f, hg, rfl⟩ := List.mem_map.1 hf
    exact h.flowNames c hd f hg
  · obtain ⟨c, hd, rfl⟩ := List.mem_map.1 hc
    rw [comp_costly_flows, List.map_map]
    exact h.flowDistinct c hd
  · obtain ⟨c, hd, e⟩ := List.mem_map.1 ha
    obtain ⟨c', hd', e'⟩ := List.mem_map.1 hb
    obtain ⟨a, rfl, rfl⟩ := storage_of_costly e
    obtain ⟨b, rfl, rfl⟩ := storage_of_costly e'
    exact h.noClash a b hd hd' hi

theorem system_segments_costly (h : ∀ c ∈ s.comps, c.NoPieces) : (s.costly k).SegmentsKnown := by
  intro c hc
  obtain ⟨c, hd, rfl⟩ := List.mem_map.1 hc
  refine ⟨fun f hf q hq xs rs he => ?_, fun t q ht hq xs rs he => ?_⟩
  · change f ∈ (c.costly k).flows at hf
    rw [comp_costly_flows] at hf
    obtain ⟨f, hg, rfl⟩ := List.mem_map.1 hf
    obtain ⟨q, hr, rfl⟩ := size_of_costly hq
    rw [show (q.costly k).effectsInSegments = q.effectsInSegments from rfl, (h c hd).1 f hg q hr] at he
    cases he
  · obtain ⟨t, hu, rfl⟩ := storage_of_costly ht
    obtain ⟨q, hr, rfl⟩ := capacity_of_costly hq
    rw [show (q.costly k).effectsInSegments = q.effectsInSegments from rfl, (h c hd).2 t q hu hr] at he
    cases he

end Flix
