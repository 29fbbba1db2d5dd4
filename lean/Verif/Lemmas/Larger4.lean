import Verif.Lemmas.Larger3

/-!
# Sensible declarations stay sensible in another unit of energy
-/

namespace Flix

variable {sys : Sys} {s : System} {k : ℚ} {n : Nat}

theorem size_of_inUnit {f : FlowData} {q' : InvestParams} (h : (f.inUnit k).size = .invest q') : ∃ q, f.size = .invest q ∧ q' = q.inUnit k := by
  change f.size.inUnit k = _ at h
  cases hs : f.size with
  | unset => rw [hs] at h; cases h
  | num x => rw [hs] at h; cases h
  | invest q => rw [hs] at h; cases h; exact ⟨q, rfl, rfl⟩

theorem capacity_of_inUnit {t : StorageData} {q' : InvestParams} (h : (t.inUnit k).capacity = .invest q') : ∃ q, t.capacity = .invest q ∧ q' = q.inUnit k := by
  change t.capacity.inUnit k = _ at h
  cases hs : t.capacity with
  | num x => rw [hs] at h; cases h
  | invest q => rw [hs] at h; cases h; exact ⟨q, rfl, rfl⟩

theorem storage_of_inUnit {c : Comp} {t' : StorageData} (h : c.inUnit k = .storage t') : ∃ t, c = .storage t ∧ t' = t.inUnit k := by
  cases c <;> cases h
  exact ⟨_, rfl, rfl⟩

theorem series_perUnit {d : EffDict} (h : d.Series n) : EffDict.Series n (EffDict.perUnit k d) := by
  intro q hq
  obtain ⟨p, hp, rfl⟩ := List.mem_map.1 hq
  simpa [map_isScalar, map_len] using h p hp

theorem scalars_perUnit {d : EffDict} (h : d.Scalars) : EffDict.Scalars (EffDict.perUnit k d) := by
  intro q hq
  obtain ⟨p, hp, rfl⟩ := List.mem_map.1 hq
  simpa [map_isScalar] using h p hp

theorem shape_map {ps : List Num} (f : ℚ → ℚ) (h : SameShape ps) : SameShape (ps.map (Num.map f)) := by
  rcases h with h | ⟨m, hm, h⟩
  · refine .inl fun p hp => ?_
    obtain ⟨p, hq, rfl⟩ := List.mem_map.1 hp
    rw [map_isScalar]
    exact h p hq
  · refine .inr ⟨m, hm, fun p hp => ?_⟩
    obtain ⟨p, hq, rfl⟩ := List.mem_map.1 hp
    rw [map_isScalar, map_len]
    exact h p hq

theorem history_map (f : ℚ → ℚ) : ∀ ps : List Num, historyLen (ps.map (Num.map f)) = historyLen ps
  | [] => rfl
  | .s x :: ps => by simp [historyLen, Num.map]
  | .v xs :: ps => by simp [historyLen, Num.map]

theorem onOff_sane_inUnit {ps : List Num} {q : OnOffParams} (h : q.Sane sys ps) : q.Sane (sys.inUnit k) (ps.map (Num.map (k * ·))) :=
  ⟨h.fits, h.eff, shape_map _ h.shape, fun hr l hl => by rw [history_map]; exact h.runs hr l hl⟩

theorem invest_sane_inUnit {q : InvestParams} (h : q.Sane) : (q.inUnit k).Sane := by
  refine ⟨⟨h.eff.1, h.eff.2.1, scalars_perUnit h.eff.2.2⟩, fun xs es he => ?_⟩
  obtain ⟨⟨xs₀, es₀⟩, h1, h2⟩ := Option.map_eq_some_iff.1 he
  simp only [Prod.mk.injEq] at h2
  obtain ⟨rfl, rfl⟩ := h2
  simpa using h.segs xs₀ es₀ h1

theorem flow_sane_inUnit {f : FlowData} (h : f.Sane sys) : (f.inUnit k).Sane (sys.inUnit k) := by
  refine ⟨⟨h.fits.relMin, h.fits.relMax, h.fits.prof, h.fits.onOff⟩, ⟨series_perUnit h.eff.op, h.eff.onOff, fun q hq => ?_⟩, fun q hq => ?_, fun hp => ?_, fun q hq => ?_⟩
  · obtain ⟨q, hr, rfl⟩ := size_of_inUnit hq
    exact (invest_sane_inUnit (h.invest q hr)).eff
  · obtain ⟨q, hr, rfl⟩ := size_of_inUnit hq
    exact invest_sane_inUnit (h.invest q hr)
  · obtain ⟨a, h1, h2⟩ := Option.map_eq_some_iff.1 hp
    cases a with
    | s x => cases h2
    | v xs =>
      simp only [Num.map, Num.v.injEq, List.map_eq_nil_iff] at h2
      subst h2
      exact h.past h1
  · have := onOff_sane_inUnit (k := k) (h.onOff q hq)
    have e : (f.previousFlowRate.map (Num.map (k * ·))).toList = f.previousFlowRate.toList.map (Num.map (k * ·)) := by cases f.previousFlowRate <;> rfl
    rw [← e] at this
    exact this

theorem flows_sane_inUnit {fs : List FlowData} {o : Option OnOffParams} (h : FlowsSane sys fs o) : FlowsSane (sys.inUnit k) (fs.map (FlowData.inUnit k)) o := by
  refine ⟨fun f hf => ?_, fun q hq => ?_⟩
  · obtain ⟨f, hg, rfl⟩ := List.mem_map.1 hf
    exact flow_sane_inUnit (h.flows f hg)
  · obtain ⟨h1, h2⟩ := h.onOff q hq
    refine ⟨by simpa using h1, ?_⟩
    have e : (fs.map (FlowData.inUnit k)).filterMap (·.previousFlowRate) = (fs.filterMap (·.previousFlowRate)).map (Num.map (k * ·)) := by
      rw [List.filterMap_map, List.map_filterMap]
      rfl
    rw [e]
    exact onOff_sane_inUnit h2

theorem compData_sane_inUnit {c : CompData} (h : c.Sane sys) : (c.inUnit k).Sane (sys.inUnit k) := by
  have e : (c.inUnit k).inputs ++ (c.inUnit k).outputs = (c.inputs ++ c.outputs).map (FlowData.inUnit k) := List.map_append.symm
  refine ⟨?_, ?_⟩
  · rw [e]
    exact flows_sane_inUnit h.flows
  · refine h.prevent.imp id fun ⟨h1, h2⟩ => ⟨h1, fun l hl => ?_⟩
    obtain ⟨f, hf, rfl⟩ := h2 l hl
    rw [e]
    exact ⟨_, List.mem_map_of_mem hf, rfl⟩

theorem toList_inUnit (o : Option FlowData) : (o.map (FlowData.inUnit k)).toList = o.toList.map (FlowData.inUnit k) := by cases o <;> rfl

theorem comp_sane_inUnit (h0 : k ≠ 0) {c : Comp} (h : c.Sane sys) : (c.inUnit k).Sane (sys.inUnit k) := by
  cases c with
  | plain d => exact compData_sane_inUnit h
  | converter d =>
    have e : (d.comp.inUnit k).inputs ++ (d.comp.inUnit k).outputs = (d.comp.inputs ++ d.comp.outputs).map (FlowData.inUnit k) := List.map_append.symm
    refine ⟨compData_sane_inUnit h.comp, h.rule.imp id fun ⟨h1, h2, h3, m, h4⟩ => ⟨h1, ?_, ?_, m, ?_⟩⟩
    · show (d.comp.inUnit k).inputs ++ (d.comp.inUnit k).outputs ≠ []
      rw [e]
      simpa using h2
    · show ∀ f ∈ (d.comp.inUnit k).inputs ++ (d.comp.inUnit k).outputs, _
      rw [e]
      intro f hf
      obtain ⟨f, hg, rfl⟩ := List.mem_map.1 hf
      obtain ⟨r, hr, hl⟩ := h3 f hg
      exact ⟨_, List.mem_map_of_mem hr, hl⟩
    · intro r hr
      obtain ⟨r, hr', rfl⟩ := List.mem_map.1 hr
      obtain ⟨g1, g2⟩ := h4 r hr'
      refine ⟨by simpa using g1, fun p hp => ?_⟩
      obtain ⟨p, hp', rfl⟩ := List.mem_map.1 hp
      exact ⟨map_fits _ (g2 p hp').1, map_fits _ (g2 p hp').2⟩
  | storage t =>
    refine ⟨flow_sane_inUnit h.charging, flow_sane_inUnit h.discharging, ⟨h.fits.relMin, h.fits.relMax, h.fits.etaC, h.fits.etaD, h.fits.loss⟩, h.eta, fun hi => ?_, fun q hq => ?_⟩
    · change t.initial.inUnit k = _ at hi
      have := h.initial
      cases ht : t.initial <;> rw [ht] at hi this <;> first | exact this rfl | cases hi
    · obtain ⟨q, hr, rfl⟩ := capacity_of_inUnit hq
      exact invest_sane_inUnit (h.capacity q hr)
  | transmission t =>
    refine ⟨?_, ⟨h.fits.rel, fun r hr => ?_⟩, ?_, fun a ha => ?_⟩
    · have := flows_sane_inUnit (k := k) h.flows
      simpa [TransData.inUnit, toList_inUnit] using this
    · obtain ⟨a, h1, rfl⟩ := Option.map_eq_some_iff.1 hr
      exact map_fits _ (h.fits.abs a h1)
    · show t.in2.map _ ≠ none → t.out2.map _ ≠ none
      simpa using h.both
    · obtain ⟨a, h1, rfl⟩ := Option.map_eq_some_iff.1 ha
      refine (h.abs a h1).imp (fun ⟨j, hj, hne⟩ => ⟨j, hj, ?_⟩) (Or.imp id fun h2 => ?_)
      swap
      · rw [num_at_mul]
        exact mul_ne_zero h0 hne
      · show ∀ f ∈ t.in1.inUnit k :: (t.in2.map (FlowData.inUnit k)).toList, f.onOff ≠ none
        rw [toList_inUnit, ← List.map_cons]
        intro f hf
        obtain ⟨f, hg, rfl⟩ := List.mem_map.1 hf
        exact h2 f hg

theorem dict_known_perUnit {es : List EffectData} {d : EffDict} (h : EffDict.Known es d) : EffDict.Known es (EffDict.perUnit k d) := by
  refine ⟨fun q hq => ?_, ?_⟩
  · obtain ⟨p, hp, rfl⟩ := List.mem_map.1 hq
    exact h.known p hp
  · unfold EffDict.perUnit
    rw [List.pairwise_map]
    exact h.once

theorem invest_known_inUnit {es : List EffectData} {q : InvestParams} (h : q.Known es) : (q.inUnit k).Known es := by
  refine ⟨h.fix, dict_known_perUnit h.specific, h.divest, fun xs rs he => ?_⟩
  obtain ⟨⟨xs₀, es₀⟩, h1, h2⟩ := Option.map_eq_some_iff.1 he
  simp only [Prod.mk.injEq] at h2
  obtain ⟨rfl, rfl⟩ := h2
  exact h.segs xs₀ es₀ h1

theorem comp_known_inUnit {es : List EffectData} {c : Comp} (h : c.Known es) : (c.inUnit k).Known es := by
  refine ⟨fun f hf => ?_, fun q hq => ?_, fun t ht q hq => ?_⟩
  · rw [comp_inUnit_flows] at hf
    obtain ⟨f, hg, rfl⟩ := List.mem_map.1 hf
    have kf := h.flows f hg
    refine ⟨dict_known_perUnit kf.hours, kf.onOff, fun q hq => ?_⟩
    obtain ⟨q, hr, rfl⟩ := size_of_inUnit hq
    exact invest_known_inUnit (kf.invest q hr)
  · rw [(comp_inUnit_shape c).2.2.2] at hq
    exact h.onOff q hq
  · obtain ⟨t, hu, rfl⟩ := storage_of_inUnit ht
    obtain ⟨q, hr, rfl⟩ := capacity_of_inUnit hq
    exact invest_known_inUnit (h.capacity t hu q hr)

theorem system_sane_inUnit (h0 : k ≠ 0) (h : s.Sane sys) : (s.inUnit k).Sane (sys.inUnit k) := by
  refine ⟨fun c hc => ?_, fun c hc => ?_, fun b hb pen hp => ?_, h.effects, h.objective⟩
  · obtain ⟨c, hd, rfl⟩ := List.mem_map.1 hc
    exact comp_sane_inUnit h0 (h.comps c hd)
  · obtain ⟨c, hd, rfl⟩ := List.mem_map.1 hc
    exact comp_known_inUnit (h.known c hd)
  · obtain ⟨b, hd, rfl⟩ := List.mem_map.1 hb
    obtain ⟨p, hq, rfl⟩ := Option.map_eq_some_iff.1 hp
    exact map_fits _ (h.buses b hd p hq)

theorem invest_tied_inUnit {q : InvestParams} (h : q.Tied) : (q.inUnit k).Tied := by
  intro xs es he
  obtain ⟨⟨xs₀, es₀⟩, h1, h2⟩ := Option.map_eq_some_iff.1 he
  simp only [Prod.mk.injEq] at h2
  obtain ⟨rfl, rfl⟩ := h2
  exact h xs₀ es₀ h1

theorem system_tied_inUnit (h : s.Tied) : (s.inUnit k).Tied := by
  refine ⟨fun c hc => ?_, fun b hb => ?_⟩
  · obtain ⟨c, hd, rfl⟩ := List.mem_map.1 hc
    have hc' := h.comps c hd
    refine ⟨fun f hf q hq => ?_, fun d hdd => ?_, fun t q ht hq => ?_⟩
    · rw [comp_inUnit_flows] at hf
      obtain ⟨f, hg, rfl⟩ := List.mem_map.1 hf
      obtain ⟨q, hr, rfl⟩ := size_of_inUnit hq
      exact invest_tied_inUnit (hc'.flows f hg q hr)
    · cases c with
      | plain _ => cases hdd
      | storage _ => cases hdd
      | transmission _ => cases hdd
      | converter d₀ =>
        cases hdd
        have hd' := hc'.converter d₀ rfl
        have e : (d₀.comp.inUnit k).inputs ++ (d₀.comp.inUnit k).outputs = (d₀.comp.inputs ++ d₀.comp.outputs).map (FlowData.inUnit k) := List.map_append.symm
        refine ⟨fun fs hfs => ?_, fun hz => (hd'.segments hz).imp id fun h1 r hr => ?_⟩
        · obtain ⟨q, hq, f, hf, hl⟩ := hd'.factors fs hfs
          refine ⟨q, hq, f.inUnit k, ?_, hl⟩
          show _ ∈ (d₀.comp.inUnit k).inputs ++ (d₀.comp.inUnit k).outputs
          rw [e]
          exact List.mem_map_of_mem hf
        · obtain ⟨r, hr', rfl⟩ := List.mem_map.1 hr
          simpa using h1 r hr'
    · obtain ⟨t, hu, rfl⟩ := storage_of_inUnit ht
      obtain ⟨q, hr, rfl⟩ := capacity_of_inUnit hq
      exact invest_tied_inUnit (hc'.storage t q hu hr)
  · obtain ⟨b, hd, rfl⟩ := List.mem_map.1 hb
    refine (h.buses b hd).imp (fun h1 => ?_) fun ⟨c, hc, f, hf, hl⟩ => ⟨c.inUnit k, List.mem_map_of_mem hc, f.inUnit k, ?_, hl⟩
    · show b.excessPenalty.map _ ≠ none
      simpa using h1
    · rw [comp_inUnit_flows]
      exact List.mem_map_of_mem hf

theorem system_labels_inUnit (s : System) : (s.inUnit k).labels = s.labels := by
  simp only [System.labels, System.inUnit, List.map_map]
  congr 2
  congr 1
  funext c
  exact (comp_inUnit_shape c).1

theorem system_named_inUnit (h : s.Named) : (s.inUnit k).Named := by
  refine ⟨by rw [system_labels_inUnit]; exact h.names, by rw [system_labels_inUnit]; exact h.distinct, fun c hc f hf => ?_, fun c hc => ?_, fun a b ha hb hi => ?_⟩
  · obtain ⟨c, hd, rfl⟩ := List.mem_map.1 hc
    rw [comp_inUnit_flows] at hf
    obtain ⟨f, hg, rfl⟩ := List.mem_map.1 hf
    exact h.flowNames c hd f hg
  · obtain ⟨c, hd, rfl⟩ := List.mem_map.1 hc
    rw [comp_inUnit_flows, List.map_map]
    exact h.flowDistinct c hd
  · obtain ⟨c, hd, e⟩ := List.mem_map.1 ha
    obtain ⟨c', hd', e'⟩ := List.mem_map.1 hb
    obtain ⟨a, rfl, rfl⟩ := storage_of_inUnit e
    obtain ⟨b, rfl, rfl⟩ := storage_of_inUnit e'
    refine h.noClash a b hd hd' fun hz => hi ?_
    show a.initial.inUnit k = _
    rw [hz]
    rfl

end Flix
