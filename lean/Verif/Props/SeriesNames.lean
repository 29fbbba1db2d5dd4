import Verif.Lemmas.SeriesNames
import Verif.Props.Sensible

/-!
# C105: labels of time series

An aggregated calculation collects all time series that change over time and refuses to work if two have the same label.
-/

namespace Flix

/-- **C105, exactly.**  The time series of a declared system are accepted by an aggregated calculation if and only if no converter has, for one
flow, factors changing over time in two equations, or two support points changing over time. -/
theorem C105_iff {s : System} (hs : s.Named) (hr : s.Referred) {ss : List AggSeries} (hss : (ss.map (·.label)).Perm s.arrayLabels) :
    (∃ r, seriesCollection ss = .ok r) ↔ ∀ c, Comp.converter c ∈ s.comps → c.OneEach := by
  rw [← arrays_nodup hs hr, ← hss.nodup_iff]
  unfold seriesCollection
  by_cases h : (ss.map (·.label)).Nodup
  · rw [if_pos h]
    exact ⟨fun _ => h, fun _ => ⟨_, rfl⟩⟩
  · rw [if_neg h]
    exact ⟨fun ⟨r, hr⟩ => (by cases hr), fun h' => absurd h' h⟩

/-- **C105, in part**: the labels are different and the collection is accepted if no converter has two such data.  What is missing is shown by
`C105_wrong`: otherwise they are not. -/
theorem C105_partial {s : System} (hs : s.Named) (hr : s.Referred) (h : ∀ c, Comp.converter c ∈ s.comps → c.OneEach) {ss : List AggSeries}
    (hss : (ss.map (·.label)).Perm s.arrayLabels) : s.arrayLabels.Nodup ∧ ∃ r, seriesCollection ss = .ok r :=
  ⟨(arrays_nodup hs hr).2 h, (C105_iff hs hr hss).2 h⟩

/-- Whatever else is declared, a CHP whose efficiencies both change over time cannot be part of an aggregated calculation. -/
theorem C105_chp {s : System} {label : String} {etaTh etaEl : Num} {qfu pel qth : FlowData} {onOff : Option OnOffParams}
    (hc : Comp.converter (chp label etaTh etaEl qfu pel qth onOff) ∈ s.comps) (h1 : etaTh.Varies) (h2 : etaEl.Varies) {ss : List AggSeries}
    (hss : (ss.map (·.label)).Perm s.arrayLabels) : seriesCollection ss = .error .assertion := by
  unfold seriesCollection
  rw [if_neg]
  intro hn
  have hn := hss.nodup_iff.1 hn
  have hm : ((chp label etaTh etaEl qfu pel qth onOff).comp.label, (chp label etaTh etaEl qfu pel qth onOff).series) ∈ s.allSeries := by
    unfold System.allSeries
    refine List.mem_append_left _ (List.mem_append_left _ (List.mem_append_left _ (List.mem_map.2 ⟨_, hc, rfl⟩)))
  have hl := (List.nodup_flatten.1 hn).1 _ (List.mem_map_of_mem (f := Flix.arrayLabels) hm)
  rw [arrayLabels_eq] at hl
  have hsh := hl.of_map
  rw [show (chp label etaTh etaEl qfu pel qth onOff).series = onOffSeries onOff ++ factorSeries (chp label etaTh etaEl qfu pel qth onOff).factors from rfl,
    shorts_append] at hsh
  have hf := nodup_shorts_iff.1 (List.nodup_append.1 hsh).2.1
  simp only [factorSeries, chp, List.flatten_cons, List.flatten_nil, List.append_nil, List.cons_append, List.nil_append, List.map_cons, List.map_nil,
    List.pairwise_cons] at hf
  exact hf.1 (qfu.label ++ "_factor", etaEl) (by simp) (isArray_iff.2 h1) (isArray_iff.2 h2) rfl

/-! ## Examples -/

/-- A CHP between gas, heat and power, with the given efficiencies. -/
def exChp (etaTh etaEl : Num) : System :=
  { comps := [.plain { label := "Grid", inputs := [], outputs := [{ label := "gas", bus := "Gas", size := .num 100, relMax := .v [1, 1 / 2, 1], effectsPerFlowHour := [(none, .v [3, 4, 5])] }] },
      .converter (chp "CHP" etaTh etaEl { label := "Q_fu", bus := "Gas", size := .num 100 } { label := "P_el", bus := "Power", size := .num 100 }
        { label := "Q_th", bus := "Heat", size := .num 100 } none),
      .plain { label := "Load", inputs := [{ label := "heat", bus := "Heat", size := .num 1, fixedProfile := some (.v [2, 4, 6]) }], outputs := [] },
      .plain { label := "Sale", inputs := [{ label := "power", bus := "Power", size := .num 100 }], outputs := [] }],
    buses := [{ label := "Gas" }, { label := "Heat" }, { label := "Power" }],
    effects := [{ label := "costs", isStandard := true, isObjective := true }] }

theorem exChp_named (a b : Num) : (exChp a b).Named := by
  have hn := named_of (s := exChp (.s 0) (.s 0)) (by decide +kernel)
  refine ⟨hn.names, hn.distinct, ?_, ?_, ?_⟩
  · intro c hc f hf
    simp only [exChp, List.mem_cons, List.not_mem_nil, or_false] at hc
    rcases hc with rfl | rfl | rfl | rfl
    · exact hn.flowNames _ (by simp [exChp]) f hf
    · exact hn.flowNames (.converter (chp "CHP" (.s 0) (.s 0) _ _ _ none)) (by simp only [exChp, List.mem_cons, true_or, or_true]) f hf
    · exact hn.flowNames _ (by simp [exChp]) f hf
    · exact hn.flowNames _ (by simp [exChp]) f hf
  · intro c hc
    simp only [exChp, List.mem_cons, List.not_mem_nil, or_false] at hc
    rcases hc with rfl | rfl | rfl | rfl
    · exact hn.flowDistinct _ (by simp [exChp])
    · exact hn.flowDistinct (.converter (chp "CHP" (.s 0) (.s 0) _ _ _ none)) (by simp only [exChp, List.mem_cons, true_or, or_true])
    · exact hn.flowDistinct _ (by simp [exChp])
    · exact hn.flowDistinct _ (by simp [exChp])
  · intro x y hx
    simp [exChp] at hx

theorem effDict_nil (es : List EffectData) : EffDict.Known es [] := ⟨by simp, List.Pairwise.nil⟩

theorem exChp_referred (a b : Num) : (exChp a b).Referred := by
  have key : ∀ f : FlowData, EffDict.Known (exChp a b).effects f.effectsPerFlowHour → f.onOff = none → (∀ q, f.size ≠ .invest q) → f.Known (exChp a b).effects :=
    fun f h1 h2 h3 => ⟨h1, fun q hq => (by rw [h2] at hq; cases hq), fun q hq => absurd hq (h3 q)⟩
  refine ⟨?_, ?_, ?_, by simp only [exChp, List.map_cons, List.map_nil]; decide +kernel⟩
  · intro c hc
    simp only [exChp, List.mem_cons, List.not_mem_nil, or_false] at hc
    rcases hc with rfl | rfl | rfl | rfl
    · refine ⟨?_, by simp [Comp.onOff], by simp⟩
      simp only [Comp.flows, Comp.inputs, Comp.outputs, List.nil_append, List.mem_singleton, forall_eq]
      refine key _ ⟨?_, List.pairwise_singleton _ _⟩ rfl (by simp)
      simp only [List.mem_singleton, forall_eq]
      exact ⟨_, List.mem_cons_self, by simp [names, exChp]⟩
    · refine ⟨?_, by simp [Comp.onOff, chp], by simp⟩
      simp only [Comp.flows, Comp.inputs, Comp.outputs, chp, List.cons_append, List.nil_append, List.mem_cons, List.not_mem_nil, or_false, forall_eq_or_imp, forall_eq]
      exact ⟨key _ (effDict_nil _) rfl (by simp), key _ (effDict_nil _) rfl (by simp), key _ (effDict_nil _) rfl (by simp)⟩
    · refine ⟨?_, by simp [Comp.onOff], by simp⟩
      simp only [Comp.flows, Comp.inputs, Comp.outputs, List.append_nil, List.mem_singleton, forall_eq]
      exact key _ (effDict_nil _) rfl (by simp)
    · refine ⟨?_, by simp [Comp.onOff], by simp⟩
      simp only [Comp.flows, Comp.inputs, Comp.outputs, List.append_nil, List.mem_singleton, forall_eq]
      exact key _ (effDict_nil _) rfl (by simp)
  · intro e he
    simp only [exChp, List.mem_singleton] at he
    subst he
    exact ⟨⟨by simp, by simp⟩, ⟨by simp, by simp⟩⟩
  · intro c hc
    simp only [exChp, List.mem_cons, List.not_mem_nil, or_false, reduceCtorEq, false_or, Comp.converter.injEq] at hc
    subst hc
    intro d hd
    simp only [chp, List.mem_cons, List.not_mem_nil, or_false] at hd
    rcases hd with rfl | rfl
    · exact ⟨by simp only [List.map_cons, List.map_nil]; decide +kernel, by simp [chp]⟩
    · exact ⟨by simp only [List.map_cons, List.map_nil]; decide +kernel, by simp [chp]⟩

/-- The hypotheses of `C105_partial` are met by a system whose CHP has one efficiency changing over time, besides a price, a limit and a load that do. -/
example : ((exChp (.v [1 / 2, 2 / 5, 1 / 2]) (.s (2 / 5))).arrayLabels = ["CHP__Q_fu_factor", "Grid__gas__relative_maximum", "Grid__gas__Standard_Effect_per_flow_hour",
      "Load__heat__fixed_relative_profile"]) ∧
    ∃ r, seriesCollection ((exChp (.v [1 / 2, 2 / 5, 1 / 2]) (.s (2 / 5))).arrayLabels.map fun l => ⟨l, none, none⟩) = .ok r := by
  refine ⟨by decide +kernel, (C105_partial (exChp_named (.v [1 / 2, 2 / 5, 1 / 2]) (.s (2 / 5))) (exChp_referred _ _) ?_ (by rw [List.map_map]; simp only [Function.comp_def, List.map_id']; exact List.Perm.refl _)).2⟩
  intro c hc
  simp only [exChp, List.mem_cons, List.not_mem_nil, or_false, reduceCtorEq, false_or, Comp.converter.injEq] at hc
  subst hc
  refine ⟨?_, by simp [chp]⟩
  refine List.pairwise_pair.2 ?_
  rintro q _ q' hq' _ ⟨_, xs, hx, _⟩
  simp only [List.mem_cons, List.not_mem_nil, or_false] at hq'
  rcases hq' with rfl | rfl <;> cases hx

/-- **C105 is violated**: a CHP with two efficiencies changing over time.  All labels are valid and different, everything referred to exists and the
system can be modelled, yet the aggregated calculation stops with an assertion, whatever groups and weights are given. -/
theorem C105_wrong : ∃ s : System, s.Named ∧ s.Referred ∧ (∃ o, systemModel exSys s = .ok o) ∧
    ∀ ss : List AggSeries, (ss.map (·.label)).Perm s.arrayLabels → seriesCollection ss = .error .assertion := by
  refine ⟨exChp (.v [1 / 2, 2 / 5, 1 / 2]) (.v [2 / 5, 1 / 2, 2 / 5]), exChp_named _ _, exChp_referred _ _, builds (by decide +kernel), ?_⟩
  intro ss hss
  refine C105_chp (s := exChp _ _) (List.mem_cons_of_mem _ List.mem_cons_self) ?_ ?_ hss
  · exact ⟨_, rfl, 1 / 2, by simp, 2 / 5, by simp, by norm_num⟩
  · exact ⟨_, rfl, 2 / 5, by simp, 1 / 2, by simp, by norm_num⟩

end Flix
