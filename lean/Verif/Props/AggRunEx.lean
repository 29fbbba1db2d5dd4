import Verif.Lemmas.Check
import Verif.Props.Again
import Verif.Props.AggRun

/-!
# C111: examples, and where the code fails
-/

namespace Flix

/-- Four steps in two periods. -/
def exPeriods : Sys := { n := 4, dt := [1, 1, 1, 1], total := 4, prevDt := .s 1, cfg := exCfg }

theorem exPeriods_valid : exPeriods.Valid := by
  refine ⟨rfl, ?_, ?_, ?_⟩
  · intro d hd; simp [exPeriods] at hd; subst hd; norm_num
  · simp [exPeriods]; norm_num
  · simp [exPeriods, exCfg]

/-- A generator that may be off, with a price of its own in every step, and a load with the profile `a`. -/
def exProfile (a : Num) : System :=
  { effects := [{ label := "costs", isStandard := true, isObjective := true }]
    comps := [.plain { label := "Gen", inputs := [], outputs := [{ label := "Q", bus := "el", size := .num 100, effectsPerFlowHour := [(none, .v [1, 2, 2, 4])], onOff := some {} }] },
      .plain { label := "Load", inputs := [{ label := "Q", bus := "el", size := .num 10, fixedProfile := some a }], outputs := [] }]
    buses := [{ label := "el", excessPenalty := none }] }

/-- The profile of the load is an object of the user. -/
def exObjects : Declared := { object := fun l => if l = "Load__Q__fixed_relative_profile" then some 0 else none, weight := fun _ => some (1 / 2) }

def exRequest : AggRequest := { hours := 2, periods := 1, high := [0], model := { fixStorageFlows := false, fixNonBinary := true } }

/-- The means of both periods. -/
def exMeans : Clusterer := fun ask => .ok (⟨[0], [0, 0], 2, 4⟩, ask.data.map fun c =>
  (c.1, [(c.2.getD 0 0 + c.2.getD 2 0) / 2, (c.2.getD 1 0 + c.2.getD 3 0) / 2, (c.2.getD 0 0 + c.2.getD 2 0) / 2, (c.2.getD 1 0 + c.2.getD 3 0) / 2]))

/-- Both periods as they are. -/
def exBoth : Clusterer := fun ask => .ok (⟨[0, 1], [0, 1], 2, 4⟩, ask.data)

/-- The profile of the load is what object 0 holds. -/
theorem exObjects_holds : exObjects.Holds (exProfile (.v [1, 2, 1, 3])) 0 (.v [1, 2, 1, 3]) ∧ exObjects.Used (exProfile (.v [1, 2, 1, 3])) 0 ∧
    exObjects.Holds (exProfile (.v [1, 1, 1, 1])) 0 (.v [1, 1, 1, 1]) ∧ exObjects.Used (exProfile (.v [1, 1, 1, 1])) 0 := by
  unfold Declared.Holds Declared.Used
  decide +kernel

theorem exProfile_fits (a : Num) : (exProfile a).Fits exPeriods.n := by
  refine ⟨?_, ?_, ?_⟩
  · simp only [exProfile, List.forall_mem_cons, List.not_mem_nil, false_imp_iff, implies_true, and_true]
    constructor <;> simp
  · simp only [exProfile, List.forall_mem_cons, List.not_mem_nil, false_imp_iff, implies_true, and_true]
    refine ⟨⟨?_, by simp [Comp.onOff], by simp⟩, ⟨?_, by simp [Comp.onOff], by simp⟩⟩ <;>
    simp only [Comp.flows, Comp.inputs, Comp.outputs, List.nil_append, List.append_nil, List.forall_mem_cons, List.not_mem_nil,
      false_imp_iff, implies_true, and_true]
    · refine ⟨by simp [EffDict.Series, Num.isScalar, Num.len, exPeriods], ?_, by simp⟩
      intro q hq
      simp only [Option.some.injEq] at hq
      subst hq
      simp [OnOffParams.EffFits, EffDict.Series]
    · exact ⟨by simp [EffDict.Series], by simp, by simp⟩
  · simp [exProfile]

/-- An aggregated calculation with two different periods in one cluster meets the hypotheses of `C111_data` and `C111_peaks`. -/
example : ∃ o m, aggregatedRun exPeriods (exProfile (.v [1, 2, 1, 3])) exObjects exRequest exMeans [] = .ok (o, m) := by
  obtain ⟨⟨o, m⟩, h⟩ := builds (r := aggregatedRun exPeriods (exProfile (.v [1, 2, 1, 3])) exObjects exRequest exMeans []) (by decide +kernel)
  exact ⟨o, m, h⟩

/-- Two periods that stay as they are meet the hypotheses of `C111_full`. -/
example : ∃ o m o' terms terms', aggregatedRun exPeriods (exProfile (.v [1, 2, 1, 3])) exObjects exRequest exBoth [] = .ok (o, m) ∧
    systemModel exPeriods (exProfile (.v [1, 2, 1, 3])) = .ok o' ∧ objectiveTerms o.solver.objective = .ok terms ∧ objectiveTerms o'.solver.objective = .ok terms' ∧
    ∀ (τ : Assignment) (v : ℚ), (∃ σ, o.solver.Solves σ ∧ (∀ x, o'.Physical x → σ x.label = τ x.label) ∧ termsVal σ terms = v) ↔
      (∃ σ, o'.solver.Solves σ ∧ (∀ x, o'.Physical x → σ x.label = τ x.label) ∧ termsVal σ terms' = v) := by
  obtain ⟨⟨o, m⟩, h⟩ := builds (r := aggregatedRun exPeriods (exProfile (.v [1, 2, 1, 3])) exObjects exRequest exBoth []) (by decide +kernel)
  obtain ⟨o', h'⟩ := builds (r := systemModel exPeriods (exProfile (.v [1, 2, 1, 3]))) (by decide +kernel)
  obtain ⟨terms, terms', e1, e2, e3⟩ := C111_full exPeriods_valid (by decide) (exProfile_fits _) (by decide +kernel) h h' fun ask cl d hn hx => by
    cases hx
    refine ⟨by unfold ClusterData.AllDifferent; decide, by decide, by decide, fun l xs ys h1 h2 => ?_⟩
    have := pyLookup_of_mem hn h1
    rw [pyLookup_of_mem hn h2] at this
    exact Option.some.inj this
  exact ⟨o, m, o', terms, terms', h, h', e1, e2, e3⟩

/-- A series that does not change over time is no column: the clustering is asked for peaks of something it does not have, and refuses. -/
theorem C111_peaks_wrong : ∃ (sys : Sys) (s : System) (u : Declared) (q : AggRequest) (i : Nat) (xs : List ℚ), sys.Valid ∧ i ∈ q.high ∧ u.Holds s i (.v xs) ∧ u.Used s i ∧
    (∃ o m, aggregatedRun sys s u { q with high := [] } exMeans [] = .ok (o, m)) ∧
    ∀ ext : Clusterer, (∀ ask, (∃ l ∈ ask.high, ∀ k, l = some k → k ∉ ask.data.map (·.1)) → ext ask = .error .key) →
      aggregatedRun sys s u q ext [] = .error .key := by
  refine ⟨exPeriods, exProfile (.v [1, 1, 1, 1]), exObjects, exRequest, 0, [1, 1, 1, 1], exPeriods_valid, by decide, exObjects_holds.2.2.1, exObjects_holds.2.2.2, ?_, fun ext hx => ?_⟩
  · obtain ⟨⟨o, m⟩, h⟩ := builds (r := aggregatedRun exPeriods (exProfile (.v [1, 1, 1, 1])) exObjects { exRequest with high := [] } exMeans []) (by decide +kernel)
    exact ⟨o, m, h⟩
  · have e1 : checkPeriods exPeriods.dt exRequest.hours = .ok 2 := by decide +kernel
    have e2 : ((exProfile (.v [1, 1, 1, 1])).arrays.map (·.1)).mapM exObjects.series = .ok [⟨"Gen__Q__Standard_Effect_per_flow_hour", none, none⟩] := by decide +kernel
    have e3 : seriesCollection [⟨"Gen__Q__Standard_Effect_per_flow_hour", none, none⟩] = .ok [⟨"Gen__Q__Standard_Effect_per_flow_hour", none, some 1⟩] := by decide +kernel
    have e4 : checkFrame exPeriods.n (exProfile (.v [1, 1, 1, 1])).arrays = .ok [("Gen__Q__Standard_Effect_per_flow_hour", [1, 2, 2, 4])] := by decide +kernel
    unfold aggregatedRun
    rw [e1, ok_bind, e2, ok_bind, e3, ok_bind, e4, ok_bind, hx]
    · rfl
    · have hl : exObjects.labelOf (exProfile (.v [1, 1, 1, 1])) 0 = some "Load__Q__fixed_relative_profile" := by decide +kernel
      refine ⟨some "Load__Q__fixed_relative_profile", ?_, fun k hk => ?_⟩
      · show some "Load__Q__fixed_relative_profile" ∈ [exObjects.labelOf (exProfile (.v [1, 1, 1, 1])) 0]
        rw [hl]; simp
      · cases hk
        show "Load__Q__fixed_relative_profile" ∉ ["Gen__Q__Standard_Effect_per_flow_hour"]
        decide +kernel

/-- With corrections allowed but nothing to correct, every calculation with an on/off decision fails. -/
theorem C111_free_wrong : ∃ (sys : Sys) (s : System) (u : Declared) (q : AggRequest), sys.Valid ∧ 0 < q.model.percentage ∧
    (∃ o, systemModel sys s = .ok o) ∧ (∃ o m, aggregatedRun sys s u { q with model := { q.model with percentage := 0 } } exBoth [] = .ok (o, m)) ∧
    aggregatedRun sys s u q exBoth [] = .error .value := by
  refine ⟨exPeriods, exProfile (.v [1, 2, 1, 3]), exObjects, { exRequest with model := { exRequest.model with percentage := 50 } }, exPeriods_valid, by norm_num, builds (by decide +kernel), ?_, ?_⟩
  · obtain ⟨⟨o, m⟩, h⟩ := builds (r := aggregatedRun exPeriods (exProfile (.v [1, 2, 1, 3])) exObjects exRequest exBoth []) (by decide +kernel)
    exact ⟨o, m, h⟩
  · exact of_errB (by decide +kernel)

end Flix
