import Verif.Props.Cheapest
import Verif.Props.AggFull

/-!
# Cheapest solutions of aggregated calculations
-/

namespace Flix

variable {sys : Sys} {s : System} {p : AggParams} {cl : ClusterData} {sel : List String} {o : AggOut} {o' : SysOut}

/-- Deviations are at most as many as there are aggregated steps. -/
theorem deviationCost_lower (p : AggParams) (cl : ClusterData) (xs : List Var) :
    ∃ b : ℚ, ∀ σ : Assignment, b ≤ deviationCost p cl xs σ := by
  refine ⟨-(|p.penalty| * (xs.length * cl.copies.card)), fun σ => ?_⟩
  have h1 : (0 : ℚ) ≤ |p.penalty| * (xs.length * cl.copies.card) := by positivity
  unfold deviationCost
  split
  · have hk : (xs.map fun x => ((cl.deviations σ x.label).card : ℚ)).sum ≤ xs.length * cl.copies.card := by
      refine (List.sum_le_card_nsmul _ (cl.copies.card : ℚ) ?_).trans (by simp)
      intro q hq
      obtain ⟨x, _, rfl⟩ := List.mem_map.1 hq
      exact_mod_cast Finset.card_le_card (Finset.filter_subset _ _)
    have h0 : 0 ≤ (xs.map fun x => ((cl.deviations σ x.label).card : ℚ)).sum := by
      refine List.sum_nonneg ?_
      intro q hq
      obtain ⟨x, _, rfl⟩ := List.mem_map.1 hq
      positivity
    have := neg_abs_le p.penalty
    nlinarith [abs_nonneg p.penalty, mul_le_mul_of_nonneg_left hk (abs_nonneg p.penalty), mul_le_mul_of_nonneg_right this h0]
  · linarith

/-- **C95 (aggregated calculations).**  Every aggregated calculation that has a solution has a cheapest one, whatever the sign of the penalty for deviations. -/
theorem C95_aggregated (hv : sys.Valid) (hn : sys.n ≠ 0) (hf : s.Fits sys.n) (hff : ∀ c ∈ s.comps, ∀ f ∈ c.flows, f.Fits sys.n)
    (h : aggregatedModel sys s p cl sel = .ok o) (h' : systemModel sys s = .ok o') (hnd : (s.comps.map Comp.label).Nodup) (hkeys : cl.keys.Nodup)
    (htot : cl.total ≤ sys.n) {rank : String → Nat} (hr1 : Ranked s.effects (·.shareOperation) rank) (hr2 : Ranked s.effects (·.shareInvest) rank)
    (hp : ∀ b ∈ s.buses, ∀ pen, b.excessPenalty = some pen → ∀ t < sys.n, 0 ≤ pen.at t) (hs : ∃ σ, o.solver.Solves σ) :
    ∃ terms, objectiveTerms o.solver.objective = .ok terms ∧ ∃ σ, o.solver.Solves σ ∧ ∀ τ, o.solver.Solves τ → termsVal σ terms ≤ termsVal τ terms := by
  obtain ⟨terms, terms', xs, ht, ht', _, _, hiff⟩ := C92 hv hn hf h h' hnd hkeys htot
  obtain ⟨u, e, hu, he, hc⟩ := solution_cost hv hn hf h'
  rw [ht'] at hu
  cases hu
  obtain ⟨b, hb⟩ := C95_bounded hv hn hf hff h' hr1 hr2 hp (List.mem_of_find?_eq_some he)
  obtain ⟨b', hb'⟩ := deviationCost_lower p cl xs
  refine ⟨terms, ht, C94 hs (b := b + b') fun τ hτ => ?_⟩
  obtain ⟨⟨τ', a, _, c⟩, _⟩ := (hiff τ (termsVal τ terms)).1 ⟨τ, hτ, fun _ _ => rfl, rfl⟩
  have h1 := hb τ' a
  have h2 := hc τ' a
  simp only [← h2] at h1
  linarith [hb' τ]

/-- The example of an aggregated calculation has a cheapest solution. -/
example : ∃ o terms σ, aggregatedModel exAggSys exAggSystem exFree exCluster [] = .ok o ∧ objectiveTerms o.solver.objective = .ok terms ∧ o.solver.Solves σ ∧
    ∀ τ, o.solver.Solves τ → termsVal σ terms ≤ termsVal τ terms := by
  obtain ⟨o, h, hs⟩ := exFree_ok
  obtain ⟨o', h'⟩ : ∃ o', systemModel exAggSys exAggSystem = .ok o' := builds (by decide +kernel)
  obtain ⟨terms, ht, σ, h1, h2⟩ := C95_aggregated exAggSys_valid (by decide) exAgg_fits (by
    simp only [exAggSystem, List.forall_mem_cons, List.not_mem_nil, false_imp_iff, implies_true, and_true, Comp.flows, Comp.inputs, Comp.outputs, List.nil_append,
      List.append_nil, List.cons_append]
    refine ⟨?_, ?_⟩ <;> constructor <;> simp [exAggOut, exAggLoad, Num.Fits, Num.isScalar, Num.len, exAggSys]
    constructor <;> simp) h h' exAgg_nodup (by decide) (by decide) (rank := fun _ => 0)
    (by
      intro e he q hq
      simp only [exAggSystem, List.mem_cons, List.not_mem_nil, or_false] at he
      subst he
      simp at hq)
    (by
      intro e he q hq
      simp only [exAggSystem, List.mem_cons, List.not_mem_nil, or_false] at he
      subst he
      simp at hq)
    (by
      intro b hb pen hp
      simp only [exAggSystem, List.mem_cons, List.not_mem_nil, or_false] at hb
      subst hb
      cases hp) ⟨_, hs⟩
  exact ⟨o, terms, σ, h, ht, h1, h2⟩

end Flix
