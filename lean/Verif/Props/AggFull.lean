import Verif.Props.Aggregation
import Verif.Lemmas.Whole

/-!
# C92: an aggregated calculation against the full calculation of the same data
-/

namespace Flix

variable {sys : Sys} {s : System} {p : AggParams} {cl : ClusterData} {sel : List String} {o : AggOut} {o' : SysOut} {σ : Assignment}

/-- Both calculations model the components and buses in the same way. -/
theorem agg_same (h : aggregatedModel sys s p cl sel = .ok o) (h' : systemModel sys s = .ok o') : o.comps = o'.comps ∧ o.buses = o'.buses := by
  obtain ⟨a1, a2, _⟩ := aggregated_inv h
  obtain ⟨b1, b2, _⟩ := system_inv h'
  have e : o.comps = o'.comps := by
    have := mapM_ok.2 a1
    rw [mapM_ok.2 b1] at this
    exact (Except.ok.inj this).symm
  refine ⟨e, ?_⟩
  rw [e] at a2
  have := mapM_ok.2 a2
  rw [mapM_ok.2 b2] at this
  exact (Except.ok.inj this).symm

theorem agg_calls_same (h : aggregatedModel sys s p cl sel = .ok o) (h' : systemModel sys s = .ok o') : o.calls = o'.calls := by
  unfold AggOut.calls SysOut.calls
  rw [(agg_same h h').1, (agg_same h h').2]

/-- Corrections cost penalty only, they do not cause effects. -/
theorem agg_direct (h : aggregatedModel sys s p cl sel = .ok o) (hnd : (s.comps.map Comp.label).Nodup) (hkeys : cl.keys.Nodup) {tg : Target} (ht : tg ≠ .penalty)
    (τ : Assignment) (l : String) (t : Nat) : direct τ s.effects (o.calls ++ o.agg.shares) tg l t = direct τ s.effects o.calls tg l t := by
  obtain ⟨w, _⟩ := agg_penalty h hnd hkeys
  have : o.agg.shares.filter (ShareCall.goesTo s.effects tg l) = [] := by
    rw [List.filter_eq_nil_iff]
    intro c hc
    have := (w c hc).2
    simp only [ShareCall.goesTo, this, Bool.and_eq_true, decide_eq_true_eq, not_and]
    intro e
    exact absurd e.symm ht
  unfold direct
  rw [List.filter_append, this, List.append_nil]

theorem agg_labels (h : aggregatedModel sys s p cl sel = .ok o) :
    (o.coll.tree.labels ++ ((o.comps.map CompOut.tree ++ o.buses.map (·.tree)).flatMap MTree.labels ++ o.agg.tree.labels)).Nodup := by
  obtain ⟨p1, _, n1, _, _⟩ := collectModel_perm (aggregated_inv h).2.2.2.2
  have := (p1.map Var.label).nodup_iff.1 n1
  have key : ∀ ss : List MTree, ((MTree.nodesAll ss).flatMap MTree.vars).map (·.label) = ss.flatMap MTree.labels := by
    intro ss
    induction ss with
    | nil => rfl
    | cons s ss ih => simp [MTree.nodesAll, MTree.labels, ih, List.flatMap_append]
  rw [key] at this
  simpa [List.flatMap_append] using this

/-- The totals of an aggregated calculation add up and keep the limits. -/
theorem agg_totals (hv : sys.Valid) (hn : sys.n ≠ 0) (hf : s.Fits sys.n) (h : aggregatedModel sys s p cl sel = .ok o) (hnd : (s.comps.map Comp.label).Nodup)
    (hkeys : cl.keys.Nodup) (hs : o.solver.Solves σ) :
    (⟨fun l t => σ (opTSL l) t, fun l => σ (invSumL l) 0⟩ : Totals).Balanced s.effects sys.n (s.opOf sys σ) (s.invOf σ) ∧
    ∀ e ∈ s.effects, (⟨fun l t => σ (opTSL l) t, fun l => σ (invSumL l) 0⟩ : Totals).Allowed sys e ∧
      σ (e.label ++ "__all_all_sum") 0 = ∑ t ∈ Finset.range sys.n, σ (opTSL e.label) t + σ (invSumL e.label) 0 := by
  obtain ⟨c1, c2, _, h3, _⟩ := aggregated_inv h
  obtain ⟨_, d1, d2, _⟩ := elements_calls hv hf c1 c2
  obtain ⟨hw, _⟩ := aggregated_calls hv hf h hnd hkeys
  have rows := ((collection_iff hv hn h3 hf.effects hw).2.2.2.2 σ).1 ((aggregated_solves h σ).1 hs).1
  refine ⟨fun e he => ⟨fun t ht => ?_, ?_⟩, fun e he => ⟨?_, ?_⟩⟩
  · have := (rows.effect e he).opStep t ht
    rw [agg_direct h hnd hkeys (by simp), AggOut.calls, d1 σ _ t ht] at this
    exact this
  · have := (rows.effect e he).inv
    rw [agg_direct h hnd hkeys (by simp), AggOut.calls, d2 σ] at this
    exact this
  · have r := rows.effect e he
    have hsum : σ (opSumL e.label) 0 = ∑ t ∈ Finset.range sys.n, σ (opTSL e.label) t := r.opTotal
    have hall := r.all
    rw [hsum] at hall
    refine ⟨?_, ?_, r.invBounds.totalMin, r.invBounds.totalMax, ?_, ?_, r.opBounds.stepMin _ rfl, r.opBounds.stepMax _ rfl⟩
    · intro m hm; have := r.opBounds.totalMin m hm; rw [hsum] at this; exact this
    · intro m hm; have := r.opBounds.totalMax m hm; rw [hsum] at this; exact this
    · intro m hm; have := r.allBounds.totalMin m hm; rw [hall] at this; exact this
    · intro m hm; have := r.allBounds.totalMax m hm; rw [hall] at this; exact this
  · have r := rows.effect e he
    have hsum : σ (opSumL e.label) 0 = ∑ t ∈ Finset.range sys.n, σ (opTSL e.label) t := r.opTotal
    have hall := r.all
    rw [hsum] at hall
    exact hall

/-- What the deviations of a solution cost: the penalty for every deviation of every tied binary variable. -/
def deviationCost (p : AggParams) (cl : ClusterData) (xs : List Var) (σ : Assignment) : ℚ :=
  if 0 < p.percentage then p.penalty * (xs.map fun x => ((cl.deviations σ x.label).card : ℚ)).sum else 0

theorem deviationCost_congr {xs : List Var} {σ τ : Assignment} (h : ∀ x ∈ xs, σ x.label = τ x.label) : deviationCost p cl xs σ = deviationCost p cl xs τ := by
  unfold deviationCost
  have : (xs.map fun x => ((cl.deviations σ x.label).card : ℚ)) = xs.map fun x => ((cl.deviations τ x.label).card : ℚ) :=
    List.map_congr_left fun x hx => by unfold ClusterData.deviations; rw [h x hx]
  rw [this]

theorem aggregates_physical (h : aggregatedModel sys s p cl sel = .ok o) (h' : systemModel sys s = .ok o') {x : Var} (hx : o.Aggregates s p sel x) : o'.Physical x := by
  obtain ⟨i, c, co, m, _, hco, _, _, hm, hxm, _⟩ := hx
  rw [(agg_same h h').1] at hco
  exact .inl ⟨co, List.mem_of_getElem? hco, m, hm, hxm⟩

theorem penalties_congr (hv : sys.Valid) (hf : s.Fits sys.n) (h' : systemModel sys s = .ok o') {σ τ : Assignment} (hst : ∀ x, o'.Physical x → σ x.label = τ x.label) :
    (s.buses.map fun b => b.penaltyCost sys σ).sum = (s.buses.map fun b => b.penaltyCost sys τ).sum := by
  obtain ⟨_, _, _, d⟩ := system_calls hv hf h'
  rw [← d σ, ← d τ]
  congr 1
  refine List.map_congr_left fun c hc => share_value_congr (fun x hx => hst x ?_) 0
  exact (physical_refs h').2.2 c (List.mem_filter.1 hc).1 x hx

/-- The constraints of the aggregation talk about aggregated variables and corrections. -/
theorem agg_refs (h : aggregatedModel sys s p cl sel = .ok o) (hnd : (s.comps.map Comp.label).Nodup) :
    o.agg.tree.Vars (fun x => o.Aggregates s p sel x ∨ x ∈ o.agg.tree.vars) ∧ o.agg.tree.Refs (fun x => o.Aggregates s p sel x ∨ x ∈ o.agg.tree.vars) := by
  obtain ⟨idx, xs, outs, h1, h2, h3, h4, _⟩ := agg_inv h hnd
  rw [h4, vars_node, refs_node]
  simp only [MTree.vars]
  refine ⟨⟨fun x hx => .inr hx, by simp⟩, ?_, by simp⟩
  intro r hr
  obtain ⟨l, hl, hr⟩ := List.mem_flatten.1 hr
  obtain ⟨e, he, rfl⟩ := List.mem_map.1 hl
  obtain ⟨x, hx, hxe⟩ := forall₂_mem_right h2 he
  have hx := (h3 x).1 hx
  have hv : ∀ y ∈ e.vars, o.Aggregates s p sel y ∨ y ∈ (outs.map EquateOut.vars).flatten := fun y hy =>
    .inr (List.mem_flatten.2 ⟨_, List.mem_map_of_mem he, hy⟩)
  obtain ⟨_, ⟨_, _, e1, e2⟩ | ⟨_, e1, e2⟩⟩ := equate_inv hxe
  · rw [e2] at hr
    rw [e1] at hv
    have k1 := hv _ (List.mem_cons_self)
    have k0 := hv _ (List.mem_cons_of_mem _ List.mem_cons_self)
    simp only [List.mem_cons, List.not_mem_nil, or_false] at hr
    rcases hr with rfl | rfl | rfl
    · simp only [refs_mkEq, tieOps, List.cons_append, List.nil_append, List.forall_mem_cons, refs_sIdx, refs_sAll, List.not_mem_nil, false_imp_iff, implies_true, and_true]
      exact ⟨.inl hx, .inl hx, k1, k0⟩
    · simp only [refs_mkIneq, List.forall_mem_cons, refs_sAll, refs_const, List.not_mem_nil, false_imp_iff, implies_true, and_true]
      exact ⟨k0, k1⟩
    · simp only [refs_mkIneq, List.forall_mem_cons, refs_sSum, refs_const, List.not_mem_nil, false_imp_iff, implies_true, and_true]
      exact ⟨k1, k0⟩
  · rw [e2] at hr
    simp only [List.mem_cons, List.not_mem_nil, or_false] at hr
    subst hr
    simp only [refs_mkEq, tieOps, List.forall_mem_cons, refs_sIdx, List.not_mem_nil, false_imp_iff, implies_true, and_true]
    exact ⟨.inl hx, .inl hx⟩

/-- The values repeat as far as the aggregation demands: variables without corrections are equal at the same position of all periods of
a cluster, the others deviate from the first of these periods at most as often as allowed.  (The first position of the periods is left out,
see `C49_first_wrong`.) -/
def AggOut.Repeats (o : AggOut) (s : System) (p : AggParams) (cl : ClusterData) (sel : List String) (τ : Assignment) : Prop :=
  ∀ x, o.Aggregates s p sel x →
    (p.percentage ≤ 0 ∨ x.isBinary = false → ∀ a b, cl.SamePlace a b → τ x.label a = τ x.label b) ∧
    (0 < p.percentage → x.isBinary = true → ((cl.deviations τ x.label).card : ℚ) ≤ pyRound (p.percentage / 100 * cl.copies.card))

theorem repeats_congr {τ : Assignment} (hst : ∀ x, o.Aggregates s p sel x → σ x.label = τ x.label) (hs : o.Repeats s p cl sel σ) : o.Repeats s p cl sel τ := by
  intro x hx
  obtain ⟨a, b⟩ := hs x hx
  rw [hst x hx] at a
  refine ⟨a, fun h1 h2 => ?_⟩
  have := b h1 h2
  unfold ClusterData.deviations at this ⊢
  rwa [hst x hx] at this

theorem agg_repeats (h : aggregatedModel sys s p cl sel = .ok o) (hnd : (s.comps.map Comp.label).Nodup) (hkeys : cl.keys.Nodup) (hs : o.solver.Solves σ) :
    o.Repeats s p cl sel σ := by
  intro x hx
  refine ⟨fun hc => ?_, fun hp hb => C50 h hnd hkeys hs hx hb hp⟩
  have := C49_partial h hnd hs hx hc
  rintro a b ⟨p, q, k, j, h1, h2, h3, h4, rfl, rfl, h5, h6⟩
  exact this p q k j h1 h2 h4 h3 h5 h6

/-- Corrections for values that repeat as demanded. -/
theorem agg_corrections (h : aggregatedModel sys s p cl sel = .ok o) (hnd : (s.comps.map Comp.label).Nodup) (hkeys : cl.keys.Nodup) (htot : cl.total ≤ sys.n)
    (hc : ∀ c ∈ o.comps, c.tree.Solves σ) (hr : o.Repeats s p cl sel σ) :
    ∃ σ' : Assignment, (∀ l, (∀ v ∈ o.agg.tree.vars, v.label ≠ l) → σ' l = σ l) ∧ o.agg.tree.Solves σ' := by
  by_cases hp : 0 < p.percentage
  · refine C50_complete h hnd hkeys hp htot ?_ (fun x hx hb => (hr x hx).2 hp hb) fun x hx hb => (hr x hx).1 (.inr hb)
    intro x hx hb t ht
    have hw := htot.trans (agg_wide h hx)
    obtain ⟨i, c, co, m, _, hco, _, _, hm, hxm, _⟩ := hx
    have hmem := List.mem_of_getElem? hco
    obtain ⟨c', _, hm'⟩ := forall₂_mem_right (aggregated_inv h).1 hmem
    have hn := (within_nodes m _).2 hm
    exact binary_values (((solves_iff_nodes σ _).1 (hc co hmem) m hn).1 x hxm) hb ((model_wide hm' m hn x hxm).2 hb) t (by omega)
  · exact ⟨σ, fun _ _ => rfl, (agg_ties_iff h hnd (not_lt.1 hp) htot).2 fun x hx => (hr x hx).1 (.inl (not_lt.1 hp))⟩

/-- **C92.**  An aggregated calculation has exactly the solutions of the full calculation of the same data that repeat as demanded; each costs what it costs in the full
calculation plus the penalty for its deviations.  (`τ` gives the values of all variables of components and buses, `v` the value of the objective.) -/
theorem C92 (hv : sys.Valid) (hn : sys.n ≠ 0) (hf : s.Fits sys.n) (h : aggregatedModel sys s p cl sel = .ok o) (h' : systemModel sys s = .ok o')
    (hnd : (s.comps.map Comp.label).Nodup) (hkeys : cl.keys.Nodup) (htot : cl.total ≤ sys.n) :
    ∃ terms terms', ∃ xs : List Var, objectiveTerms o.solver.objective = .ok terms ∧ objectiveTerms o'.solver.objective = .ok terms' ∧ xs.Nodup ∧
      (∀ x, x ∈ xs ↔ o.Aggregates s p sel x ∧ x.isBinary = true) ∧ ∀ (τ : Assignment) (v : ℚ),
      (∃ σ, o.solver.Solves σ ∧ (∀ x, o'.Physical x → σ x.label = τ x.label) ∧ termsVal σ terms = v) ↔
      (∃ σ, o'.solver.Solves σ ∧ (∀ x, o'.Physical x → σ x.label = τ x.label) ∧ termsVal σ terms' + deviationCost p cl xs τ = v) ∧ o.Repeats s p cl sel τ := by
  obtain ⟨terms, e, xs, ht, he, hx1, hx2, hval⟩ := C66_objective hv hn hf h hnd hkeys
  obtain ⟨terms', e', ht', he', hval'⟩ := solution_cost hv hn hf h'
  have hee : e' = e := by rw [he] at he'; exact (Option.some.inj he').symm
  subst hee
  have hem : e' ∈ s.effects := List.mem_of_find?_eq_some he
  have hxs : ∀ x ∈ xs, o'.Physical x := fun x hx => aggregates_physical h h' ((hx2 x).1 hx).1
  obtain ⟨ec, eb⟩ := agg_same h h'
  have value : ∀ σ, o.solver.Solves σ → termsVal σ terms = (∑ t ∈ Finset.range sys.n, σ (opTSL e'.label) t + σ (invSumL e'.label) 0 + (s.buses.map fun b => b.penaltyCost sys σ).sum) + deviationCost p cl xs σ := by
    intro σ hs
    rw [hval σ hs, ((agg_totals hv hn hf h hnd hkeys hs).2 e' hem).2]
    unfold deviationCost
    ring
  refine ⟨terms, terms', xs, ht, ht', hx1, hx2, fun τ v => ⟨?_, ?_⟩⟩
  · rintro ⟨σ, hs, hag, hvv⟩
    obtain ⟨hb, ha⟩ := agg_totals hv hn hf h hnd hkeys hs
    obtain ⟨_, s2, s3, _⟩ := (aggregated_solves h σ).1 hs
    rw [ec] at s2
    rw [eb] at s3
    obtain ⟨σ', c1, c2, c3⟩ := solution_complete hv hn hf h' s2 ((buses_iff hv hf h' σ).1 s3) hb fun e he => (ha e he).1
    have hag' : ∀ x, o'.Physical x → σ' x.label = σ x.label := fun x hx => c2 _ (physical_label h' hx)
    refine ⟨⟨σ', c1, fun x hx => (hag' x hx).trans (hag x hx), ?_⟩, repeats_congr (fun x hx => hag x (aggregates_physical h h' hx)) (agg_repeats h hnd hkeys hs)⟩
    rw [← hvv, value σ hs, hval' σ' c1, deviationCost_congr (fun x hx => (hag x (hxs x hx)).symm), ← penalties_congr hv hf h' hag']
    unfold System.cost
    change ∑ t ∈ Finset.range sys.n, σ' (opTSL e'.label) t + σ' (invSumL e'.label) 0 + _ + _ = _
    rw [(c3 e' hem).1, (c3 e' hem).2]
  · rintro ⟨⟨σ, hs, hag, hvv⟩, hr⟩
    have hr := repeats_congr (fun x hx => (hag x (aggregates_physical h h' hx)).symm) hr
    obtain ⟨s1, s2, s3⟩ := (system_solves h' σ).1 hs
    obtain ⟨σ₁, k1, k2⟩ := agg_corrections h hnd hkeys htot (by rw [ec]; exact s2) hr
    have hl := agg_labels h
    rw [List.nodup_append, List.nodup_append] at hl
    obtain ⟨n1, ⟨_, _, n2⟩, n3⟩ := hl
    have hmem : ∀ x, o'.Physical x → x.label ∈ (o.comps.map CompOut.tree ++ o.buses.map (·.tree)).flatMap MTree.labels := by
      intro x hx
      rw [List.mem_flatMap]
      rcases hx with ⟨c, hcm, hx⟩ | ⟨b, hbm, hx⟩
      · exact ⟨_, List.mem_append_left _ (List.mem_map_of_mem (by rw [ec]; exact hcm)), hasVar_labels hx⟩
      · exact ⟨_, List.mem_append_right _ (List.mem_map_of_mem (by rw [eb]; exact hbm)), hasVar_labels hx⟩
    have hvl : ∀ v ∈ o.agg.tree.vars, v.label ∈ o.agg.tree.labels := fun v hv => hasVar_labels ⟨_, .refl _, hv⟩
    have hphys : ∀ x, o'.Physical x → σ₁ x.label = σ x.label := fun x hx => k1 _ fun v hv e => n2 _ (hmem x hx) _ (hvl v hv) e.symm
    obtain ⟨hb, ha⟩ := solution_totals hv hn hf h' hs
    obtain ⟨_, _, _, h4, _⟩ := aggregated_inv h
    obtain ⟨hw, _⟩ := aggregated_calls hv hf h hnd hkeys
    obtain ⟨_, d1, d2, _⟩ := system_calls hv hf h'
    obtain ⟨r1, r2, r3⟩ := physical_refs h'
    have hdir : ∀ tg, tg ≠ Target.penalty → ∀ l t, direct σ₁ s.effects (o.calls ++ o.agg.shares) tg l t = direct σ s.effects o'.calls tg l t := by
      intro tg htg l t
      rw [agg_direct h hnd hkeys htg, agg_calls_same h h', direct_congr h' hphys]
    have hb' : (⟨fun l t => σ (opTSL l) t, fun l => σ (invSumL l) 0⟩ : Totals).Balanced s.effects sys.n
        (fun l t => direct σ₁ s.effects (o.calls ++ o.agg.shares) .operation l t) (fun l => direct σ₁ s.effects (o.calls ++ o.agg.shares) .invest l 0) := by
      intro e he
      obtain ⟨b1, b2⟩ := hb e he
      refine ⟨fun t ht => ?_, ?_⟩
      · simp only [hdir .operation (by simp), d1 σ _ t ht]; exact b1 t ht
      · simp only [hdir .invest (by simp), d2 σ]; exact b2
    have hout : ∀ x, o'.Physical x ∨ x ∈ o.agg.tree.vars → x.label ∉ o.coll.tree.labels := by
      rintro x (hx | hx) hc
      · exact n3 _ hc _ (List.mem_append_left _ (hmem x hx)) rfl
      · exact n3 _ hc _ (List.mem_append_right _ (hvl x hx)) rfl
    obtain ⟨σ₂, c1, c2, c3⟩ := coll_extend hv hn h4 hf.effects hw n1 (σ := σ₁) (by
      intro c hc x hx
      rcases List.mem_append.1 hc with hc | hc
      · rw [agg_calls_same h h'] at hc
        exact hout x (.inl (r3 c hc x hx))
      · obtain ⟨idx, xs, outs, h1, h2, h3, h4, h5⟩ := agg_inv h hnd
        refine hout x (.inr ?_)
        rw [h5] at hc
        rw [h4]
        unfold aggPenalties at hc
        split at hc
        · obtain ⟨y, hy, rfl⟩ := List.mem_map.1 hc
          simp only [Option.some.injEq] at hx
          subst hx
          exact hy
        · simp at hc) hb' ha
    have hag₂ : ∀ x, o'.Physical x → σ x.label = σ₂ x.label := fun x hx => (hphys x hx).symm.trans (c2 _ (hout x (.inl hx))).symm
    have hsol : o.solver.Solves σ₂ := by
      refine (aggregated_solves h σ₂).2 ⟨c1, ?_, ?_, ?_⟩
      · rw [ec]; exact fun c hcm => solves_congr (r1 c hcm).1 (r1 c hcm).2 hag₂ (s2 c hcm)
      · rw [eb]; exact fun b hbm => solves_congr (r2 b hbm).1 (r2 b hbm).2 hag₂ (s3 b hbm)
      · refine solves_congr (agg_refs h hnd).1 (agg_refs h hnd).2 (fun x hx => ?_) k2
        rcases hx with hx | hx
        · exact (c2 _ (hout x (.inl (aggregates_physical h h' hx)))).symm
        · exact (c2 _ (hout x (.inr hx))).symm
    refine ⟨σ₂, hsol, fun x hx => (hag₂ x hx).symm.trans (hag x hx), ?_⟩
    rw [← hvv, value σ₂ hsol, hval' σ hs, deviationCost_congr (τ := τ) (fun x hx => (hag₂ x (hxs x hx)).symm.trans (hag x (hxs x hx))), ← penalties_congr hv hf h' hag₂]
    unfold System.cost
    change _ = ∑ t ∈ Finset.range sys.n, σ (opTSL e'.label) t + σ (invSumL e'.label) 0 + _ + _
    rw [(c3 e' hem).1, (c3 e' hem).2]

/-- **C92 (bound).**  If deviations are not rewarded, to every solution of the aggregated calculation there is one of the full calculation with the same operation
that is not more expensive: aggregating never finds anything the full calculation misses. -/
theorem C92_bound (hv : sys.Valid) (hn : sys.n ≠ 0) (hf : s.Fits sys.n) (h : aggregatedModel sys s p cl sel = .ok o) (h' : systemModel sys s = .ok o')
    (hnd : (s.comps.map Comp.label).Nodup) (hkeys : cl.keys.Nodup) (htot : cl.total ≤ sys.n) (hpen : 0 ≤ p.penalty) :
    ∃ terms terms', objectiveTerms o.solver.objective = .ok terms ∧ objectiveTerms o'.solver.objective = .ok terms' ∧ ∀ σ, o.solver.Solves σ →
      ∃ τ, o'.solver.Solves τ ∧ (∀ x, o'.Physical x → τ x.label = σ x.label) ∧ termsVal τ terms' ≤ termsVal σ terms := by
  obtain ⟨terms, terms', xs, ht, ht', _, _, hiff⟩ := C92 hv hn hf h h' hnd hkeys htot
  refine ⟨terms, terms', ht, ht', fun σ hs => ?_⟩
  obtain ⟨⟨τ, a, b, c⟩, _⟩ := (hiff σ (termsVal σ terms)).1 ⟨σ, hs, fun _ _ => rfl, rfl⟩
  refine ⟨τ, a, b, ?_⟩
  have : 0 ≤ deviationCost p cl xs σ := by
    unfold deviationCost
    split
    · refine mul_nonneg hpen (List.sum_nonneg ?_)
      intro q hq
      obtain ⟨x, _, rfl⟩ := List.mem_map.1 hq
      positivity
    · exact le_refl _
  linarith

/-- Values that are equal wherever they are aggregated. -/
theorem deviations_none {x : String} (h : ∀ a b, cl.SamePlace a b → σ x a = σ x b) : cl.deviations σ x = ∅ := by
  rw [ClusterData.deviations, Finset.filter_eq_empty_iff]
  rintro b hb ⟨a, ha, hne⟩
  simp only [ClusterData.copies, Finset.mem_filter, Finset.mem_range] at hb
  exact hne ((rep_iff_samePlace (c := cl) (σ x)).2 h b hb.1 a ha)

theorem pyRound_nonneg {q : ℚ} (h : 0 ≤ q) : 0 ≤ pyRound q := by
  have h0 : 0 ≤ q.floor := Rat.le_floor_iff.2 (by exact_mod_cast h)
  unfold pyRound
  split
  · exact h0
  · split
    · omega
    · split <;> omega

/-- **C92 (exact).**  If a cheapest solution of the full calculation is the same at the same position of all periods of a cluster, it is a cheapest solution of the
aggregated calculation too, at the same cost. -/
theorem C92_exact (hv : sys.Valid) (hn : sys.n ≠ 0) (hf : s.Fits sys.n) (h : aggregatedModel sys s p cl sel = .ok o) (h' : systemModel sys s = .ok o')
    (hnd : (s.comps.map Comp.label).Nodup) (hkeys : cl.keys.Nodup) (htot : cl.total ≤ sys.n) (hpen : 0 ≤ p.penalty) :
    ∃ terms terms', objectiveTerms o.solver.objective = .ok terms ∧ objectiveTerms o'.solver.objective = .ok terms' ∧ ∀ τ, o'.solver.Solves τ →
      (∀ x, o.Aggregates s p sel x → ∀ a b, cl.SamePlace a b → τ x.label a = τ x.label b) →
      (∀ τ', o'.solver.Solves τ' → termsVal τ terms' ≤ termsVal τ' terms') →
      ∃ σ, o.solver.Solves σ ∧ (∀ x, o'.Physical x → σ x.label = τ x.label) ∧ termsVal σ terms = termsVal τ terms' ∧
        ∀ σ', o.solver.Solves σ' → termsVal σ terms ≤ termsVal σ' terms := by
  obtain ⟨terms, terms', xs, ht, ht', _, hxs, hiff⟩ := C92 hv hn hf h h' hnd hkeys htot
  obtain ⟨u, u', hu, hu', hbound⟩ := C92_bound hv hn hf h h' hnd hkeys htot hpen
  rw [ht] at hu
  rw [ht'] at hu'
  cases hu
  cases hu'
  refine ⟨terms, terms', ht, ht', fun τ hs heq hopt => ?_⟩
  have hdev : ∀ x, o.Aggregates s p sel x → cl.deviations τ x.label = ∅ := fun x hx => deviations_none (heq x hx)
  have hzero : deviationCost p cl xs τ = 0 := by
    unfold deviationCost
    split
    · rw [List.map_congr_left (g := fun _ => (0 : ℚ)) fun x hx => by rw [hdev x ((hxs x).1 hx).1]; simp]
      simp
    · rfl
  obtain ⟨σ, a, b, c⟩ := (hiff τ (termsVal τ terms')).2 ⟨⟨τ, hs, fun _ _ => rfl, by rw [hzero, add_zero]⟩, fun x hx => ⟨fun _ => heq x hx, fun hp _ => by
    rw [hdev x hx]
    simp only [Finset.card_empty, Nat.cast_zero]
    exact_mod_cast pyRound_nonneg (by positivity)⟩⟩
  refine ⟨σ, a, b, c, fun σ' hs' => ?_⟩
  obtain ⟨τ', t1, _, t2⟩ := hbound σ' hs'
  rw [c]
  exact (hopt τ' t1).trans t2

/-! ## An example -/

/-- The full calculation of the example can be modelled; the hypotheses of `C92` are met, and its conclusion is not empty: the operation with two deviations of `on` and one of
`switchOn` is a solution of the full calculation too. -/
example : ∃ o o', aggregatedModel exAggSys exAggSystem exFree exCluster [] = .ok o ∧ systemModel exAggSys exAggSystem = .ok o' ∧ exAggSys.Valid ∧ exAggSys.n ≠ 0 ∧
    exAggSystem.Fits exAggSys.n ∧ (exAggSystem.comps.map Comp.label).Nodup ∧ exCluster.keys.Nodup ∧ exCluster.total ≤ exAggSys.n ∧ 0 ≤ exFree.penalty ∧
    o.solver.Solves exFreeSol ∧ ∃ terms terms' τ, objectiveTerms o.solver.objective = .ok terms ∧ objectiveTerms o'.solver.objective = .ok terms' ∧ o'.solver.Solves τ ∧
      (∀ x, o'.Physical x → τ x.label = exFreeSol x.label) ∧ termsVal τ terms' ≤ termsVal exFreeSol terms := by
  obtain ⟨o, h, hs⟩ := exFree_ok
  obtain ⟨o', h'⟩ : ∃ o', systemModel exAggSys exAggSystem = .ok o' := builds (by decide +kernel)
  obtain ⟨terms, terms', ht, ht', hb⟩ := C92_bound exAggSys_valid (by decide) exAgg_fits h h' exAgg_nodup (by decide) (by decide) (by norm_num [exFree])
  obtain ⟨τ, t1, t2, t3⟩ := hb _ hs
  exact ⟨o, o', h, h', exAggSys_valid, by decide, exAgg_fits, exAgg_nodup, by decide, by decide, by norm_num [exFree], hs, terms, terms', τ, ht, ht', t1, t2, t3⟩

end Flix
