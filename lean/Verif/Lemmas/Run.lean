import Verif.Spec.Run
import Verif.Lemmas.Lengths
import Verif.Lemmas.Collection
import Verif.Lemmas.Report
import Verif.Lemmas.ReportOnly
import Verif.Lemmas.SystemSem
import Verif.Props.Closed

/-!
# Lemmas about running a calculation
-/

namespace Flix

variable {sys : Sys}

/-! ## Binary variables are never fixed -/

theorem shareVar_real {el : String} {c : Share} {x : Var} (h : shareVar el c = .ok x) : x.isBinary = false := by
  rw [(shareVar_ok h).1]

theorem sam_real {d : SamData} {vs : SamVars} (h : samVars sys d = .ok vs) : vs.sum.isBinary = false ∧ ∀ x, vs.sumTS = some x → x.isBinary = false := by
  unfold samVars at h
  peel h with sum, h1
  peel h with ts, h2
  simp only [except_pure, Except.ok.injEq] at h
  subst h
  refine ⟨mkVar_real h1, ?_⟩
  rintro x rfl
  unfold samTS at h2
  split at h2
  · peel h2 with lb, h3
    peel h2 with ub, h4
    obtain ⟨y, hy, e⟩ := map_ok.1 h2
    cases e
    exact mkVar_real hy
  · cases h2

theorem samTree_real {d : SamData} {vs : SamVars} {calls : List Share} {t : MTree} (hv : vs.sum.isBinary = false ∧ ∀ x, vs.sumTS = some x → x.isBinary = false)
    (h : samTree d vs calls = .ok t) : t.Vars (fun x => x.isBinary = false) := by
  unfold samTree at h
  simp only at h
  peel h with shares, hs
  have hsub : ∀ q ∈ shares, q.2.2.Vars (fun x => x.isBinary = false) := by
    intro q hq
    obtain ⟨c, -, hc⟩ := forall₂_mem_right (mapM_ok.1 hs) hq
    peel hc with r, hr
    simp only [except_pure, Except.ok.injEq] at hc
    subst hc
    unfold singleShare at hr
    simp only at hr
    peel hr with s, h1
    simp only [except_pure, Except.ok.injEq] at hr
    subst hr
    rw [vars_node]
    exact ⟨by simp [shareVar_real h1], by simp⟩
  split at h
  · cases h
  · split at h
    · simp only [Except.ok.injEq] at h
      subst h
      rw [vars_node]
      exact ⟨by simp [hv.1], by simpa using fun t a b hb => hsub _ hb⟩
    · rename_i ts hts
      simp only [Except.ok.injEq] at h
      subst h
      rw [vars_node]
      exact ⟨by simp [hv.1, hv.2 ts hts], by simpa using fun t a b hb => hsub _ hb⟩

theorem coll_real {es : List EffectData} {calls : List ShareCall} {o : CollOut} (h : collectionModel sys es calls = .ok o) :
    o.tree.Vars (fun x => x.isBinary = false) := by
  obtain ⟨between, addressed, trees, pt, h1, h2, -, -, -, h6, h7, e⟩ := collection_inv h
  rw [e, vars_node]
  refine ⟨by simp, ?_⟩
  intro t ht
  rcases List.mem_append.1 ht with ht | ht
  · obtain ⟨ev, hev, hd⟩ := forall₂_mem_right h6 ht
    obtain ⟨ed, -, he⟩ := forall₂_mem_right h1 hev
    unfold effectVars at he
    peel he with i, hi
    peel he with o', ho
    peel he with a, ha
    simp only [except_pure, Except.ok.injEq] at he
    subst he
    unfold effectTree at hd
    peel hd with ti, h8
    peel hd with t0, h9
    peel hd with ta, h10
    simp only [except_pure, Except.ok.injEq] at hd
    subst hd
    rw [vars_node]
    refine ⟨by simp, ?_⟩
    simp only [List.forall_mem_cons, List.not_mem_nil, false_imp_iff, implies_true, and_true]
    exact ⟨samTree_real (sam_real hi) h8, samTree_real (sam_real ho) h9, samTree_real (sam_real ha) h10⟩
  · simp only [List.mem_singleton] at ht
    subst ht
    exact samTree_real (sam_real h2) h7

theorem bus_real {b : BusData} {ins outs : List Var} {ob : BusOut} (h : busModel sys b ins outs = .ok ob) : ob.tree.Vars (fun x => x.isBinary = false) := by
  unfold busModel at h
  simp only at h
  split at h
  · simp only [Except.ok.injEq] at h
    subst h
    rw [vars_node]
    simp
  · peel h with f, hf
    peel h with x, hx
    peel h with y, hy
    simp only [except_pure, Except.ok.injEq] at h
    subst h
    rw [vars_node]
    simp [mkVar_real hx, mkVar_real hy]

/-- The binary variables of a system are not fixed. -/
theorem system_binary {s : System} {o : SysOut} (h : systemModel sys s = .ok o) : ∀ x ∈ o.solver.vars, x.isBinary = true → x.fixedValue = none := by
  obtain ⟨h1, h2, h3, h4⟩ := system_inv h
  intro x hx hb
  obtain ⟨m, hm, hxm⟩ := List.mem_flatMap.1 ((collectModel_perm h4).1.mem_iff.1 hx)
  obtain ⟨t, ht, hmt⟩ := mem_nodesAll.1 hm
  simp only [List.cons_append, List.mem_cons, List.mem_append, List.mem_map] at ht
  rcases ht with rfl | ⟨oc, hoc, rfl⟩ | ⟨ob, hob, rfl⟩
  · have := coll_real h3 m hmt x hxm
    rw [this] at hb
    cases hb
  · obtain ⟨c, -, hc⟩ := forall₂_mem_right h1 hoc
    exact (model_wide hc m hmt x hxm).2 hb
  · obtain ⟨b, -, hb'⟩ := forall₂_mem_right h2 hob
    have := bus_real hb' m hmt x hxm
    rw [this] at hb
    cases hb

theorem system_binary_values {s : System} {o : SysOut} (h : systemModel sys s = .ok o) {σ : Assignment} (hs : o.solver.Solves σ) :
    ∀ x ∈ o.solver.vars, x.isBinary = true → ∀ i < x.length, σ x.label i = 0 ∨ σ x.label i = 1 :=
  fun x hx hb => binary_values (hs.1 x hx) hb (system_binary h x hx hb)

/-! ## Reading the values back -/

theorem reported_id {b : Bool} {y : ℚ} (h : b = true → y = 0 ∨ y = 1) : reported b y = y := by
  unfold reported toInt8
  cases b with
  | false => simp
  | true =>
    rcases h rfl with rfl | rfl <;> decide +kernel

theorem heldSeries_ok {h : Held} {x : Var} {f : Nat → ℚ} (hh : ∀ i < x.length, h x.label i = some (f i)) :
    heldSeries h x = .ok ((List.range x.length).map fun i => reported x.isBinary (f i)) := by
  unfold heldSeries
  rw [mapM_ok]
  rw [List.forall₂_map_right_iff, List.forall₂_same]
  intro i hi
  rw [hh i (List.mem_range.1 hi)]

theorem varResult_shows {n : Nat} {f : Nat → ℚ} {t : RTree} : t.ShowsValues n f ↔ t = varResult ((List.range n).map f) := by
  unfold RTree.ShowsValues
  by_cases h : n = 1
  · subst h
    simp [varResult]
  · have e : varResult ((List.range n).map f) = .arr ((List.range n).map f) := by
      unfold varResult
      split
      · rename_i x hx
        have := congrArg List.length hx
        simp at this
        exact absurd this h
      · rfl
    rw [e]
    constructor
    · rintro ⟨-, h2⟩
      obtain ⟨xs, rfl, hl, hx⟩ := h2 h
      congr 1
      apply List.ext_getElem?
      intro i
      by_cases hi : i < n
      · rw [hx i hi]
        simp [hi]
      · rw [List.getElem?_eq_none (by omega), List.getElem?_eq_none (by simp; omega)]
    · rintro rfl
      refine ⟨fun e => absurd e h, fun _ => ⟨_, rfl, by simp, fun i hi => by simp [hi]⟩⟩

theorem resSet_same (r : VarResults) (l : String) (v : Option RTree) : (r.set l v) l = v := by simp [VarResults.set]
theorem resSet_other {r : VarResults} {l k : String} {v : Option RTree} (h : k ≠ l) : (r.set l v) k = r k := by simp [VarResults.set, h]

theorem reset_none (xs : List Var) (r : VarResults) : (∀ x ∈ xs, r.reset xs x.label = none) ∧ ∀ l, r l = none → r.reset xs l = none := by
  unfold VarResults.reset
  induction xs generalizing r with
  | nil => exact ⟨by simp, fun l h => h⟩
  | cons x xs ih =>
    obtain ⟨h1, h2⟩ := ih (r.set x.label none)
    refine ⟨?_, ?_⟩
    · intro y hy
      rcases List.mem_cons.1 hy with rfl | hy
      · exact h2 _ (resSet_same _ _ _)
      · exact h1 y hy
    · intro l hl
      refine h2 l ?_
      unfold VarResults.set
      split <;> simp [hl]

/-- Writing keeps what other labels have. -/
theorem write_other (h : Held) (xs : List Var) (r : VarResults) {l : String} (hl : ∀ x ∈ xs, x.label ≠ l) : (writeResults h xs r).1 l = r l := by
  induction xs generalizing r with
  | nil => rfl
  | cons x xs ih =>
    unfold writeResults
    split
    · rfl
    · rw [ih _ (fun y hy => hl y (List.mem_cons_of_mem _ hy))]
      exact resSet_other (fun e => hl x List.mem_cons_self e.symm)

theorem write_read {h : Held} {xs : List Var} (hn : (xs.map (·.label)).Nodup) (r : VarResults) {x : Var} (hx : x ∈ xs) :
    (writeResults h xs r).1 x.label = r x.label ∨ ∃ t, heldResult h x = .ok t ∧ (writeResults h xs r).1 x.label = some t := by
  induction xs generalizing r with
  | nil => cases hx
  | cons y ys ih =>
    simp only [List.map_cons, List.nodup_cons] at hn
    unfold writeResults
    split
    · exact .inl rfl
    · rename_i v hv
      rcases List.mem_cons.1 hx with rfl | hx
      · refine .inr ⟨v, hv, ?_⟩
        rw [write_other h ys (l := x.label) _ (fun z hz e => hn.1 (by rw [← e]; exact List.mem_map_of_mem (f := fun x : Var => x.label) hz))]
        exact resSet_same _ _ _
      · rcases ih hn.2 (r.set y.label (some v)) hx with e | e
        · rw [e]
          exact .inl (resSet_other (fun e' => hn.1 (by rw [← e']; exact List.mem_map_of_mem (f := fun x : Var => x.label) hx)))
        · exact .inr e

theorem write_all {h : Held} {xs : List Var} (hn : (xs.map (·.label)).Nodup) (r : VarResults) (he : (writeResults h xs r).2 = none) {x : Var} (hx : x ∈ xs) :
    ∃ t, heldResult h x = .ok t ∧ (writeResults h xs r).1 x.label = some t := by
  induction xs generalizing r with
  | nil => cases hx
  | cons y ys ih =>
    simp only [List.map_cons, List.nodup_cons] at hn
    unfold writeResults at he ⊢
    split at he
    · cases he
    · rename_i v hv
      rcases List.mem_cons.1 hx with rfl | hx
      · refine ⟨v, hv, ?_⟩
        rw [write_other h ys (l := x.label) _ (fun z hz e => hn.1 (by rw [← e]; exact List.mem_map_of_mem (f := fun x : Var => x.label) hz))]
        exact resSet_same _ _ _
      · exact ih hn.2 _ he hx

theorem write_none {h : Held} {xs : List Var} (r : VarResults) (hh : ∀ x ∈ xs, ∃ t, heldResult h x = .ok t) : (writeResults h xs r).2 = none := by
  induction xs generalizing r with
  | nil => rfl
  | cons y ys ih =>
    obtain ⟨t, ht⟩ := hh y List.mem_cons_self
    unfold writeResults
    rw [ht]
    exact ih _ (fun x hx => hh x (List.mem_cons_of_mem _ hx))

/-! ## The objective -/

theorem pyTerm_known {x : Var} {i : Nat} {f : ℚ} {t : ℚ × String × Nat} (h : pyTerm x i f = .ok t) : t.2.1 = x.label ∧ t.2.2 < x.length := by
  unfold pyTerm at h
  split at h
  · cases h; exact ⟨rfl, by assumption⟩
  · cases h

theorem expr_known {sm : Summand} {k : Nat} {ts : List (ℚ × String × Nat)} (h : sm.expr k = .ok ts) :
    ∀ t ∈ ts, t.2.1 = sm.var.label ∧ t.2.2 < sm.var.length := by
  intro t ht
  unfold Summand.expr at h
  split at h
  · obtain ⟨j, -, hj⟩ := forall₂_mem_right (mapM_ok.1 h) ht
    peel hj with i, hi
    peel hj with f, hf
    exact pyTerm_known hj
  · split at h
    · peel h with i, hi
      peel h with f, hf
      peel h with u, hu
      simp only [except_pure, Except.ok.injEq] at h
      subst h
      simp only [List.mem_singleton] at ht
      subst ht
      exact pyTerm_known hu
    · split at h
      · peel h with i, hi
        peel h with f, hf
        peel h with u, hu
        simp only [except_pure, Except.ok.injEq] at h
        subst h
        simp only [List.mem_singleton] at ht
        subst ht
        exact pyTerm_known hu
      · peel h with i, hi
        peel h with f, hf
        peel h with u, hu
        simp only [except_pure, Except.ok.injEq] at h
        subst h
        simp only [List.mem_singleton] at ht
        subst ht
        exact pyTerm_known hu

theorem objective_known {known : List Var} {ops : List Op} {ts : List (ℚ × String × Nat)} (h : objectiveTermsIn known ops = .ok ts) :
    ∀ t ∈ ts, ∃ x ∈ known, t.2.1 = x.label ∧ t.2.2 < x.length := by
  intro t ht
  unfold objectiveTermsIn at h
  peel h with c, hc
  split at h
  · cases h
  · peel h with tss, hts
    simp only [except_pure, Except.ok.injEq] at h
    subst h
    obtain ⟨us, hus, htu⟩ := List.mem_flatten.1 ht
    obtain ⟨sm, -, hsm⟩ := forall₂_mem_right (mapM_ok.1 hts) hus
    unfold Summand.exprIn at hsm
    split at hsm
    · rename_i hk
      exact ⟨sm.var, hk, expr_known hsm t htu⟩
    · cases hsm

theorem heldTerms_ok {h : Held} {σ : Assignment} {ts : List (ℚ × String × Nat)} (hh : ∀ t ∈ ts, h t.2.1 t.2.2 = some (σ t.2.1 t.2.2)) :
    heldTerms h ts = .ok (termsVal σ ts) := by
  induction ts with
  | nil => rfl
  | cons t ts ih =>
    unfold heldTerms
    rw [hh t List.mem_cons_self, ih (fun u hu => hh u (List.mem_cons_of_mem _ hu))]
    simp [Except.map, termsVal]

/-! ## The results at the moment -/

theorem entriesNow_eq {res : VarResults} {σ : Assignment} {k f : String} {kd : ModelKind} {vs : List Var} {cs : List ConReq} {ss : List NTree}
    (hr : ∀ x ∈ vs, res x.label = some (seriesResult σ x.length x.label)) :
    (NTree.node k f kd vs cs ss).entriesNow res = vs.map (varEntry σ k f) := by
  unfold NTree.entriesNow
  refine List.map_congr_left fun x hx => ?_
  rw [hr x hx]
  rfl

mutual
  theorem resultsNow_eq {res : VarResults} {σ : Assignment} : ∀ t : NTree,
      (∀ u ∈ t.nodes, ∀ x ∈ u.vars, res x.label = some (seriesResult σ x.length x.label)) → t.resultsNow res = t.results σ
    | .node k f .plain vs cs ss, ht => by
      rw [NTree.nodes] at ht
      have h0 : ∀ x ∈ vs, res x.label = some (seriesResult σ x.length x.label) := ht (.node k f .plain vs cs ss) List.mem_cons_self
      unfold NTree.resultsNow NTree.results
      rw [entriesNow_eq h0, subResultsNow_eq ss (fun u hu => ht u (List.mem_cons_of_mem _ hu))]
    | .node k f .allocation vs cs ss, ht => by
      rw [NTree.nodes] at ht
      have h0 : ∀ x ∈ vs, res x.label = some (seriesResult σ x.length x.label) := ht (.node k f .allocation vs cs ss) List.mem_cons_self
      have h1 : ss.flatMap (NTree.entriesNow res) = ss.flatMap (NTree.ownEntries σ) := by
        refine List.flatMap_congr fun t hts => ?_
        obtain ⟨k', f', kd', vs', cs', ss'⟩ := t
        refine entriesNow_eq (ht (.node k' f' kd' vs' cs' ss') (List.mem_cons_of_mem _ (NTree.mem_nodesAll.2 ⟨_, hts, by simp [NTree.nodes]⟩)))
      unfold NTree.resultsNow NTree.results
      rw [entriesNow_eq h0, h1]
  theorem subResultsNow_eq {res : VarResults} {σ : Assignment} : ∀ ts : List NTree,
      (∀ u ∈ NTree.nodesAll ts, ∀ x ∈ u.vars, res x.label = some (seriesResult σ x.length x.label)) → NTree.subResultsNow res ts = NTree.subResults σ ts
    | [], _ => rfl
    | t :: ts, ht => by
      rw [NTree.nodesAll] at ht
      unfold NTree.subResultsNow NTree.subResults
      rw [resultsNow_eq t (fun u hu => ht u (List.mem_append_left _ hu)), subResultsNow_eq ts (fun u hu => ht u (List.mem_append_right _ hu))]
end

/-- The results at the moment are those of the solution the variables have. -/
theorem madeResults_eq {sys : Sys} {s : System} {o : SysOut} {q : Option PyomoModel} (h : systemModel sys s = .ok o) {res : VarResults} {σ : Assignment}
    (hr : ∀ x ∈ o.solver.vars, res x.label = some (seriesResult σ x.length x.label)) (y : ℚ) :
    (Made.mk sys s o q).resultsNow res (some y) = o.results sys s σ y := by
  obtain ⟨h1, h2, h3, h4⟩ := system_inv h
  have hin : ∀ {sh : NShape} {t : MTree}, t ∈ o.coll.tree :: o.comps.map CompOut.tree ++ o.buses.map (·.tree) →
      ∀ u ∈ (sh.annotate t).nodes, ∀ x ∈ u.vars, res x.label = some (seriesResult σ x.length x.label) := by
    intro sh t ht u hu x hx
    obtain ⟨m, hm, e, -⟩ := annotate_nodes sh t u hu
    rw [e] at hx
    exact hr x ((collectModel_perm h4).1.mem_iff.2 (List.mem_flatMap.2 ⟨m, mem_nodesAll.2 ⟨t, ht, hm⟩, hx⟩))
  have e1 : NTree.subResultsNow res (o.compModels sys.cfg s) = NTree.subResults σ (o.compModels sys.cfg s) := by
    refine subResultsNow_eq _ fun u hu => ?_
    obtain ⟨t, ht, hu⟩ := NTree.mem_nodesAll.1 hu
    obtain ⟨i, hi, rfl⟩ := List.mem_iff_getElem.1 ht
    simp only [SysOut.compModels, List.getElem_zipWith] at hu
    exact hin (List.mem_append_left _ (List.mem_cons_of_mem _ (List.mem_map_of_mem (List.getElem_mem _)))) u hu
  have e2 : NTree.subResultsNow res (o.busModels s) = NTree.subResults σ (o.busModels s) := by
    refine subResultsNow_eq _ fun u hu => ?_
    obtain ⟨t, ht, hu⟩ := NTree.mem_nodesAll.1 hu
    obtain ⟨i, hi, rfl⟩ := List.mem_iff_getElem.1 ht
    simp only [SysOut.busModels, List.getElem_zipWith] at hu
    exact hin (List.mem_append_right _ (List.mem_map_of_mem (f := fun b : BusOut => b.tree) (List.getElem_mem _))) u hu
  have e3 : (o.collModel s).resultsNow res = (o.collModel s).results σ := resultsNow_eq _ fun u hu => hin (by simp) u hu
  unfold Made.resultsNow SysOut.results
  dsimp only
  rw [e1, e2, e3]
  rfl

end Flix
