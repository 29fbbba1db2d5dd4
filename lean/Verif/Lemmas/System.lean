import Verif.Model.System
import Verif.Spec.System
import Verif.Lemmas.Flow

/-!
# Collecting the models of a system
-/

namespace Flix

theorem nodesAll_append (a b : List MTree) : MTree.nodesAll (a ++ b) = MTree.nodesAll a ++ MTree.nodesAll b := by
  induction a with
  | nil => simp [MTree.nodesAll]
  | cons t ts ih => simp [MTree.nodesAll, ih]

theorem countAll_append (a b : List MTree) : MTree.countAll (a ++ b) = MTree.countAll a + MTree.countAll b := by
  induction a with
  | nil => simp [MTree.countAll]
  | cons t ts ih => simp [MTree.countAll, ih, Nat.add_assoc]

/-- Breadth-first traversal visits exactly the nodes. -/
theorem bfs_perm (fuel : Nat) (l : List MTree) (h : MTree.countAll l ≤ fuel) : (bfs fuel l).Perm (MTree.nodesAll l) := by
  induction fuel generalizing l with
  | zero =>
    cases l with
    | nil => simp [bfs, MTree.nodesAll]
    | cons t ts =>
      obtain ⟨vs, cs, ss⟩ := t
      simp [MTree.countAll, MTree.count] at h
  | succ fuel ih =>
    cases l with
    | nil => simp [bfs, MTree.nodesAll]
    | cons t ts =>
      obtain ⟨vs, cs, ss⟩ := t
      simp only [bfs, MTree.nodesAll, MTree.nodes, List.cons_append]
      refine List.Perm.cons _ ?_
      refine (ih (ts ++ ss) ?_).trans ?_
      · rw [countAll_append]
        simp [MTree.countAll, MTree.count] at h
        omega
      · rw [nodesAll_append]
        exact List.perm_append_comm

theorem allSubModels_perm (t : MTree) : (t :: t.allSubModels).Perm t.nodes := by
  obtain ⟨vs, cs, ss⟩ := t
  simp only [MTree.nodes, MTree.allSubModels, MTree.subModels]
  exact List.Perm.cons _ (bfs_perm _ _ (by simp [MTree.count]))

theorem systemSubModels_perm (direct : List MTree) : (systemSubModels direct).Perm (MTree.nodesAll direct) := by
  induction direct with
  | nil => simp [systemSubModels, MTree.nodesAll]
  | cons t ts ih =>
    have h : (systemSubModels (t :: ts)).Perm ((t :: t.allSubModels) ++ systemSubModels ts) := by
      simp only [systemSubModels, List.map_cons, List.flatten_cons, List.cons_append]
      refine List.Perm.cons _ ?_
      rw [← List.append_assoc, ← List.append_assoc]
      exact List.Perm.append_right _ List.perm_append_comm
    exact h.trans ((allSubModels_perm t).append ih)

theorem collectOne_fold {α} (label : α → String) (xs acc : List α) (h : (acc.map label).Nodup) :
    xs.foldlM (collectOne label) acc = if ((acc ++ xs).map label).Nodup then .ok (acc ++ xs) else .error .key := by
  induction xs generalizing acc with
  | nil => simp [h]; rfl
  | cons x xs ih =>
    rw [List.foldlM_cons]
    unfold collectOne
    by_cases hx : label x ∈ acc.map label
    · rw [if_pos hx]
      rw [if_neg]
      · rfl
      · rw [List.map_append, List.map_cons]
        intro hn
        exact (List.nodup_append.1 hn).2.2 _ hx _ (by simp) rfl
    · rw [if_neg hx]
      show xs.foldlM (collectOne label) (acc ++ [x]) = _
      rw [ih]
      · simp
      · rw [List.map_append, List.nodup_append]
        refine ⟨h, by simp, ?_⟩
        intro a ha b hb
        simp at hb
        subst hb
        rintro rfl
        exact hx ha

theorem collect_eq {α} (label : α → String) (xs : List α) : collect label xs = if (xs.map label).Nodup then .ok xs else .error .key := by
  have := collectOne_fold label xs [] (by simp)
  simpa [collect] using this

theorem collect_ok {α} {label : α → String} {xs ys : List α} (h : collect label xs = .ok ys) : ys = xs ∧ (xs.map label).Nodup := by
  rw [collect_eq] at h
  split at h
  · cases h; exact ⟨rfl, by assumption⟩
  · cases h

theorem ownVars_eq (t : MTree) : t.ownVars = t.vars := by cases t; rfl
theorem ownCons_eq (t : MTree) : t.ownCons = t.cons := by cases t; rfl

mutual
  theorem solves_nodes (σ : Assignment) : ∀ t : MTree, t.Solves σ ↔ ∀ m ∈ t.nodes, (∀ x ∈ m.vars, x.Ok σ) ∧ ∀ r ∈ m.cons, r.Ok σ
    | .node vs cs ss => by
      rw [MTree.Solves, MTree.nodes, List.forall_mem_cons, solvesAll_nodes σ ss, and_assoc]
      rfl
  theorem solvesAll_nodes (σ : Assignment) : ∀ ts : List MTree, MTree.SolvesAll σ ts ↔ ∀ m ∈ MTree.nodesAll ts, (∀ x ∈ m.vars, x.Ok σ) ∧ ∀ r ∈ m.cons, r.Ok σ
    | [] => by simp [MTree.SolvesAll, MTree.nodesAll]
    | t :: ts => by rw [MTree.SolvesAll, MTree.nodesAll, List.forall_mem_append, solves_nodes σ t, solvesAll_nodes σ ts]
end

/-- What is handed to the solver, up to order. -/
theorem collectModel_perm {direct : List MTree} {obj : List Op} {m : SolverModel} (h : collectModel direct obj = .ok m) :
    m.vars.Perm (MTree.nodesAll direct |>.flatMap MTree.vars) ∧ m.cons.Perm (MTree.nodesAll direct |>.flatMap MTree.cons) ∧
      (m.vars.map Var.label).Nodup ∧ (m.cons.map ConReq.label).Nodup ∧ m.objective = obj := by
  unfold collectModel at h
  simp only at h
  peel h with vs, hvs
  peel h with cs, hcs
  cases h
  obtain ⟨rfl, n1⟩ := collect_ok hvs
  obtain ⟨rfl, n2⟩ := collect_ok hcs
  refine ⟨?_, ?_, n1, n2, rfl⟩
  · rw [show MTree.ownVars = MTree.vars from funext ownVars_eq, ← List.flatMap_def]
    exact (systemSubModels_perm direct).flatMap_right _
  · rw [show MTree.ownCons = MTree.cons from funext ownCons_eq, ← List.flatMap_def]
    exact (systemSubModels_perm direct).flatMap_right _

/-- A solution of what is handed to the solver is a solution of every element model, and conversely. -/
theorem collectModel_solves {direct : List MTree} {obj : List Op} {m : SolverModel} (h : collectModel direct obj = .ok m) (σ : Assignment) :
    m.Solves σ ↔ MTree.SolvesAll σ direct := by
  obtain ⟨p1, p2, _⟩ := collectModel_perm h
  rw [solvesAll_nodes]
  unfold SolverModel.Solves
  simp only [p1.mem_iff, p2.mem_iff, List.mem_flatMap]
  constructor
  · rintro ⟨h1, h2⟩ n hn
    exact ⟨fun x hx => h1 x ⟨n, hn, hx⟩, fun r hr => h2 r ⟨n, hn, hr⟩⟩
  · intro hh
    exact ⟨fun x ⟨n, hn, hx⟩ => (hh n hn).1 x hx, fun r ⟨n, hn, hr⟩ => (hh n hn).2 r hr⟩

mutual
  theorem within_nodes (m : MTree) : ∀ t : MTree, m ∈ t.nodes ↔ MTree.Within m t
    | .node vs cs ss => by
      rw [MTree.nodes, List.mem_cons, within_nodesAll m ss]
      constructor
      · rintro (rfl | ⟨s, hs, hw⟩)
        · exact .refl _
        · exact .sub hs hw
      · intro h
        cases h with
        | refl => exact Or.inl rfl
        | sub hs hw => exact Or.inr ⟨_, hs, hw⟩
  theorem within_nodesAll (m : MTree) : ∀ ts : List MTree, m ∈ MTree.nodesAll ts ↔ ∃ s ∈ ts, MTree.Within m s
    | [] => by simp [MTree.nodesAll]
    | t :: ts => by
      rw [MTree.nodesAll, List.mem_append, within_nodes m t, within_nodesAll m ts]
      simp
end

theorem collectModel_of_nodup {direct : List MTree} {obj : List Op} (h1 : (((MTree.nodesAll direct).flatMap MTree.vars).map Var.label).Nodup)
    (h2 : (((MTree.nodesAll direct).flatMap MTree.cons).map ConReq.label).Nodup) : ∃ m, collectModel direct obj = .ok m := by
  have hp := systemSubModels_perm direct
  have e1 : (systemSubModels direct).map MTree.ownVars = (systemSubModels direct).map MTree.vars := List.map_congr_left fun t _ => ownVars_eq t
  have e2 : (systemSubModels direct).map MTree.ownCons = (systemSubModels direct).map MTree.cons := List.map_congr_left fun t _ => ownCons_eq t
  have p1 : ((systemSubModels direct).map MTree.ownVars).flatten.Perm ((MTree.nodesAll direct).flatMap MTree.vars) := by
    rw [e1, List.flatMap]; exact (hp.map _).flatten
  have p2 : ((systemSubModels direct).map MTree.ownCons).flatten.Perm ((MTree.nodesAll direct).flatMap MTree.cons) := by
    rw [e2, List.flatMap]; exact (hp.map _).flatten
  unfold collectModel
  simp only [collect_eq, ((p1.map _).nodup_iff).2 h1, ((p2.map _).nodup_iff).2 h2, if_true]
  exact ⟨_, rfl⟩

end Flix
