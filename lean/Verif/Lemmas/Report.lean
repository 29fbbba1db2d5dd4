import Verif.Spec.Report
import Verif.Lemmas.Combine
import Verif.Lemmas.Registry
import Verif.Lemmas.Frame

/-!
# Nested results: where a variable is found
-/

namespace Flix

theorem lookup_of_mem' {α : Type} {kvs : List (String × α)} (h : (kvs.map (·.1)).Nodup) {k : String} {v : α} (hm : (k, v) ∈ kvs) :
    kvs.lookup k = some v := by
  induction kvs with
  | nil => cases hm
  | cons q qs ih =>
    obtain ⟨k', v'⟩ := q
    rw [List.map_cons, List.nodup_cons] at h
    rcases List.mem_cons.1 hm with e | hm
    · cases e
      simp [List.lookup]
    · have hne : k ≠ k' := fun e => h.1 (e ▸ List.mem_map.2 ⟨_, hm, rfl⟩)
      rw [List.lookup_cons]
      simp only [beq_eq_false_iff_ne.2 hne]
      exact ih h.2 hm

theorem pyUpdate_nil_new {α : Type} {xs : List (String × α)} (h : (xs.map (·.1)).Nodup) : pyUpdate [] xs = xs := by
  rw [pyUpdate_new (by simpa using h), List.nil_append]

theorem shortLabel_of {k f s : String} {x : Var} (h : x.label = f ++ "_" ++ s) : shortLabel k f x = s := by
  have hne : x.label ≠ f := by
    intro e
    have := congrArg (fun l : String => l.toList.length) (h.symm.trans e)
    simp at this
  unfold shortLabel
  rw [if_neg hne, h]
  apply String.toList_injective
  simp

theorem shortLabel_self {k f : String} {x : Var} (h : x.label = f) : shortLabel k f x = k := by
  unfold shortLabel
  rw [if_pos h]

/-- Where a variable of a model is found in the results. -/
inductive NTree.HasAt : NTree → List String → Var → Prop
  | own {k f : String} {kd : ModelKind} {vs : List Var} {cs : List ConReq} {ss : List NTree} {x : Var} (h : x ∈ vs) :
      NTree.HasAt (.node k f kd vs cs ss) [shortLabel k f x] x
  | sub {k f : String} {vs : List Var} {cs : List ConReq} {ss : List NTree} {x : Var} {u : NTree} {p : List String}
      (h : u ∈ ss) (hu : NTree.HasAt u p x) : NTree.HasAt (.node k f .plain vs cs ss) (u.key :: p) x
  | share {k f : String} {vs : List Var} {cs : List ConReq} {ss : List NTree} {x : Var} {k' f' : String} {kd : ModelKind}
      {vs' : List Var} {cs' : List ConReq} {ss' : List NTree}
      (h : NTree.node k' f' kd vs' cs' ss' ∈ ss) (hx : x ∈ vs') :
      NTree.HasAt (.node k f .allocation vs cs ss) ["Shares", shortLabel k' f' x] x

/-- The short labels of a model's variables. -/
def NTree.shorts : NTree → List String
  | .node k f _ vs _ _ => vs.map (shortLabel k f)

/-- No two entries of one dictionary have the same key. -/
inductive NTree.Clean : NTree → Prop
  | plain {k f : String} {vs : List Var} {cs : List ConReq} {ss : List NTree}
      (h : (vs.map (shortLabel k f) ++ ss.map NTree.key).Nodup) (hs : ∀ u ∈ ss, NTree.Clean u) : NTree.Clean (.node k f .plain vs cs ss)
  | allocation {k f : String} {vs : List Var} {cs : List ConReq} {ss : List NTree}
      (h : (vs.map (shortLabel k f) ++ ["Shares"]).Nodup) (hs : (ss.flatMap NTree.shorts).Nodup) :
      NTree.Clean (.node k f .allocation vs cs ss)

theorem subResults_eq (σ : Assignment) (ss : List NTree) : NTree.subResults σ ss = ss.map fun t => (t.key, t.results σ) := by
  induction ss with
  | nil => rfl
  | cons t ts ih => simp [NTree.subResults, ih]

theorem subResults_keys (σ : Assignment) (ss : List NTree) : (NTree.subResults σ ss).map (·.1) = ss.map NTree.key := by
  rw [subResults_eq, List.map_map]
  rfl

theorem varEntry_keys (σ : Assignment) (k f : String) (vs : List Var) : (vs.map (varEntry σ k f)).map (·.1) = vs.map (shortLabel k f) := by
  rw [List.map_map]
  rfl

theorem ownEntries_keys (σ : Assignment) (t : NTree) : (t.ownEntries σ).map (·.1) = t.shorts := by
  cases t
  exact varEntry_keys _ _ _ _

theorem ownEntries_flat (σ : Assignment) (ss : List NTree) : (ss.flatMap (NTree.ownEntries σ)).map (·.1) = ss.flatMap NTree.shorts := by
  induction ss with
  | nil => rfl
  | cons t ts ih => simp [ownEntries_keys, ih]

/-- A variable is found at its place. -/
theorem results_get {t : NTree} {p : List String} {x : Var} (hp : t.HasAt p x) :
    t.Clean → ∀ σ : Assignment, (t.results σ).get p = some (seriesResult σ x.length x.label) := by
  induction hp with
  | @own k f kd vs cs ss x h =>
    intro hc σ
    have hm : (shortLabel k f x, seriesResult σ x.length x.label) ∈ vs.map (varEntry σ k f) := List.mem_map.2 ⟨x, h, rfl⟩
    cases hc with
    | plain h1 h2 =>
      have hn : ((vs.map (varEntry σ k f) ++ NTree.subResults σ ss).map (·.1)).Nodup := by
        rw [List.map_append, varEntry_keys, subResults_keys]; exact h1
      rw [NTree.results, RTree.get_dict, pyUpdate_nil_new hn, lookup_of_mem' hn (List.mem_append_left _ hm)]
      exact RTree.get_nil _
    | allocation h1 h2 =>
      have hn : ((vs.map (varEntry σ k f) ++ [("Shares", RTree.dict (pyUpdate [] (ss.flatMap (NTree.ownEntries σ))))]).map (·.1)).Nodup := by
        rw [List.map_append, varEntry_keys]; exact h1
      rw [NTree.results, RTree.get_dict, pyUpdate_nil_new hn, lookup_of_mem' hn (List.mem_append_left _ hm)]
      exact RTree.get_nil _
  | @sub k f vs cs ss x u p h hu ih =>
    intro hc σ
    cases hc with
    | plain h1 h2 =>
      have hn : ((vs.map (varEntry σ k f) ++ NTree.subResults σ ss).map (·.1)).Nodup := by
        rw [List.map_append, varEntry_keys, subResults_keys]; exact h1
      have hm : (u.key, u.results σ) ∈ NTree.subResults σ ss := by
        rw [subResults_eq]; exact List.mem_map.2 ⟨u, h, rfl⟩
      rw [NTree.results, RTree.get_dict, pyUpdate_nil_new hn, lookup_of_mem' hn (List.mem_append_right _ hm)]
      exact ih (h2 u h) σ
  | @share k f vs cs ss x k' f' kd vs' cs' ss' h hx =>
    intro hc σ
    cases hc with
    | allocation h1 h2 =>
      have hn : ((vs.map (varEntry σ k f) ++ [("Shares", RTree.dict (pyUpdate [] (ss.flatMap (NTree.ownEntries σ))))]).map (·.1)).Nodup := by
        rw [List.map_append, varEntry_keys]; exact h1
      have hn' : ((ss.flatMap (NTree.ownEntries σ)).map (·.1)).Nodup := by rw [ownEntries_flat]; exact h2
      have hm : (shortLabel k' f' x, seriesResult σ x.length x.label) ∈ ss.flatMap (NTree.ownEntries σ) :=
        List.mem_flatMap.2 ⟨_, h, List.mem_map.2 ⟨x, hx, rfl⟩⟩
      rw [NTree.results, RTree.get_dict, pyUpdate_nil_new hn, lookup_of_mem' hn (List.mem_append_right _ (List.mem_singleton.2 rfl))]
      simp only [Option.bind_some]
      rw [RTree.get_dict, pyUpdate_nil_new hn', lookup_of_mem' hn' hm]
      exact RTree.get_nil _

/-! ## Descriptions -/

/-- A model is reached from another by the labels of the models in between. -/
inductive NTree.NodeAt : NTree → List String → NTree → Prop
  | here (t : NTree) : NTree.NodeAt t [] t
  | sub {k f : String} {kd : ModelKind} {vs : List Var} {cs : List ConReq} {ss : List NTree} {u v : NTree} {p : List String}
      (h : u ∈ ss) (hu : NTree.NodeAt u p v) : NTree.NodeAt (.node k f kd vs cs ss) (u.key :: p) v

/-- No two entries of one description have the same key. -/
inductive NTree.DescClean : NTree → Prop
  | node {k f : String} {kd : ModelKind} {vs : List Var} {cs : List ConReq} {ss : List NTree}
      (h : ("_self" :: ss.map NTree.key).Nodup) (hs : ∀ u ∈ ss, NTree.DescClean u) : NTree.DescClean (.node k f kd vs cs ss)

theorem describeAll_eq {α : Type} (own : NTree → List α) (ss : List NTree) :
    NTree.describeAll own ss = ss.map fun t => (t.key, t.describe own) := by
  induction ss with
  | nil => rfl
  | cons t ts ih => simp [NTree.describeAll, ih]

theorem describeAll_keys {α : Type} (own : NTree → List α) (ss : List NTree) :
    (NTree.describeAll own ss).map (·.1) = ss.map NTree.key := by
  rw [describeAll_eq, List.map_map]
  rfl

/-- The own objects of every model are listed at its place. -/
theorem describe_get {α : Type} (own : NTree → List α) {t v : NTree} {p : List String} (hp : t.NodeAt p v) :
    t.DescClean → (t.describe own).get (p ++ ["_self"]) = some (.list (own v)) := by
  have key : ∀ {k f : String} {kd : ModelKind} {vs : List Var} {cs : List ConReq} {ss : List NTree},
      ("_self" :: ss.map NTree.key).Nodup →
      ((("_self", DTree.list (own (.node k f kd vs cs ss))) :: NTree.describeAll own ss).map (·.1)).Nodup := by
    intro k f kd vs cs ss h
    rw [List.map_cons, describeAll_keys]
    exact h
  induction hp with
  | here t =>
    intro hc
    cases hc with
    | node h hs =>
      rw [NTree.describe, List.nil_append, DTree.get, pyUpdate_nil_new (key h), lookup_of_mem' (key h) List.mem_cons_self]
      rfl
  | @sub k f kd vs cs ss u v p hu _ ih =>
    intro hc
    cases hc with
    | node h hs =>
      have hm : (u.key, u.describe own) ∈ NTree.describeAll own ss := by
        rw [describeAll_eq]; exact List.mem_map.2 ⟨u, hu, rfl⟩
      rw [NTree.describe, List.cons_append, DTree.get, pyUpdate_nil_new (key h), lookup_of_mem' (key h) (List.mem_cons_of_mem _ hm)]
      exact ih (hs u hu)

/-! ## The labels fit the models -/

/-- The label of the models described by a shape (structure.py:497-499). -/
def NShape.key : NShape → String
  | .model k _ _ => k
  | .segments _ => "MultipleSegments"
  | .allocation _ k => k

theorem annotate_key (s : NShape) (t : MTree) : (s.annotate t).key = s.key := by
  cases t
  cases s <;> simp [NShape.annotate, NTree.key, NShape.key]

/-- Every variable is found in the results of the labelled model, at a place of its own; so is every model in the descriptions. -/
structure Good (s : NShape) (t : MTree) : Prop where
  clean : (s.annotate t).Clean
  has : ∀ m ∈ t.nodes, ∀ x ∈ m.vars, ∃ p, (s.annotate t).HasAt p x
  desc : (s.annotate t).DescClean
  nodes : ∀ m ∈ t.nodes, ∃ p u, (s.annotate t).NodeAt p u ∧ u.vars = m.vars ∧ u.cons = m.cons

theorem annotateAll_keys {ss : List NShape} {ts : List MTree} (h : List.Forall₂ Good ss ts) :
    (NShape.annotateAll ss ts).map NTree.key = ss.map NShape.key := by
  induction h with
  | nil => rfl
  | cons _ _ ih => simp [NShape.annotateAll, annotate_key, ih]

theorem annotateAll_mem {ss : List NShape} {ts : List MTree} (h : List.Forall₂ Good ss ts) :
    (∀ u ∈ NShape.annotateAll ss ts, ∃ s t, Good s t ∧ u = s.annotate t) ∧
    ∀ t ∈ ts, ∃ s ∈ ss, Good s t ∧ s.annotate t ∈ NShape.annotateAll ss ts := by
  induction h with
  | nil => exact ⟨fun u hu => by simp [NShape.annotateAll] at hu, fun t ht => by cases ht⟩
  | @cons s t ss ts h _ ih =>
    refine ⟨fun u hu => ?_, fun t' ht => ?_⟩
    · rw [NShape.annotateAll, List.mem_cons] at hu
      rcases hu with rfl | hu
      · exact ⟨s, t, h, rfl⟩
      · exact ih.1 u hu
    · rcases List.mem_cons.1 ht with rfl | ht
      · exact ⟨s, List.mem_cons_self, h, by rw [NShape.annotateAll]; exact List.mem_cons_self⟩
      · obtain ⟨s', h1, h2, h3⟩ := ih.2 t' ht
        exact ⟨s', List.mem_cons_of_mem _ h1, h2, by rw [NShape.annotateAll]; exact List.mem_cons_of_mem _ h3⟩

theorem mem_nodesAll {m : MTree} {ts : List MTree} : m ∈ MTree.nodesAll ts ↔ ∃ t ∈ ts, m ∈ t.nodes := by
  induction ts with
  | nil => simp [MTree.nodesAll]
  | cons t ts ih => simp [MTree.nodesAll, ih]

theorem shorts_nodup {k f : String} {vs : List Var} (h : ∀ x ∈ vs, ∃ s, x.label = f ++ "_" ++ s) (hn : (vs.map (·.label)).Nodup) :
    (vs.map (shortLabel k f)).Nodup := by
  induction vs with
  | nil => exact List.nodup_nil
  | cons x xs ih =>
    rw [List.map_cons, List.nodup_cons] at hn ⊢
    refine ⟨fun hm => hn.1 ?_, ih (fun y hy => h y (List.mem_cons_of_mem _ hy)) hn.2⟩
    obtain ⟨y, hy, e⟩ := List.mem_map.1 hm
    obtain ⟨s, hs⟩ := h x List.mem_cons_self
    obtain ⟨s', hs'⟩ := h y (List.mem_cons_of_mem _ hy)
    rw [shortLabel_of hs, shortLabel_of hs'] at e
    exact List.mem_map.2 ⟨y, hy, by rw [hs, hs', e]⟩

/-- A model with its sub models. -/
theorem good_model {k f : String} {ss : List NShape} {vs : List Var} {cs : List ConReq} {ts : List MTree}
    (hv : ∀ x ∈ vs, ∃ s, x.label = f ++ "_" ++ s ∧ s ∉ ss.map NShape.key) (hn : (vs.map (·.label)).Nodup)
    (hk : ("_self" :: ss.map NShape.key).Nodup) (hs : List.Forall₂ Good ss ts) : Good (.model k f ss) (.node vs cs ts) := by
  constructor
  · rw [NShape.annotate]
    refine .plain ?_ ?_
    · rw [annotateAll_keys hs]
      refine List.nodup_append.2 ⟨shorts_nodup (fun x hx => ?_) hn, (List.nodup_cons.1 hk).2, ?_⟩
      · obtain ⟨s, h, _⟩ := hv x hx
        exact ⟨s, h⟩
      · rintro a ha b hb rfl
        obtain ⟨x, hx, e⟩ := List.mem_map.1 ha
        obtain ⟨s, h, h'⟩ := hv x hx
        rw [shortLabel_of h] at e
        exact h' (e ▸ hb)
    · intro u hu
      obtain ⟨s, t, hg, rfl⟩ := (annotateAll_mem hs).1 u hu
      exact hg.clean
  · intro m hm x hx
    rw [NShape.annotate]
    rw [MTree.nodes, List.mem_cons] at hm
    rcases hm with rfl | hm
    · exact ⟨_, .own hx⟩
    · obtain ⟨t, ht, hm⟩ := mem_nodesAll.1 hm
      obtain ⟨s, _, hg, hmem⟩ := (annotateAll_mem hs).2 t ht
      obtain ⟨p, hp⟩ := hg.has m hm x hx
      exact ⟨_, .sub hmem hp⟩
  · rw [NShape.annotate]
    refine .node ?_ ?_
    · rw [annotateAll_keys hs]
      exact hk
    · intro u hu
      obtain ⟨s, t, hg, rfl⟩ := (annotateAll_mem hs).1 u hu
      exact hg.desc
  · intro m hm
    rw [NShape.annotate]
    rw [MTree.nodes, List.mem_cons] at hm
    rcases hm with rfl | hm
    · exact ⟨_, _, .here _, rfl, rfl⟩
    · obtain ⟨t, ht, hm⟩ := mem_nodesAll.1 hm
      obtain ⟨s, _, hg, hmem⟩ := (annotateAll_mem hs).2 t ht
      obtain ⟨p, u, hp, h1, h2⟩ := hg.nodes m hm
      exact ⟨_, u, .sub hmem hp, h1, h2⟩

/-- A model without sub models. -/
theorem good_leaf {k f : String} {vs : List Var} {cs : List ConReq} (hv : ∀ x ∈ vs, ∃ s, x.label = f ++ "_" ++ s)
    (hn : (vs.map (·.label)).Nodup) : Good (.model k f []) (.node vs cs []) :=
  good_model (fun x hx => (hv x hx).imp fun s h => ⟨h, by simp⟩) hn (by simp) .nil

end Flix
