import Verif.Lemmas.ReportSys
import Verif.Lemmas.Registry

/-!
# Nested results: nothing but the variables; the places of flows, storages and effects
-/

namespace Flix

mutual
  /-- The model and all its sub models. -/
  def NTree.nodes : NTree → List NTree
    | .node k f kd vs cs ss => .node k f kd vs cs ss :: NTree.nodesAll ss
  def NTree.nodesAll : List NTree → List NTree
    | [] => []
    | t :: ts => t.nodes ++ NTree.nodesAll ts
end

theorem NTree.mem_nodesAll {m : NTree} {ts : List NTree} : m ∈ NTree.nodesAll ts ↔ ∃ t ∈ ts, m ∈ t.nodes := by
  induction ts with
  | nil => simp [NTree.nodesAll]
  | cons t ts ih => simp [NTree.nodesAll, ih]

theorem NTree.self_nodes (t : NTree) : t ∈ t.nodes := by
  cases t
  simp [NTree.nodes]

/-- No dictionary. -/
def RTree.Leaf (v : RTree) : Prop := v.dict? = none

theorem leaf_get {v r : RTree} {p : List String} (hv : v.Leaf) (h : v.get p = some r) : r = v := by
  cases p with
  | nil => rw [RTree.get_nil] at h; exact (Option.some.inj h).symm
  | cons k p =>
    obtain ⟨kvs, t', rfl, -⟩ := RTree.get_cons h
    simp [RTree.Leaf, RTree.dict?] at hv

theorem seriesResult_leaf (σ : Assignment) (n : Nat) (l : String) : (seriesResult σ n l).Leaf := by
  unfold seriesResult varResult RTree.Leaf
  split <;> rfl

mutual
  /-- Whatever is not a dictionary in the results of a model is the value of a variable. -/
  theorem results_only (σ : Assignment) : ∀ (t : NTree) {p : List String} {r : RTree}, (t.results σ).get p = some r → r.Leaf →
      ∃ u ∈ t.nodes, ∃ x ∈ u.vars, r = seriesResult σ x.length x.label
    | .node k f .plain vs cs ss, p, r, h, hr => by
      rw [NTree.results] at h
      cases p with
      | nil => rw [RTree.get_nil] at h; cases h; simp [RTree.Leaf, RTree.dict?] at hr
      | cons k' p =>
        rw [RTree.get_dict] at h
        cases hl : (pyUpdate [] (vs.map (varEntry σ k f) ++ NTree.subResults σ ss)).lookup k' with
        | none => rw [hl] at h; cases h
        | some v =>
          rw [hl] at h
          rcases mem_pyUpdate (lookup_mem hl) with hm | hm
          · cases hm
          · rcases List.mem_append.1 hm with hm | hm
            · obtain ⟨x, hx, e⟩ := List.mem_map.1 hm
              cases e
              exact ⟨_, NTree.self_nodes _, x, hx, leaf_get (seriesResult_leaf σ _ _) h⟩
            · obtain ⟨u, hu, x, hx, e⟩ := subResults_only σ ss hm h hr
              exact ⟨u, by rw [NTree.nodes]; exact List.mem_cons_of_mem _ hu, x, hx, e⟩
    | .node k f .allocation vs cs ss, p, r, h, hr => by
      rw [NTree.results] at h
      cases p with
      | nil => rw [RTree.get_nil] at h; cases h; simp [RTree.Leaf, RTree.dict?] at hr
      | cons k' p =>
        rw [RTree.get_dict] at h
        cases hl : (pyUpdate [] (vs.map (varEntry σ k f) ++ [("Shares", RTree.dict (pyUpdate [] (ss.flatMap (NTree.ownEntries σ))))])).lookup k' with
        | none => rw [hl] at h; cases h
        | some v =>
          rw [hl] at h
          rcases mem_pyUpdate (lookup_mem hl) with hm | hm
          · cases hm
          · rcases List.mem_append.1 hm with hm | hm
            · obtain ⟨x, hx, e⟩ := List.mem_map.1 hm
              cases e
              exact ⟨_, NTree.self_nodes _, x, hx, leaf_get (seriesResult_leaf σ _ _) h⟩
            · cases List.mem_singleton.1 hm
              cases p with
              | nil =>
                simp only [Option.bind_some] at h
                rw [RTree.get_nil] at h; cases h; simp [RTree.Leaf, RTree.dict?] at hr
              | cons k'' p =>
                simp only [Option.bind_some] at h
                rw [RTree.get_dict] at h
                cases hl' : (pyUpdate [] (ss.flatMap (NTree.ownEntries σ))).lookup k'' with
                | none => rw [hl'] at h; cases h
                | some v' =>
                  rw [hl'] at h
                  rcases mem_pyUpdate (lookup_mem hl') with hm' | hm'
                  · cases hm'
                  · obtain ⟨u, hu, hm'⟩ := List.mem_flatMap.1 hm'
                    obtain ⟨k2, f2, kd2, vs2, cs2, ss2⟩ := u
                    obtain ⟨x, hx, e⟩ := List.mem_map.1 hm'
                    cases e
                    refine ⟨.node k2 f2 kd2 vs2 cs2 ss2, ?_, x, hx, leaf_get (seriesResult_leaf σ _ _) h⟩
                    rw [NTree.nodes]
                    exact List.mem_cons_of_mem _ (NTree.mem_nodesAll.2 ⟨_, hu, NTree.self_nodes _⟩)
  theorem subResults_only (σ : Assignment) : ∀ (ts : List NTree) {k : String} {v r : RTree} {p : List String}, (k, v) ∈ NTree.subResults σ ts →
      v.get p = some r → r.Leaf → ∃ u ∈ NTree.nodesAll ts, ∃ x ∈ u.vars, r = seriesResult σ x.length x.label
    | [], _, _, _, _, hm, _, _ => by simp [NTree.subResults] at hm
    | t :: ts, k, v, r, p, hm, h, hr => by
      rw [NTree.subResults, List.mem_cons] at hm
      rw [NTree.nodesAll]
      rcases hm with e | hm
      · cases e
        obtain ⟨u, hu, x⟩ := results_only σ t h hr
        exact ⟨u, List.mem_append_left _ hu, x⟩
      · obtain ⟨u, hu, x⟩ := subResults_only σ ts hm h hr
        exact ⟨u, List.mem_append_right _ hu, x⟩
end

theorem lookup_mem' {α : Type} {kvs : List (String × α)} {k : String} {t : α} (h : kvs.lookup k = some t) : (k, t) ∈ kvs := by
  induction kvs with
  | nil => simp at h
  | cons q qs ih =>
    rw [List.lookup_cons] at h
    split at h
    · rename_i hk
      cases h
      rw [beq_iff_eq] at hk
      subst hk
      exact List.mem_cons_self
    · exact List.mem_cons_of_mem _ (ih h)

mutual
  /-- Whatever is listed in a description belongs to one of the models. -/
  theorem describe_only {α : Type} (own : NTree → List α) : ∀ (t : NTree) {p : List String} {l : List α}, (t.describe own).get p = some (.list l) →
      ∃ u ∈ t.nodes, l = own u
    | .node k f kd vs cs ss, p, l, h => by
      rw [NTree.describe] at h
      cases p with
      | nil => simp [DTree.get] at h
      | cons k' p =>
        rw [DTree.get] at h
        cases hl : (pyUpdate [] (("_self", DTree.list (own (.node k f kd vs cs ss))) :: NTree.describeAll own ss)).lookup k' with
        | none => rw [hl] at h; cases h
        | some v =>
          rw [hl] at h
          rcases mem_pyUpdate (lookup_mem' hl) with hm | hm
          · cases hm
          · rcases List.mem_cons.1 hm with e | hm
            · cases e
              cases p with
              | nil =>
                simp only [Option.bind_some, DTree.get, Option.some.injEq, DTree.list.injEq] at h
                exact ⟨_, NTree.self_nodes _, h.symm⟩
              | cons _ _ => simp [DTree.get] at h
            · obtain ⟨u, hu, e⟩ := describeAll_only own ss hm h
              exact ⟨u, by rw [NTree.nodes]; exact List.mem_cons_of_mem _ hu, e⟩
  theorem describeAll_only {α : Type} (own : NTree → List α) : ∀ (ts : List NTree) {k : String} {v : DTree α} {p : List String} {l : List α},
      (k, v) ∈ NTree.describeAll own ts → v.get p = some (.list l) → ∃ u ∈ NTree.nodesAll ts, l = own u
    | [], _, _, _, _, hm, _ => by simp [NTree.describeAll] at hm
    | t :: ts, k, v, p, l, hm, h => by
      rw [NTree.describeAll, List.mem_cons] at hm
      rw [NTree.nodesAll]
      rcases hm with e | hm
      · cases e
        obtain ⟨u, hu, x⟩ := describe_only own t h
        exact ⟨u, List.mem_append_left _ hu, x⟩
      · obtain ⟨u, hu, x⟩ := describeAll_only own ts hm h
        exact ⟨u, List.mem_append_right _ hu, x⟩
end

theorem mtree_self (t : MTree) : t ∈ t.nodes := by
  cases t
  simp [MTree.nodes]

theorem leafNodes {k f : String} {t : MTree} {kd : ModelKind} {u : NTree} (h : u ∈ (NTree.node k f kd t.ownVars t.ownCons []).nodes) :
    u.vars = t.vars ∧ u.cons = t.cons := by
  simp only [NTree.nodes, NTree.nodesAll, List.mem_singleton] at h
  subst h
  cases t
  exact ⟨rfl, rfl⟩

mutual
  /-- The labelled models are the models. -/
  theorem annotate_nodes : ∀ (s : NShape) (t : MTree), ∀ u ∈ (s.annotate t).nodes, ∃ m ∈ t.nodes, u.vars = m.vars ∧ u.cons = m.cons
    | .model k f ss, .node vs cs ts, u, hu => by
      rw [NShape.annotate, NTree.nodes, List.mem_cons] at hu
      rw [MTree.nodes]
      rcases hu with rfl | hu
      · exact ⟨_, List.mem_cons_self, rfl, rfl⟩
      · obtain ⟨m, hm, e⟩ := annotateAll_nodes ss ts u hu
        exact ⟨m, List.mem_cons_of_mem _ hm, e⟩
    | .segments el, .node vs cs ts, u, hu => by
      rw [NShape.annotate, NTree.nodes, List.mem_cons] at hu
      rw [MTree.nodes]
      rcases hu with rfl | hu
      · exact ⟨_, List.mem_cons_self, rfl, rfl⟩
      · obtain ⟨w, hw, hu⟩ := NTree.mem_nodesAll.1 hu
        obtain ⟨i, hi, rfl⟩ := List.mem_mapIdx.1 hw
        exact ⟨_, List.mem_cons_of_mem _ (mem_nodesAll.2 ⟨_, List.getElem_mem hi, mtree_self _⟩), leafNodes hu⟩
    | .allocation el k, .node vs cs ts, u, hu => by
      rw [NShape.annotate, NTree.nodes, List.mem_cons] at hu
      rw [MTree.nodes]
      rcases hu with rfl | hu
      · exact ⟨_, List.mem_cons_self, rfl, rfl⟩
      · obtain ⟨w, hw, hu⟩ := NTree.mem_nodesAll.1 hu
        obtain ⟨t, ht, rfl⟩ := List.mem_map.1 hw
        exact ⟨_, List.mem_cons_of_mem _ (mem_nodesAll.2 ⟨_, ht, mtree_self _⟩), leafNodes hu⟩
  theorem annotateAll_nodes : ∀ (ss : List NShape) (ts : List MTree), ∀ u ∈ NTree.nodesAll (NShape.annotateAll ss ts), ∃ m ∈ MTree.nodesAll ts,
      u.vars = m.vars ∧ u.cons = m.cons
    | [], ts, u, hu => by simp [NShape.annotateAll, NTree.nodesAll] at hu
    | s :: ss, [], u, hu => by simp [NShape.annotateAll, NTree.nodesAll] at hu
    | s :: ss, t :: ts, u, hu => by
      rw [NShape.annotateAll, NTree.nodesAll, List.mem_append] at hu
      rw [MTree.nodesAll]
      rcases hu with hu | hu
      · obtain ⟨m, hm, e⟩ := annotate_nodes s t u hu
        exact ⟨m, List.mem_append_left _ hm, e⟩
      · obtain ⟨m, hm, e⟩ := annotateAll_nodes ss ts u hu
        exact ⟨m, List.mem_append_right _ hm, e⟩
end

/-! ## Places -/

theorem annotateAll_zip (ss : List NShape) (ts : List MTree) : NShape.annotateAll ss ts = List.zipWith NShape.annotate ss ts := by
  induction ss generalizing ts with
  | nil => simp [NShape.annotateAll]
  | cons s ss ih =>
    cases ts with
    | nil => simp [NShape.annotateAll]
    | cons t ts => simp [NShape.annotateAll, ih]

theorem forall₂_zipWith {α β γ : Type} {R : α → β → Prop} {l : List α} {r : List β} (h : List.Forall₂ R l r) {f : α → β → γ} {a : α} (ha : a ∈ l) :
    ∃ b ∈ r, R a b ∧ f a b ∈ List.zipWith f l r := by
  induction h with
  | nil => cases ha
  | @cons x y l r hxy _ ih =>
    rcases List.mem_cons.1 ha with rfl | ha
    · exact ⟨y, List.mem_cons_self, hxy, by simp⟩
    · obtain ⟨b, h1, h2, h3⟩ := ih ha
      exact ⟨b, List.mem_cons_of_mem _ h1, h2, by simp [h3]⟩

/-- Where the variables of a flow are found in the model of its component. -/
theorem flow_places {sys : Sys} {d : CompData} {o0 : CompOut} (h : compModel sys d = .ok o0) {f : FlowData} (hf : f ∈ d.inputs ++ d.outputs)
    {l : String} {vs : List Var} {cs : List ConReq} {ext : List NShape} {ext' : List MTree} :
    ∃ x y : Var, x.label = d.label ++ "__" ++ f.label ++ "_flow_rate" ∧ x.length = sys.n ∧
      y.label = d.label ++ "__" ++ f.label ++ "_sumFlowHours" ∧ y.length = 1 ∧
      ((NShape.model l l (d.shapes sys.cfg ++ ext)).annotate (.node vs cs (o0.subs ++ ext'))).HasAt [f.label, "flow_rate"] x ∧
      ((NShape.model l l (d.shapes sys.cfg ++ ext)).annotate (.node vs cs (o0.subs ++ ext'))).HasAt [f.label, "sumFlowHours"] y := by
  obtain ⟨h1, h2, h3, prev, h4, -, -, h5, -⟩ := comp_inv h
  have hfl : List.Forall₂ (fun f q => q.1 = fillOnOff d f ∧ flowModel sys (flowFull d.label f.label) (fillOnOff d f) = .ok q.2)
      (d.inputs ++ d.outputs) o0.flows := List.rel_append h1 h2
  obtain ⟨q, hq, ⟨-, hm⟩, hz⟩ := forall₂_zipWith hfl (f := fun f (q : FlowData × FlowOut) =>
    (flowShape sys.cfg d.label (fillOnOff d f)).annotate q.2.tree) hf
  obtain ⟨r1, -, -, r4, r5, -⟩ := flow_inv hm
  have hr : q.2.flowRate.label = flowFull d.label f.label ++ "_" ++ "flow_rate" ∧ q.2.flowRate.length = sys.n := by
    unfold flowRateVar at r1
    cases ho : (fillOnOff d f).onOff <;> simp only [ho] at r1 <;> rw [(mkVar_ok r1).1] <;> exact ⟨rfl, rfl⟩
  have hmem : (flowShape sys.cfg d.label (fillOnOff d f)).annotate q.2.tree ∈ NShape.annotateAll (d.shapes sys.cfg ++ ext) (o0.subs ++ ext') := by
    rw [annotateAll_zip, CompData.shapes, h5]
    have hlen : ((d.inputs ++ d.outputs).map fun f => flowShape sys.cfg d.label (fillOnOff d f)).length = (o0.flows.map (·.2.tree)).length := by
      rw [List.length_map, List.length_map, hfl.length_eq]
    simp only [List.append_assoc]
    rw [List.zipWith_append hlen]
    refine List.mem_append_left _ ?_
    rw [List.zipWith_map]
    exact hz
  have hkey : ((flowShape sys.cfg d.label (fillOnOff d f)).annotate q.2.tree).key = f.label := by
    rw [annotate_key]
    simp [flowShape, NShape.key, fillOnOff_label]
  have hat : ∀ {x : Var} {s : String}, x ∈ [q.2.flowRate, q.2.sumFlowHours] → x.label = flowFull d.label f.label ++ "_" ++ s →
      ((NShape.model l l (d.shapes sys.cfg ++ ext)).annotate (.node vs cs (o0.subs ++ ext'))).HasAt [f.label, s] x := by
    intro x s hx hs
    rw [NShape.annotate]
    have := NTree.HasAt.sub (k := l) (f := l) (vs := vs) (cs := cs) hmem (p := [s]) (x := x) (by
      rw [r5, flowShape, NShape.annotate]
      have := NTree.HasAt.own (k := (fillOnOff d f).label) (f := flowFull d.label (fillOnOff d f).label) (kd := .plain)
        (vs := [q.2.flowRate, q.2.sumFlowHours]) (cs := mkEq (flowFull d.label f.label) "sumFlowHours" [sSum q.2.flowRate (.v sys.dt), sAll q.2.sumFlowHours (.s (-1))] ::
          loadFactorCons sys (flowFull d.label f.label) (fillOnOff d f) q.2.sumFlowHours q.2.invest) (ss := NShape.annotateAll
            ((match (fillOnOff d f).onOff with | some _ => [onOffShape (flowFull d.label (fillOnOff d f).label)] | none => []) ++
              (match (fillOnOff d f).effSize sys.cfg with | .invest q => [investShape (flowFull d.label (fillOnOff d f).label) q] | .num _ => []))
            ((q.2.onOff.map OnOffOut.tree).toList ++ (q.2.invest.map InvestOut.tree).toList)) hx
      rwa [shortLabel_of (s := s) (by rw [fillOnOff_label]; exact hs)] at this)
    rwa [hkey] at this
  refine ⟨q.2.flowRate, q.2.sumFlowHours, ?_, hr.2, ?_, ?_, hat (by simp) hr.1, hat (by simp) (by rw [r4])⟩
  · rw [hr.1, flowFull, String.append_assoc]; rfl
  · rw [r4, flowFull]; simp only [String.append_assoc]; rfl
  · rw [r4]

/-- Where the variables of a flow are found in the model of any component. -/
theorem comp_flow_places {sys : Sys} {c : Comp} {o : CompOut} (h : c.model sys = .ok o) {f : FlowData} (hf : f ∈ c.flows) :
    ∃ x y : Var, x.label = c.label ++ "__" ++ f.label ++ "_flow_rate" ∧ x.length = sys.n ∧
      y.label = c.label ++ "__" ++ f.label ++ "_sumFlowHours" ∧ y.length = 1 ∧
      ((c.shape sys.cfg).annotate o.tree).HasAt [f.label, "flow_rate"] x ∧ ((c.shape sys.cfg).annotate o.tree).HasAt [f.label, "sumFlowHours"] y := by
  unfold CompOut.tree
  cases c with
  | plain d =>
    have := flow_places (d := d) h hf (l := d.label) (vs := o.vars) (cs := o.cons) (ext := []) (ext' := [])
    simp only [List.append_nil] at this
    exact this
  | converter d =>
    simp only [Comp.model] at h
    unfold converterModel at h
    peel h with o0, h0
    unfold Comp.shape
    split at h
    · simp only [except_pure, Except.ok.injEq] at h
      subst h
      have := flow_places h0 hf (l := d.comp.label) (vs := o0.vars) (cs := o0.cons ++ d.factors.mapIdx fun i fs => mkEq d.comp.label ("conversion_" ++ toString i) (conversionOps o0.inputs o0.outputs fs))
        (ext := if d.factors.isEmpty then [.segments d.comp.label] else []) (ext' := [])
      simp only [List.append_nil] at this
      exact this
    · peel h with pts, h1
      peel h with tree, h2
      simp only [except_pure, Except.ok.injEq] at h
      subst h
      exact flow_places h0 hf
  | storage st =>
    simp only [Comp.model] at h
    obtain ⟨so, hs, rfl⟩ := map_ok.1 h
    obtain ⟨o0, cs, nd, inv, cCharge, cIF, h0, e1, e2, hinv, -, -, hv, -, hsub⟩ := storage_inv_keys hs
    rw [hsub]
    exact flow_places h0 hf
  | transmission t =>
    simp only [Comp.model] at h
    obtain ⟨tr, ht, rfl⟩ := map_ok.1 h
    unfold transmissionModel at ht
    peel ht with o0, h0
    peel ht with q, hq
    obtain ⟨i1, i2, o1, o2⟩ := q
    simp only at ht
    peel ht with c1, h1
    peel ht with c2, h2
    simp only [except_pure, Except.ok.injEq] at ht
    subst ht
    have hl : f.label ∈ ((t.comp sys.cfg).inputs ++ (t.comp sys.cfg).outputs).map (·.label) := by
      rw [trans_labels]
      exact List.mem_map_of_mem hf
    obtain ⟨f', hf', e⟩ := List.mem_map.1 hl
    have := flow_places h0 hf' (l := t.label) (vs := o0.vars) (cs := o0.cons ++ [c1] ++ c2) (ext := []) (ext' := [])
    rw [e] at this
    simp only [List.append_nil] at this
    exact this

/-- Where the charge state of a storage is found. -/
theorem storage_places {sys : Sys} {st : StorageData} {o : CompOut} (h : (Comp.storage st).model sys = .ok o) :
    ∃ x y : Var, x.label = st.label ++ "_charge_state" ∧ x.length = sys.n + 1 ∧ y.label = st.label ++ "_netto_discharge" ∧ y.length = sys.n ∧
      (((Comp.storage st).shape sys.cfg).annotate o.tree).HasAt ["charge_state"] x ∧
      (((Comp.storage st).shape sys.cfg).annotate o.tree).HasAt ["netto_discharge"] y := by
  simp only [Comp.model] at h
  obtain ⟨so, hs, rfl⟩ := map_ok.1 h
  unfold storageModel at hs
  peel hs with o0, h0
  peel hs with ab, hab
  obtain ⟨a, b⟩ := ab
  simp only at hs
  peel hs with c, hc
  peel hs with nd, hnd
  peel hs with cCharge, hcc
  peel hs with inv, hinv
  peel hs with cIF, hif
  simp only [except_pure, Except.ok.injEq] at hs
  subst hs
  have e1 : c.label = st.label ++ "_" ++ "charge_state" := by rw [(mkVar_ok hc).1]
  have e2 : nd.label = st.label ++ "_" ++ "netto_discharge" := by rw [(mkVar_ok hnd).1]
  refine ⟨c, nd, by rw [e1, String.append_assoc]; rfl, by rw [(mkVar_ok hc).1], by rw [e2, String.append_assoc]; rfl, by rw [(mkVar_ok hnd).1], ?_, ?_⟩
  · have := NTree.HasAt.own (k := st.label) (f := st.label) (kd := .plain) (vs := o0.vars ++ [c, nd])
      (cs := o0.cons ++ [mkEq st.label "netto_discharge" [sAll nd (.s 1), sAll a.flowRate (.s 1), sAll b.flowRate (.s (-1))], cCharge] ++ cIF)
      (ss := NShape.annotateAll (st.comp.shapes sys.cfg ++ (match st.capacity with | .invest q => [investShape st.label q] | .num _ => []))
        (o0.subs ++ (inv.map InvestOut.tree).toList)) (x := c) (by simp)
    rwa [shortLabel_of e1] at this
  · have := NTree.HasAt.own (k := st.label) (f := st.label) (kd := .plain) (vs := o0.vars ++ [c, nd])
      (cs := o0.cons ++ [mkEq st.label "netto_discharge" [sAll nd (.s 1), sAll a.flowRate (.s 1), sAll b.flowRate (.s (-1))], cCharge] ++ cIF)
      (ss := NShape.annotateAll (st.comp.shapes sys.cfg ++ (match st.capacity with | .invest q => [investShape st.label q] | .num _ => []))
        (o0.subs ++ (inv.map InvestOut.tree).toList)) (x := nd) (by simp)
    rwa [shortLabel_of e2] at this

/-- Where the sum of a share allocation is found. -/
theorem allocation_place {sys : Sys} {d : SamData} {vs : SamVars} {calls : List Share} {tree : MTree} (hv : samVars sys d = .ok vs)
    (h : samTree d vs calls = .ok tree) :
    ∃ x : Var, x.label = d.el ++ "__" ++ d.label ++ "_" ++ (d.label ++ "_sum") ∧ x.length = 1 ∧
      ((NShape.allocation d.el d.label).annotate tree).HasAt [d.label ++ "_sum"] x := by
  have e := (samVars_labels hv).1
  obtain ⟨cs, ts, rfl, -, -⟩ := samTree_inv h
  refine ⟨vs.sum, e, ?_, ?_⟩
  · unfold samVars at hv
    peel hv with s, hs
    peel hv with t, ht
    simp only [except_pure, Except.ok.injEq] at hv
    subst hv
    rw [(mkVar_ok hs).1]
  · rw [NShape.annotate]
    have := NTree.HasAt.own (k := d.label) (f := d.el ++ "__" ++ d.label) (kd := .allocation) (vs := vs.sum :: vs.sumTS.toList) (cs := cs)
      (ss := ts.map (shareNode d.el)) (x := vs.sum) (by simp)
    rwa [shortLabel_of e] at this

/-- Where the sums of an effect and of the penalty are found. -/
theorem coll_places {sys : Sys} {es : List EffectData} {calls : List ShareCall} {o : CollOut} (h : collectionModel sys es calls = .ok o) :
    (∀ e ∈ es, ∀ k ∈ ["invest", "operation", "all"], ∃ x : Var, x.label = e.label ++ "__" ++ k ++ "_" ++ (k ++ "_sum") ∧ x.length = 1 ∧
      ((collShape es).annotate o.tree).HasAt [e.label, k, k ++ "_sum"] x) ∧
    ∃ x : Var, x.label = "Effects__penalty_penalty_sum" ∧ x.length = 1 ∧ ((collShape es).annotate o.tree).HasAt ["penalty", "penalty_sum"] x := by
  obtain ⟨between, addressed, trees, pt, h1, h2, h3, -, h5, h6, h7, ht⟩ := collection_inv h
  rw [ht, collShape, NShape.annotate, annotateAll_zip]
  have hlen : (es.map EffectData.shape).length = trees.length := by
    rw [List.length_map, h1.length_eq, h6.length_eq]
  rw [List.zipWith_append hlen]
  constructor
  · intro e he k hk
    have h16 : List.Forall₂ (fun e t => ∃ ev, effectVars sys e = .ok ev ∧ effectTree (between.flatten ++ addressed) ev = .ok t) es trees := by
      clear hlen ht h7 h5 h3 h2 h he
      generalize o.effects = evs at h1 h6
      induction h1 generalizing trees with
      | nil => cases h6; exact .nil
      | cons he _ ih =>
        cases h6 with
        | cons hx hxs => exact .cons ⟨_, he, hx⟩ (ih _ hxs)
    obtain ⟨t, -, ⟨ev, hev, hT⟩, hz⟩ := forall₂_zipWith h16 (f := fun e t => e.shape.annotate t) he
    obtain ⟨rfl, v1, v2, v3⟩ := effectVars_inv hev
    unfold effectTree at hT
    peel hT with i, hi
    peel hT with op, hop
    peel hT with a, ha
    simp only [except_pure, Except.ok.injEq] at hT
    subst hT
    have hsub : ∀ {k : String} {x : Var} {p : List String} {t : MTree}, (NShape.allocation ev.data.label k).annotate t ∈
        [(NShape.allocation ev.data.label "invest").annotate i, (NShape.allocation ev.data.label "operation").annotate op,
          (NShape.allocation ev.data.label "all").annotate a] →
        ((NShape.allocation ev.data.label k).annotate t).HasAt p x → (NTree.node "Effects" "Effects" .plain [] []
          (List.zipWith NShape.annotate (es.map EffectData.shape) trees ++ List.zipWith NShape.annotate [NShape.allocation "Effects" "penalty"] [pt])).HasAt
            (ev.data.label :: k :: p) x := by
      intro k x p t hm hx
      have hk : ((NShape.allocation ev.data.label k).annotate t).key = k := by rw [annotate_key]; rfl
      have h' := NTree.HasAt.sub (k := ev.data.label) (f := ev.data.label) (vs := []) (cs := []) hm hx
      rw [hk] at h'
      rw [List.zipWith_map_left]
      exact NTree.HasAt.sub (k := "Effects") (f := "Effects") (vs := []) (cs := [])
        (ss := List.zipWith (fun e t => e.shape.annotate t) es trees ++ List.zipWith NShape.annotate [NShape.allocation "Effects" "penalty"] [pt])
        (List.mem_append_left _ hz) h'
    simp only [List.mem_cons, List.not_mem_nil, or_false] at hk
    rcases hk with rfl | rfl | rfl
    · obtain ⟨x, e1, e2, e3⟩ := allocation_place v1 hi
      exact ⟨x, e1, e2, hsub (by simp) e3⟩
    · obtain ⟨x, e1, e2, e3⟩ := allocation_place v2 hop
      exact ⟨x, e1, e2, hsub (by simp) e3⟩
    · obtain ⟨x, e1, e2, e3⟩ := allocation_place v3 ha
      exact ⟨x, e1, e2, hsub (by simp) e3⟩
  · obtain ⟨x, e1, e2, e3⟩ := allocation_place (d := penaltyData) h2 h7
    refine ⟨x, by rw [e1]; rfl, e2, ?_⟩
    have hk : ((NShape.allocation "Effects" "penalty").annotate pt).key = "penalty" := by rw [annotate_key]; rfl
    have := NTree.HasAt.sub (k := "Effects") (f := "Effects") (vs := []) (cs := [])
      (ss := List.zipWith NShape.annotate (es.map EffectData.shape) trees ++ List.zipWith NShape.annotate [NShape.allocation "Effects" "penalty"] [pt])
      (u := (NShape.allocation "Effects" "penalty").annotate pt) (by simp) e3
    rwa [hk] at this

end Flix
