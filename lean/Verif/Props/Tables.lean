import Verif.Lemmas.Results
import Verif.Props.System
import Verif.Props.Config

/-!
# C58: the table of a bus
-/

namespace Flix

variable {sys : Sys} {s : System} {o : SysOut} {σ : Assignment}

/-! ## Labels of flows are distinct in an accepted model -/

theorem flatMap_sublist {α β} (f : α → List β) {as bs : List α} (h : as.Sublist bs) : (as.flatMap f).Sublist (bs.flatMap f) := by
  induction h with
  | slnil => exact List.Sublist.refl _
  | cons a _ ih => rw [List.flatMap_cons]; exact ih.trans (List.sublist_append_right _ _)
  | cons_cons a _ ih => rw [List.flatMap_cons, List.flatMap_cons]; exact (List.Sublist.refl _).append ih

theorem nodesAll_sublist {as bs : List MTree} (h : as.Sublist bs) : (MTree.nodesAll as).Sublist (MTree.nodesAll bs) := by
  induction h with
  | slnil => exact List.Sublist.refl _
  | cons a _ ih => rw [MTree.nodesAll.eq_2]; exact ih.trans (List.sublist_append_right _ _)
  | cons_cons a _ ih => rw [MTree.nodesAll, MTree.nodesAll]; exact (List.Sublist.refl _).append ih

/-- The flows come first among the sub models. -/
theorem model_flow_sub {c : Comp} {co : CompOut} (h : c.model sys = .ok co) :
    (co.flows.map (·.2.tree)).Sublist co.subs ∧ ∀ q ∈ co.flows, q.2.flowRate ∈ q.2.tree.vars := by
  have base : ∀ (d : CompData) (o0 : CompOut), compModel sys d = .ok o0 → (o0.flows.map (·.2.tree)).Sublist o0.subs ∧ ∀ q ∈ o0.flows, q.2.flowRate ∈ q.2.tree.vars := by
    intro d o0 h0
    obtain ⟨_, _, _, _, _, _, _, e, _⟩ := comp_inv h0
    refine ⟨?_, fun q hq => ?_⟩
    · rw [e, List.append_assoc]; exact List.sublist_append_left _ _
    · obtain ⟨f, _, _, hf⟩ := comp_flow_mem h0 q hq
      rw [(flow_inv hf).2.2.2.2.1]; simp [MTree.vars]
  cases c with
  | plain c => exact base c co h
  | converter c =>
    change converterModel sys c = .ok co at h
    unfold converterModel at h
    peel h with o0, h0
    split at h
    · simp only [except_pure, Except.ok.injEq] at h
      subst h
      exact base _ o0 h0
    · peel h with pts, h1
      peel h with tree, h2
      simp only [except_pure, Except.ok.injEq] at h
      subst h
      obtain ⟨a, b⟩ := base _ _ h0
      exact ⟨a.trans (List.sublist_append_left _ _), b⟩
  | storage st =>
    obtain ⟨so, hso, rfl⟩ := map_ok.1 (show (·.comp) <$> storageModel sys st = .ok co from h)
    clear h
    rename' hso => h
    unfold storageModel at h
    peel h with o0, h0
    peel h with ab, hab
    obtain ⟨a, b⟩ := ab
    simp only at h
    peel h with c, hc
    peel h with nd, hnd
    peel h with cCharge, hcc
    peel h with inv, hinv
    peel h with cIF, hif
    simp only [except_pure, Except.ok.injEq] at h
    subst h
    obtain ⟨a, b⟩ := base _ _ h0
    exact ⟨a.trans (List.sublist_append_left _ _), b⟩
  | transmission t =>
    obtain ⟨tr, hto, rfl⟩ := map_ok.1 (show (·.comp) <$> transmissionModel sys t = .ok co from h)
    clear h
    rename' hto => h
    unfold transmissionModel at h
    peel h with o0, h0
    peel h with q, hq
    obtain ⟨i1, i2, o1, o2⟩ := q
    simp only at h
    peel h with c1, h1
    peel h with c2, h2
    simp only [except_pure, Except.ok.injEq] at h
    subst h
    exact base _ o0 h0

/-- Labels of all variables of a tree. -/
def treeLabels (t : MTree) : List String := (t.nodes.flatMap MTree.vars).map Var.label

theorem flows_labels (qs : List (FlowData × FlowOut)) (h : ∀ q ∈ qs, q.2.flowRate ∈ q.2.tree.vars) :
    (qs.map fun q => q.2.flowRate.label).Sublist (((MTree.nodesAll (qs.map (·.2.tree))).flatMap MTree.vars).map Var.label) := by
  induction qs with
  | nil => exact List.Sublist.refl _
  | cons q qs ih =>
    rw [List.map_cons, List.map_cons, MTree.nodesAll, List.flatMap_append, List.map_append]
    refine List.Sublist.append (l₁ := [q.2.flowRate.label]) ?_ (ih fun q hq => h q (List.mem_cons_of_mem _ hq))
    rw [List.singleton_sublist]
    refine List.mem_map_of_mem (List.mem_flatMap.2 ⟨q.2.tree, ?_, h q (by simp)⟩)
    cases q.2.tree
    rw [MTree.nodes]
    exact List.mem_cons_self

theorem comp_labels {c : Comp} {co : CompOut} (h : c.model sys = .ok co) : (co.flows.map fun q => q.2.flowRate.label).Sublist (treeLabels co.tree) := by
  obtain ⟨h1, h2⟩ := model_flow_sub h
  refine (flows_labels co.flows h2).trans ?_
  rw [treeLabels, CompOut.tree, MTree.nodes, List.flatMap_cons, List.map_append]
  exact ((flatMap_sublist MTree.vars (nodesAll_sublist h1)).map Var.label).trans (List.sublist_append_right _ _)

/-- In an accepted model no two flows have one full label. -/
theorem flows_nodup (h : systemModel sys s = .ok o) : ((s.comps.map fun c => c.flows.map fun f => c.label ++ "__" ++ f.label).flatten).Nodup := by
  obtain ⟨hc, _, _, h6⟩ := system_inv h
  obtain ⟨p1, _, n1, _⟩ := collectModel_perm h6
  rw [(p1.map _).nodup_iff, List.cons_append, MTree.nodesAll, nodesAll_append] at n1
  have e1 : ((o.comps.map fun co => co.flows.map fun q => q.2.flowRate.label).flatten).Sublist
      (((MTree.nodesAll (o.comps.map CompOut.tree)).flatMap MTree.vars).map Var.label) := by
    clear p1 n1 h6
    generalize o.comps = cos at hc
    generalize s.comps = cs at hc
    induction hc with
    | nil => exact List.Sublist.refl _
    | cons hd _ ih =>
      rw [List.map_cons, List.map_cons, List.flatten_cons, MTree.nodesAll, List.flatMap_append, List.map_append]
      exact (comp_labels hd).append ih
  have n2 : ((o.comps.map fun co => co.flows.map fun q => q.2.flowRate.label).flatten).Nodup := by
    refine List.Nodup.sublist (e1.trans ?_) n1
    refine List.Sublist.map _ (flatMap_sublist _ ?_)
    exact (List.sublist_append_left _ _).trans (List.sublist_append_right _ _)
  have e2 : (o.comps.map fun co => co.flows.map fun q => q.2.flowRate.label) = s.comps.map fun c => (c.flows.map fun f => c.label ++ "__" ++ f.label).map (· ++ "_" ++ "flow_rate") := by
    refine (map_of_forall₂ (hc.imp fun c co hm => ?_)).symm
    obtain ⟨h1, h2⟩ := model_flowOf hm
    rw [List.map_map]
    refine map_of_forall₂ ((List.rel_append h1 h2).imp fun f q hfq => ?_)
    rw [hfq.2.2.1]
    rfl
  have e3 : (s.comps.map fun c => (c.flows.map fun f => c.label ++ "__" ++ f.label).map (· ++ "_" ++ "flow_rate")) =
      (s.comps.map fun c => c.flows.map fun f => c.label ++ "__" ++ f.label).map (List.map (· ++ "_" ++ "flow_rate")) := by rw [List.map_map]; rfl
  rw [e2, e3, ← List.map_flatten] at n2
  exact n2.of_map

/-! ## The table, column by column -/

theorem mapM_eq {α β} {f : α → Except Err β} {g : α → β} {l : List α} (h : ∀ a ∈ l, f a = .ok (g a)) : l.mapM f = .ok (l.map g) := by
  rw [mapM_ok]
  induction l with
  | nil => exact .nil
  | cons a l ih => exact .cons (h a (by simp)) (ih fun x hx => h x (by simp [hx]))

theorem pyLookup_pyUpdate_of_not_mem {α} (d : List (String × α)) {xs : List (String × α)} {k : String} (h : k ∉ xs.map (·.1)) :
    pyLookup (pyUpdate d xs) k = pyLookup d k := by
  induction xs generalizing d with
  | nil => rfl
  | cons x xs ih =>
    simp only [List.map_cons, List.mem_cons, not_or] at h
    rw [show pyUpdate d (x :: xs) = pyUpdate (pySet d x.1 x.2) xs from rfl, ih _ h.2, pyLookup_pySet, if_neg h.1]

theorem pyLookup_pyUpdate_last {α} (d as : List (String × α)) {bs : List (String × α)} {k : String} {v : α} (h : k ∉ bs.map (·.1)) :
    pyLookup (pyUpdate d (as ++ (k, v) :: bs)) k = some v := by
  rw [show pyUpdate d (as ++ (k, v) :: bs) = pyUpdate (pySet (pyUpdate d as) k v) bs by simp [pyUpdate, List.foldl_append]]
  rw [pyLookup_pyUpdate_of_not_mem _ h, pyLookup_pySet, if_pos rfl]

/-- Labels that component models use for sub models of their own. -/
def reserved : List String := ["OnOff", "PreventSimultaneousUsage", "MultipleSegments", "Investment"]

theorem others_reserved (cfg : Cfg) (n : Nat) (c : Comp) : ∀ l ∈ (c.res cfg n).others, l ∈ reserved := by
  have h : ∀ d : CompData, ∀ l ∈ d.others, l ∈ reserved := by
    intro d l hl
    simp only [CompData.others, List.mem_append] at hl
    rcases hl with hl | hl <;> split at hl <;> simp_all [reserved]
  intro l hl
  cases c with
  | plain c => exact h c l hl
  | converter c =>
    rcases List.mem_append.1 hl with hl | hl
    · exact h _ l hl
    · split at hl <;> simp_all [reserved]
  | storage st =>
    rcases List.mem_append.1 hl with hl | hl
    · exact h _ l hl
    · split at hl <;> simp_all [reserved]
  | transmission t => exact h _ l hl

theorem res_label (cfg : Cfg) (n : Nat) (c : Comp) : (c.res cfg n).label = c.label ∧ (c.res cfg n).inputs = c.inputs ∧ (c.res cfg n).outputs = c.outputs := by
  cases c <;> exact ⟨rfl, rfl, rfl⟩

/-- A flow as its results show it. -/
def flowRes (σ : Assignment) (n : Nat) (comp : String) (isInput : Bool) (f : FlowData) : FlowRes :=
  { labelFull := comp ++ "__" ++ f.label, bus := f.bus, isInput := isInput, data := flowResult σ n comp f.label }

def compFlowRes (σ : Assignment) (n : Nat) (c : Comp) : List FlowRes := c.inputs.map (flowRes σ n c.label true) ++ c.outputs.map (flowRes σ n c.label false)

theorem results_flow (cfg : Cfg) (σ : Assignment) (n : Nat) {c : Comp} (hn : (c.flows.map (·.label)).Nodup) (hr : ∀ f ∈ c.flows, f.label ∉ reserved)
    {f : FlowData} (hf : f ∈ c.flows) : dictGet ((c.res cfg n).results σ n) f.label = .ok (flowResult σ n c.label f.label) := by
  obtain ⟨e1, e2, e3⟩ := res_label cfg n c
  obtain ⟨as, bs, e⟩ := List.append_of_mem hf
  have : pyLookup ((c.res cfg n).results σ n) f.label = some (flowResult σ n c.label f.label) := by
    unfold ResComp.results
    rw [e1, e2, e3]
    change pyLookup (pyUpdate [] (_ ++ (c.flows).map _ ++ _)) _ = _
    rw [e, List.map_append, List.map_cons, List.append_assoc, List.append_assoc, ← List.append_assoc, List.cons_append]
    refine pyLookup_pyUpdate_last _ _ ?_
    simp only [List.map_append, List.map_map, List.mem_append, List.mem_map, Function.comp, not_or, not_exists, not_and]
    refine ⟨fun g hg eg => ?_, fun l hl el => hr f hf ?_⟩
    · rw [e, List.map_append, List.map_cons, List.nodup_append] at hn
      exact (List.nodup_cons.1 hn.2.1).1 (List.mem_map.2 ⟨g, hg, eg⟩)
    · rw [← el]; exact others_reserved cfg n c l hl
  rw [pyLookup_eq] at this
  simp only [dictGet, this]

theorem flowResults_eq (cfg : Cfg) (σ : Assignment) (n : Nat) {c : Comp} (hn : (c.flows.map (·.label)).Nodup) (hr : ∀ f ∈ c.flows, f.label ∉ reserved) :
    (c.res cfg n).flowResults σ n = .ok (compFlowRes σ n c) := by
  obtain ⟨e1, e2, e3⟩ := res_label cfg n c
  unfold ResComp.flowResults
  rw [e2, e3, pyUpdate_new (by simpa [Comp.flows, Function.comp_def] using hn), List.nil_append,
    mapM_eq (g := fun q : String × FlowData × Bool => flowRes σ n c.label q.2.2 q.2.1)]
  · simp [compFlowRes, Function.comp_def]
  · intro q hq
    have : q.1 = q.2.1.label ∧ q.2.1 ∈ c.flows := by
      rcases List.mem_append.1 hq with hq | hq <;> obtain ⟨f, hf, rfl⟩ := List.mem_map.1 hq
      · exact ⟨rfl, List.mem_append_left _ hf⟩
      · exact ⟨rfl, List.mem_append_right _ hf⟩
    rw [this.1, results_flow cfg σ n hn hr this.2, e1]
    rfl

theorem inputsFirst_eq (σ : Assignment) (n : Nat) (c : Comp) : inputsFirst (compFlowRes σ n c) = compFlowRes σ n c := by
  simp [inputsFirst, compFlowRes, List.filter_append, List.filter_map, Function.comp_def, flowRes]

theorem allFlowResults_eq (cfg : Cfg) (σ : Assignment) (n : Nat) {cs : List Comp} (hl : (cs.map Comp.label).Nodup)
    (hn : ((cs.map fun c => c.flows.map fun f => c.label ++ "__" ++ f.label).flatten).Nodup) (hr : ∀ c ∈ cs, ∀ f ∈ c.flows, f.label ∉ reserved) :
    allFlowResults σ n (cs.map (Comp.res cfg n)) = .ok ((cs.map fun c => (compFlowRes σ n c).map fun f => (f.labelFull, f)).flatten) := by
  have hn' : ∀ c ∈ cs, (c.flows.map (·.label)).Nodup := by
    intro c hc
    have := (List.nodup_flatten.1 hn).1 _ (List.mem_map.2 ⟨c, hc, rfl⟩)
    have e : (c.flows.map fun f => c.label ++ "__" ++ f.label) = (c.flows.map (·.label)).map (c.label ++ "__" ++ ·) := by rw [List.map_map]; rfl
    rw [e] at this
    exact this.of_map
  have e0 : (cs.map (Comp.res cfg n)).mapM (fun c => do let fs ← c.flowResults σ n; return (c.label, fs)) = .ok (cs.map fun c => (c.label, compFlowRes σ n c)) := by
    rw [mapM_ok]
    clear hl hn
    induction cs with
    | nil => exact .nil
    | cons c cs ih =>
      refine .cons ?_ (ih (fun c hc => hr c (List.mem_cons_of_mem _ hc)) fun c hc => hn' c (List.mem_cons_of_mem _ hc))
      rw [flowResults_eq cfg σ n (hn' c (by simp)) (hr c (by simp)), (res_label cfg n c).1]
      rfl
  unfold allFlowResults
  rw [e0, ok_bind, pyUpdate_new (d := []) (xs := cs.map fun c => (c.label, compFlowRes σ n c)) (by simpa [Function.comp_def] using hl), List.nil_append, List.map_map]
  have e1 : ((fun q : String × List FlowRes => (inputsFirst q.2).map fun f => (f.labelFull, f)) ∘ fun c : Comp => (c.label, compFlowRes σ n c)) =
      fun c : Comp => (compFlowRes σ n c).map fun f => (f.labelFull, f) := by
    funext c
    simp only [Function.comp, inputsFirst_eq]
  rw [e1, pyUpdate_new, List.nil_append]
  · rfl
  · rw [List.nil_append, List.map_flatten, List.map_map]
    refine (congrArg List.Nodup (congrArg List.flatten (List.map_congr_left fun c _ => ?_))).mpr hn
    simp [compFlowRes, Comp.flows, flowRes, Function.comp_def]

/-- Values of a column over the horizon. -/
def colVals (σ : Assignment) (n : Nat) (l : String) (k : ℚ) : List ℚ := (List.range n).map fun t => σ l t * k

theorem seriesResult_many {σ : Assignment} {n : Nat} (hn : 1 < n) (l : String) : seriesResult σ n l = .arr ((List.range n).map (σ l)) := by
  obtain ⟨m, rfl⟩ : ∃ m, n = m + 2 := ⟨n - 2, by omega⟩
  unfold seriesResult varResult
  split
  · rename_i x h
    have := congrArg List.length h
    simp at this
  · rfl

theorem scaled_series {σ : Assignment} {n : Nat} (hn : 1 < n) (l : String) (k : ℚ) : scaled k (seriesResult σ n l) = .ok (.arr (colVals σ n l k)) := by
  rw [seriesResult_many hn, scaled, List.map_map]
  rfl

theorem column_eq {σ : Assignment} {n : Nat} (hn : 1 < n) (k : ℚ) (comp : String) (i : Bool) (f : FlowData) :
    (flowRes σ n comp i f).column k = .ok (comp ++ "__" ++ f.label, .arr (colVals σ n (comp ++ "__" ++ f.label ++ "_flow_rate") k)) := by
  unfold FlowRes.column
  simp only [flowRes, flowResult, RTree.dict?, Option.elim, ok_bind, dictGet, List.lookup_cons, beq_self_eq_true, scaled_series hn]
  rfl

/-- `pd.DataFrame` of columns of one length. -/
theorem dataFrame_eq {n : Nat} {xs : List (String × List ℚ)} (h : ∀ q ∈ xs, q.2.length = n) : dataFrame (xs.map fun q => (q.1, .arr q.2)) = .ok xs := by
  cases xs with
  | nil => rfl
  | cons x xs =>
    unfold dataFrame
    simp only [List.map_cons, List.findSome?_cons, RTree.arr?]
    rw [← List.map_cons (f := fun q : String × List ℚ => (q.1, RTree.arr q.2)), mapM_eq (g := fun q => (q.1, q.2.arr?.getD []))]
    · rw [List.map_map]
      congr 1
      exact List.map_id _
    · intro q hq
      obtain ⟨y, hy, rfl⟩ := List.mem_map.1 hq
      simp only [RTree.arr?, Option.getD_some]
      rw [if_pos ((h y hy).trans (h x (by simp)).symm)]

theorem full_ne_of_plain {a b l : String} (h : ¬ ['_', '_'] <:+: l.toList) : a ++ "__" ++ b ≠ l := by
  rintro rfl
  apply h
  simp only [String.toList_append, toList_sep]
  exact ⟨a.toList, b.toList, rfl⟩

/-- Full labels of the flows of one side at a bus. -/
def sideLabels (side : Comp → List FlowData) (s : System) (b : String) : List String :=
  (s.comps.map fun c => ((side c).filter fun f => f.bus = b).map fun f => c.label ++ "__" ++ f.label).flatten

/-- The columns of the flows of one side at a bus. -/
def sideCols (side : Comp → List FlowData) (σ : Assignment) (n : Nat) (s : System) (b : String) (k : ℚ) : List (String × List ℚ) :=
  (sideLabels side s b).map fun l => (l, colVals σ n (l ++ "_flow_rate") k)

/-- An excess column, if the bus allows excess. -/
def exCols (σ : Assignment) (n : Nat) (b : BusData) (var key : String) (k : ℚ) : List (String × List ℚ) :=
  if b.excessPenalty.isSome then [(key, colVals σ n (b.label ++ "_" ++ var) k)] else []

theorem here_out (σ : Assignment) (n : Nat) (cs : List Comp) (b : String) :
    ((((cs.map fun c => (compFlowRes σ n c).map fun f => (f.labelFull, f)).flatten.map (·.2)).filter fun f => decide (f.bus = b)).filter fun f => !f.isInput) =
      (cs.map fun c => (c.outputs.filter fun f => f.bus = b).map (flowRes σ n c.label false)).flatten := by
  induction cs with
  | nil => rfl
  | cons c cs ih =>
    rw [List.map_cons, List.flatten_cons, List.map_append, List.filter_append, List.filter_append, ih, List.map_cons, List.flatten_cons]
    congr 1
    simp [compFlowRes, flowRes, Function.comp_def, List.filter_map, List.filter_append, List.filter_filter]

theorem here_in (σ : Assignment) (n : Nat) (cs : List Comp) (b : String) :
    ((((cs.map fun c => (compFlowRes σ n c).map fun f => (f.labelFull, f)).flatten.map (·.2)).filter fun f => decide (f.bus = b)).filter (·.isInput)) =
      (cs.map fun c => (c.inputs.filter fun f => f.bus = b).map (flowRes σ n c.label true)).flatten := by
  induction cs with
  | nil => rfl
  | cons c cs ih =>
    rw [List.map_cons, List.flatten_cons, List.map_append, List.filter_append, List.filter_append, ih, List.map_cons, List.flatten_cons]
    congr 1
    simp [compFlowRes, flowRes, Function.comp_def, List.filter_map, List.filter_append, List.filter_filter]

/-- Columns before they become a table. -/
def asArr (xs : List (String × List ℚ)) : List (String × RTree) := xs.map fun q => (q.1, .arr q.2)

theorem side_columns {σ : Assignment} {n : Nat} (hn : 1 < n) (k : ℚ) (i : Bool) (side : Comp → List FlowData) (s : System) (b : String) :
    ((s.comps.map fun c => ((side c).filter fun f => f.bus = b).map (flowRes σ n c.label i)).flatten).mapM (FlowRes.column k) = .ok (asArr (sideCols side σ n s b k)) := by
  rw [mapM_eq (g := fun f => (f.labelFull, .arr (colVals σ n (f.labelFull ++ "_flow_rate") k)))]
  · simp [asArr, sideCols, sideLabels, List.map_flatten, Function.comp_def, flowRes]
  · intro f hf
    obtain ⟨l, hl, hf⟩ := List.mem_flatten.1 hf
    obtain ⟨c, _, rfl⟩ := List.mem_map.1 hl
    obtain ⟨g, _, rfl⟩ := List.mem_map.1 hf
    exact column_eq hn k c.label i g

theorem excess_columns {σ : Assignment} {n : Nat} (hn : 1 < n) (b : BusData) (var key : String) (k : ℚ) :
    excessColumn σ n b var key k = .ok (asArr (exCols σ n b var key k)) := by
  unfold excessColumn exCols
  cases b.excessPenalty with
  | none => rfl
  | some p => simp only [scaled_series hn, ok_bind]; rfl

theorem side_sublist (s : System) (b : String) : (sideLabels Comp.inputs s b).Sublist ((s.comps.map fun c => c.flows.map fun f => c.label ++ "__" ++ f.label).flatten) ∧
    (sideLabels Comp.outputs s b).Sublist ((s.comps.map fun c => c.flows.map fun f => c.label ++ "__" ++ f.label).flatten) := by
  unfold sideLabels
  generalize s.comps = cs
  induction cs with
  | nil => exact ⟨List.Sublist.refl _, List.Sublist.refl _⟩
  | cons c cs ih =>
    simp only [List.map_cons, List.flatten_cons]
    refine ⟨List.Sublist.append (List.Sublist.map _ ?_) ih.1, List.Sublist.append (List.Sublist.map _ ?_) ih.2⟩
    · exact List.filter_sublist.trans (List.sublist_append_left _ _)
    · exact List.filter_sublist.trans (List.sublist_append_right _ _)

theorem both_sides_sublist (s : System) (b : String) : (sideLabels Comp.outputs s b ++ sideLabels Comp.inputs s b).Perm
    ((s.comps.map fun c => ((c.inputs.filter fun f => f.bus = b) ++ c.outputs.filter fun f => f.bus = b).map fun f => c.label ++ "__" ++ f.label).flatten) := by
  unfold sideLabels
  generalize s.comps = cs
  induction cs with
  | nil => exact List.Perm.refl _
  | cons c cs ih =>
    simp only [List.map_cons, List.flatten_cons, List.map_append] at ih ⊢
    refine List.Perm.trans ?_ (List.Perm.append_left _ ih)
    generalize List.map (fun f : FlowData => c.label ++ "__" ++ f.label) (c.outputs.filter fun f => f.bus = b) = x1
    generalize List.map (fun f : FlowData => c.label ++ "__" ++ f.label) (c.inputs.filter fun f => f.bus = b) = x2
    generalize (cs.map fun c => (c.outputs.filter fun f => f.bus = b).map fun f => c.label ++ "__" ++ f.label).flatten = y1
    generalize (cs.map fun c => (c.inputs.filter fun f => f.bus = b).map fun f => c.label ++ "__" ++ f.label).flatten = y2
    rw [List.perm_iff_count]
    intro a
    simp only [List.count_append]
    omega

theorem sides_nodup {s : System} (hn : ((s.comps.map fun c => c.flows.map fun f => c.label ++ "__" ++ f.label).flatten).Nodup) (b : String) :
    (sideLabels Comp.outputs s b ++ sideLabels Comp.inputs s b).Nodup := by
  rw [(both_sides_sublist s b).nodup_iff]
  refine List.Nodup.sublist ?_ hn
  generalize s.comps = cs
  induction cs with
  | nil => exact List.Sublist.refl _
  | cons c cs ih =>
    simp only [List.map_cons, List.flatten_cons]
    exact ((List.filter_sublist.append List.filter_sublist).map _).append ih

theorem sideLabels_full {side : Comp → List FlowData} {s : System} {b l : String} (h : l ∈ sideLabels side s b) : ∃ x y, l = x ++ "__" ++ y := by
  obtain ⟨ls, hls, hl⟩ := List.mem_flatten.1 h
  obtain ⟨c, _, rfl⟩ := List.mem_map.1 hls
  obtain ⟨f, _, rfl⟩ := List.mem_map.1 hl
  exact ⟨_, _, rfl⟩

/-- The table of a bus in closed form. -/
def tableCols (σ : Assignment) (n : Nat) (s : System) (b : BusData) (ki ko : ℚ) : List (String × List ℚ) :=
  (sideCols Comp.outputs σ n s b.label ki ++ exCols σ n b "excess_input" "Excess Input" ki) ++
  (sideCols Comp.inputs σ n s b.label ko ++ exCols σ n b "excess_output" "Excess Output" ko)

theorem exCols_keys (σ : Assignment) (n : Nat) (b : BusData) (var key : String) (k : ℚ) : ((exCols σ n b var key k).map (·.1)).Sublist [key] := by
  unfold exCols
  split
  · exact List.Sublist.refl _
  · exact List.nil_sublist _

theorem tableCols_nodup {s : System} (hn : ((s.comps.map fun c => c.flows.map fun f => c.label ++ "__" ++ f.label).flatten).Nodup) (σ : Assignment) (n : Nat) (b : BusData) (ki ko : ℚ) :
    ((tableCols σ n s b ki ko).map (·.1)).Nodup := by
  have h1 := sides_nodup hn b.label
  have i1 : ¬ ['_', '_'] <:+: ("Excess Input" : String).toList := by decide +kernel
  have i2 : ¬ ['_', '_'] <:+: ("Excess Output" : String).toList := by decide +kernel
  have h2 : ((sideLabels Comp.outputs s b.label ++ ["Excess Input"]) ++ (sideLabels Comp.inputs s b.label ++ ["Excess Output"])).Nodup := by
    have p : ((sideLabels Comp.outputs s b.label ++ ["Excess Input"]) ++ (sideLabels Comp.inputs s b.label ++ ["Excess Output"])).Perm
        (["Excess Input", "Excess Output"] ++ (sideLabels Comp.outputs s b.label ++ sideLabels Comp.inputs s b.label)) := by
      rw [List.perm_iff_count]
      intro a
      simp only [List.count_append, List.count_cons, List.count_nil]
      omega
    rw [p.nodup_iff, List.nodup_append]
    refine ⟨by decide +kernel, h1, ?_⟩
    intro a ha c hc e
    subst e
    have : ∃ x y, a = x ++ "__" ++ y := by
      rcases List.mem_append.1 hc with hc | hc <;> exact sideLabels_full hc
    obtain ⟨x, y, e⟩ := this
    simp only [List.mem_cons, List.not_mem_nil, or_false] at ha
    rcases ha with rfl | rfl
    · exact full_ne_of_plain i1 e.symm
    · exact full_ne_of_plain i2 e.symm
  refine List.Nodup.sublist ?_ h2
  unfold tableCols
  simp only [List.map_append]
  have e : ∀ (side : Comp → List FlowData) (k : ℚ), (sideCols side σ n s b.label k).map (·.1) = sideLabels side s b.label := by
    intro side k
    simp [sideCols, Function.comp_def]
  rw [e, e]
  exact ((List.Sublist.refl _).append (exCols_keys _ _ _ _ _ _)).append ((List.Sublist.refl _).append (exCols_keys _ _ _ _ _ _))

theorem tableCols_length (σ : Assignment) (n : Nat) (s : System) (b : BusData) (ki ko : ℚ) : ∀ q ∈ tableCols σ n s b ki ko, q.2.length = n := by
  intro q hq
  simp only [tableCols, List.mem_append, sideCols, List.mem_map, exCols] at hq
  rcases hq with (⟨l, _, rfl⟩ | hq) | (⟨l, _, rfl⟩ | hq)
  · simp [colVals]
  · split at hq <;> simp_all [colVals]
  · simp [colVals]
  · split at hq <;> simp_all [colVals]

theorem busTable_eq (cfg : Cfg) (σ : Assignment) {n : Nat} (hn1 : 1 < n) {s : System} (hl : (s.comps.map Comp.label).Nodup)
    (hn : ((s.comps.map fun c => c.flows.map fun f => c.label ++ "__" ++ f.label).flatten).Nodup) (hr : ∀ c ∈ s.comps, ∀ f ∈ c.flows, f.label ∉ reserved) (b : BusData) (ki ko : ℚ) :
    busTable cfg σ n s b (some ki) (some ko) = .ok (tableCols σ n s b ki ko) := by
  have hnd := tableCols_nodup hn σ n b ki ko
  have e0 : ∀ xs : List (String × List ℚ), (asArr xs).map (·.1) = xs.map (·.1) := fun xs => by simp [asArr, Function.comp_def]
  have ea : ∀ xs ys : List (String × List ℚ), asArr xs ++ asArr ys = asArr (xs ++ ys) := fun xs ys => by simp [asArr]
  have n1 : ((sideCols Comp.outputs σ n s b.label ki ++ exCols σ n b "excess_input" "Excess Input" ki).map (·.1)).Nodup := by
    refine List.Nodup.sublist ?_ hnd
    exact (List.sublist_append_left _ _).map _
  have n2 : ((sideCols Comp.inputs σ n s b.label ko ++ exCols σ n b "excess_output" "Excess Output" ko).map (·.1)).Nodup := by
    refine List.Nodup.sublist ?_ hnd
    exact (List.sublist_append_right _ _).map _
  unfold busTable
  rw [allFlowResults_eq cfg σ n hl hn hr, ok_bind]
  simp only [Option.elim]
  rw [here_out, here_in, side_columns hn1, side_columns hn1, excess_columns hn1, excess_columns hn1]
  simp only [ok_bind, except_pure, ea]
  rw [pyUpdate_new (d := []) (by rw [List.nil_append, e0]; exact n1), pyUpdate_new (d := []) (by rw [List.nil_append, e0]; exact n2), List.nil_append, List.nil_append,
    pyUpdate_new (by rw [ea, e0]; exact hnd), ea]
  exact dataFrame_eq (tableCols_length σ n s b ki ko)

/-! ## C58 -/

/-- The sum of a row. -/
def rowSum (df : List (String × List ℚ)) (t : Nat) : ℚ := (df.map fun q => q.2.getD t 0).sum

theorem rowSum_append (a b : List (String × List ℚ)) (t : Nat) : rowSum (a ++ b) t = rowSum a t + rowSum b t := by simp [rowSum]

theorem colVals_get {σ : Assignment} {n t : Nat} (ht : t < n) (l : String) (k : ℚ) : (colVals σ n l k).getD t 0 = σ l t * k := by
  simp [colVals, List.getD_eq_getElem?_getD, ht]

theorem rowSum_side {σ : Assignment} {n t : Nat} (ht : t < n) (side : Comp → List FlowData) (s : System) (b : String) (k : ℚ) :
    rowSum (sideCols side σ n s b k) t =
      (s.comps.map fun c => (((side c).filter fun f => f.bus = b).map fun f => σ (c.label ++ "__" ++ f.label ++ "_" ++ "flow_rate") t).sum).sum * k := by
  have e : ∀ l : String, l ++ "_flow_rate" = l ++ "_" ++ "flow_rate" := by
    intro l
    rw [String.append_assoc, show "_" ++ "flow_rate" = "_flow_rate" by decide +kernel]
  simp only [rowSum, sideCols, List.map_map, Function.comp_def, colVals_get ht, e, sideLabels]
  generalize s.comps = cs
  induction cs with
  | nil => simp
  | cons c cs ih =>
    simp only [List.map_cons, List.flatten_cons, List.map_append, List.sum_append, List.sum_cons, ih, add_mul, List.map_map, Function.comp_def]
    rw [List.sum_map_mul_right]

/-- **C58 (partial).**  More than one time step, components with distinct labels, no flow labelled like a sub model of components: the table
of a bus has a column for each flow at the bus, with the values of the solution (inputs of the bus negative), and in every row it sums to
zero.  Missing: one time step (`C58_single_wrong`), flows labelled "OnOff" and the like (`C58_label_wrong`). -/
theorem C58_partial (hv : sys.Valid) (h : systemModel sys s = .ok o) (hs : o.solver.Solves σ) {b : BusData} (hb : b ∈ s.buses)
    (hp : ∀ pen, b.excessPenalty = some pen → pen.Fits sys.n) (hn : 1 < sys.n) (hl : (s.comps.map Comp.label).Nodup)
    (hr : ∀ c ∈ s.comps, ∀ f ∈ c.flows, f.label ∉ ["OnOff", "PreventSimultaneousUsage", "MultipleSegments", "Investment"]) :
    ∃ df, busTable sys.cfg σ sys.n s b (some (-1)) (some 1) = .ok df ∧ (∀ q ∈ df, q.2.length = sys.n) ∧
      (∀ c ∈ s.comps, ∀ f ∈ c.outputs, f.bus = b.label → (c.label ++ "__" ++ f.label, (List.range sys.n).map fun t => σ (c.label ++ "__" ++ f.label ++ "_flow_rate") t * -1) ∈ df) ∧
      (∀ c ∈ s.comps, ∀ f ∈ c.inputs, f.bus = b.label → (c.label ++ "__" ++ f.label, (List.range sys.n).map fun t => σ (c.label ++ "__" ++ f.label ++ "_flow_rate") t * 1) ∈ df) ∧
      ∀ t < sys.n, rowSum df t = 0 := by
  refine ⟨_, busTable_eq sys.cfg σ hn hl (flows_nodup h) hr b _ _, tableCols_length _ _ _ _ _ _, ?_, ?_, ?_⟩
  · intro c hc f hf hfb
    refine List.mem_append_left _ (List.mem_append_left _ (List.mem_map.2 ⟨_, List.mem_flatten.2 ⟨_, List.mem_map.2 ⟨c, hc, rfl⟩, List.mem_map.2 ⟨f, ?_, rfl⟩⟩, rfl⟩))
    simpa using ⟨hf, hfb⟩
  · intro c hc f hf hfb
    refine List.mem_append_right _ (List.mem_append_left _ (List.mem_map.2 ⟨_, List.mem_flatten.2 ⟨_, List.mem_map.2 ⟨c, hc, rfl⟩, List.mem_map.2 ⟨f, ?_, rfl⟩⟩, rfl⟩))
    simpa using ⟨hf, hfb⟩
  · intro t ht
    obtain ⟨c1, c2⟩ := C27_system hv h hs hb
    simp only [tableCols, rowSum_append, rowSum_side ht]
    cases he : b.excessPenalty with
    | none =>
      have := c1 he t ht
      unfold fedInto takenFrom at this
      rw [this]
      simp [exCols, he, rowSum]
    | some pen =>
      have := (c2 pen he (hp pen he) t ht).1
      unfold fedInto takenFrom at this
      simp only [exCols, he, Option.isSome_some, if_true, rowSum, List.map_cons, List.map_nil, List.sum_cons, List.sum_nil, colVals_get ht, add_zero]
      linarith

/-- **C58 (threshold).**  Leaving out columns that nowhere exceed the threshold changes the sum of a row by at most the threshold for each
of them. -/
theorem C58_threshold {thr : ℚ} (h0 : 0 ≤ thr) (df : List (String × List ℚ)) (t : Nat) :
    |rowSum df t - rowSum (aboveThreshold thr df) t| ≤ ((df.length : ℚ) - (aboveThreshold thr df).length) * thr := by
  induction df with
  | nil => simp [aboveThreshold, rowSum]
  | cons q df ih =>
    unfold aboveThreshold at ih ⊢
    rw [List.filter_cons]
    split
    · simp only [rowSum, List.map_cons, List.sum_cons, List.length_cons, Nat.cast_add, Nat.cast_one] at ih ⊢
      rw [add_sub_add_left_eq_sub]
      convert ih using 2
      ring
    · rename_i hq
      have hx : |q.2.getD t 0| ≤ thr := by
        rw [List.getD_eq_getElem?_getD]
        cases he : q.2[t]? with
        | none => simpa using h0
        | some x =>
          simp only [List.any_eq_true, Bool.or_eq_true, decide_eq_true_eq, not_exists, not_and, not_or, not_lt] at hq
          obtain ⟨h1, h2⟩ := hq x (List.mem_of_getElem? he)
          exact abs_le.2 ⟨h2, h1⟩
      simp only [rowSum, List.map_cons, List.sum_cons, List.length_cons, Nat.cast_add, Nat.cast_one] at ih ⊢
      rw [add_sub_assoc]
      refine (abs_add_le _ _).trans ((add_le_add hx ih).trans (le_of_eq ?_))
      ring

/-! ## C67 -/

/-- **C67 (flows, partial).**  In the results of a component of an accepted model every flow that is not labelled like a sub model of components
has the values of its flow rate.  Missing: such labels (`C67_flow_wrong`). -/
theorem C67_flows_partial (h : systemModel sys s = .ok o) {c : Comp} (hc : c ∈ s.comps)
    (hr : ∀ f ∈ c.flows, f.label ∉ ["OnOff", "PreventSimultaneousUsage", "MultipleSegments", "Investment"]) {f : FlowData} (hf : f ∈ c.flows) :
    dictGet ((c.res sys.cfg sys.n).results σ sys.n) f.label =
      .ok (.dict [("flow_rate", varResult ((List.range sys.n).map (σ (c.label ++ "__" ++ f.label ++ "_flow_rate"))))]) := by
  have := (List.nodup_flatten.1 (flows_nodup h)).1 _ (List.mem_map.2 ⟨c, hc, rfl⟩)
  have e : (c.flows.map fun f => c.label ++ "__" ++ f.label) = (c.flows.map (·.label)).map (c.label ++ "__" ++ ·) := by rw [List.map_map]; rfl
  rw [e] at this
  exact results_flow sys.cfg σ sys.n this.of_map hr hf

/-- **C67 (storages, partial).**  The results of a storage hold its charge states and its net discharge unless a flow has one of these labels.
Missing: such labels (`C67_storage_wrong`). -/
theorem C67_storage_partial (st : StorageData) (n : Nat) (cfg : Cfg) (h1 : st.charging.label ∉ ["charge_state", "netto_discharge"])
    (h2 : st.discharging.label ∉ ["charge_state", "netto_discharge"]) :
    dictGet (((Comp.storage st).res cfg n).results σ n) "charge_state" = .ok (varResult ((List.range (n + 1)).map (σ (st.label ++ "_charge_state")))) ∧
    dictGet (((Comp.storage st).res cfg n).results σ n) "netto_discharge" = .ok (varResult ((List.range n).map (σ (st.label ++ "_netto_discharge")))) := by
  have ho := others_reserved cfg n (.storage st)
  have hk : ∀ l ∈ ["charge_state", "netto_discharge"], l ∉ reserved := by decide +kernel
  have e1 : st.label ++ "_" ++ "charge_state" = st.label ++ "_charge_state" := by
    rw [String.append_assoc, show "_" ++ "charge_state" = "_charge_state" by decide +kernel]
  have e2 : st.label ++ "_" ++ "netto_discharge" = st.label ++ "_netto_discharge" := by
    rw [String.append_assoc, show "_" ++ "netto_discharge" = "_netto_discharge" by decide +kernel]
  have hne : ("charge_state" : String) ≠ "netto_discharge" := by decide +kernel
  simp only [List.mem_cons, List.not_mem_nil, or_false, not_or] at h1 h2
  constructor
  · have : pyLookup (((Comp.storage st).res cfg n).results σ n) "charge_state" = some (seriesResult σ (n + 1) (st.label ++ "_" ++ "charge_state")) := by
      refine pyLookup_pyUpdate_last [] [] ?_
      simp only [List.append_eq, List.map_append, List.map_map, List.mem_append, not_or]
      refine ⟨⟨by simpa using hne, by simpa [Comp.res] using Ne.symm h1.1, by simpa [Comp.res] using Ne.symm h2.1⟩, ?_⟩
      · intro hm
        obtain ⟨l, hl, e⟩ := List.mem_map.1 hm
        simp only [Function.comp] at e
        subst e
        exact hk _ (by simp) (ho _ hl)
    rw [pyLookup_eq, e1] at this
    simp only [dictGet, this, seriesResult]
  · have : pyLookup (((Comp.storage st).res cfg n).results σ n) "netto_discharge" = some (seriesResult σ n (st.label ++ "_" ++ "netto_discharge")) := by
      refine pyLookup_pyUpdate_last [] [("charge_state", _)] ?_
      simp only [List.append_eq, List.map_append, List.map_map, List.mem_append, not_or]
      refine ⟨⟨by simp, by simpa [Comp.res] using Ne.symm h1.2, by simpa [Comp.res] using Ne.symm h2.2⟩, ?_⟩
      · intro hm
        obtain ⟨l, hl, e⟩ := List.mem_map.1 hm
        simp only [Function.comp] at e
        subst e
        exact hk _ (by simp) (ho _ hl)
    rw [pyLookup_eq, e2] at this
    simp only [dictGet, this, seriesResult]

/-! ## Examples and counterexamples -/

/-- The hypotheses are met, with excess. -/
example : ∃ o, systemModel exSys exSystem = .ok o ∧ o.solver.Solves exSystemSol ∧ 1 < exSys.n ∧ (exSystem.comps.map Comp.label).Nodup ∧
    (∀ c ∈ exSystem.comps, ∀ f ∈ c.flows, f.label ∉ ["OnOff", "PreventSimultaneousUsage", "MultipleSegments", "Investment"]) ∧
    busTable exSys.cfg exSystemSol exSys.n exSystem ⟨"heat", some (.s 100)⟩ (some (-1)) (some 1) =
      .ok [("Boiler__th", [-2, -4, -1]), ("Excess Input", [0, 0, 0]), ("Load__Q", [2, 4, 0]), ("Excess Output", [0, 0, 1])] := by
  obtain ⟨o, h, hs⟩ := exSystem_ok
  exact ⟨o, h, hs, by decide, by decide +kernel, by decide +kernel, by decide +kernel⟩

/-- One time step. -/
def exSingleSys : Sys := { n := 1, dt := [1], total := 1, prevDt := .s 1, cfg := exCfg }

def exSingleOut : FlowData := { label := "Q", bus := "el", size := .num 10 }

def exSingleSystem : System :=
  { effects := [{ label := "costs", isStandard := true, isObjective := true }]
    comps := [.plain { label := "Gen", inputs := [], outputs := [exSingleOut] }, .plain { label := "Load", inputs := [exSingleOut], outputs := [] }]
    buses := [{ label := "el", excessPenalty := none }] }

/-- **C58 fails** for one time step: results are numbers, and a table of numbers is refused. -/
theorem C58_single_wrong : (∃ o, systemModel exSingleSys exSingleSystem = .ok o ∧ o.solver.Solves (tableSol [])) ∧
    busTable exSingleSys.cfg (tableSol []) exSingleSys.n exSingleSystem ⟨"el", none⟩ (some (-1)) (some 1) = .error .value := by
  refine ⟨?_, by decide +kernel⟩
  obtain ⟨o, h, hs⟩ := builds_and_solves (σ := tableSol []) (r := systemModel exSingleSys exSingleSystem)
    (f := fun o : SysOut => MTree.node o.solver.vars o.solver.cons []) (by decide +kernel)
  exact ⟨o, h, hs.1, hs.2.1⟩

def exNamedOut : FlowData := { label := "OnOff", bus := "el", size := .num 10 }

/-- A component with on/off parameters and a flow labelled "OnOff". -/
def exNamedSystem : System :=
  { effects := [{ label := "costs", isStandard := true, isObjective := true }]
    comps := [.plain { label := "Gen", inputs := [], outputs := [exNamedOut], onOff := some {} }, .plain { label := "Load", inputs := [exSingleOut], outputs := [] }]
    buses := [{ label := "el", excessPenalty := none }] }

/-- **C58 fails** for a flow labelled "OnOff" at a component with on/off parameters: the model is accepted and solved, but the results of the
flow are overwritten and the table raises a `KeyError`. -/
theorem C58_label_wrong : (∃ o, systemModel exSys exNamedSystem = .ok o ∧ o.solver.Solves (tableSol [])) ∧
    busTable exSys.cfg (tableSol []) exSys.n exNamedSystem ⟨"el", none⟩ (some (-1)) (some 1) = .error .key := by
  refine ⟨?_, by decide +kernel⟩
  obtain ⟨o, h, hs⟩ := builds_and_solves (σ := tableSol []) (r := systemModel exSys exNamedSystem)
    (f := fun o : SysOut => MTree.node o.solver.vars o.solver.cons []) (by decide +kernel)
  exact ⟨o, h, hs.1, hs.2.1⟩

example : ∃ st : StorageData, st.charging.label ∉ ["charge_state", "netto_discharge"] ∧ st.discharging.label ∉ ["charge_state", "netto_discharge"] :=
  ⟨{ label := "St", charging := { label := "in" }, discharging := { label := "out" }, capacity := .num 5 }, by decide +kernel, by decide +kernel⟩

/-- **C67 fails** for a flow labelled "OnOff" at a component with on/off parameters: in the results the flow rate is missing. -/
theorem C67_flow_wrong : ∃ c ∈ exNamedSystem.comps, ∃ f ∈ c.flows, dictGet ((c.res exSys.cfg exSys.n).results (tableSol []) exSys.n) f.label = .ok (.dict []) :=
  ⟨_, List.mem_cons_self, exNamedOut, List.mem_cons_self, rfl⟩

/-- A storage with a charging flow labelled like its charge state. -/
def exNamedStorage : StorageData :=
  { label := "St", charging := { label := "charge_state", bus := "el", size := .num 10 }, discharging := { label := "out", bus := "el", size := .num 10 }, capacity := .num 5,
    preventSimultaneous := false }

def exStorageSystem : System :=
  { effects := [{ label := "costs", isStandard := true, isObjective := true }]
    comps := [.storage exNamedStorage]
    buses := [{ label := "el", excessPenalty := none }] }

/-- **C67 fails** for a storage with a flow labelled "charge_state": the model is accepted and solved, but the charge states are not in the
results. -/
theorem C67_storage_wrong : (∃ o, systemModel exSys exStorageSystem = .ok o ∧ o.solver.Solves (tableSol [])) ∧ ∀ σ n cfg,
    dictGet (((Comp.storage exNamedStorage).res cfg n).results σ n) "charge_state" = .ok (flowResult σ n "St" "charge_state") := by
  refine ⟨?_, fun σ n cfg => ?_⟩
  · obtain ⟨o, h, hs⟩ := builds_and_solves (σ := tableSol []) (r := systemModel exSys exStorageSystem)
      (f := fun o : SysOut => MTree.node o.solver.vars o.solver.cons []) (by decide +kernel)
    exact ⟨o, h, hs.1, hs.2.1⟩
  · rfl

end Flix
