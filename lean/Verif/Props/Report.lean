import Verif.Lemmas.ReportOnly
import Verif.Lemmas.Check
import Verif.Props.WindowEx
import Verif.Props.Sensible
import Verif.Props.Tables

/-!
# C100, C101: reported results and descriptions contain every variable and every constraint
-/

namespace Flix

/-! ## Trees of all elements -/

theorem compModels_forall {sys : Sys} {s : System} {o : SysOut} {P : Comp → CompOut → Prop} (h : List.Forall₂ P s.comps o.comps) {oc : CompOut}
    (ho : oc ∈ o.comps) : ∃ c ∈ s.comps, P c oc ∧ (Comp.shape sys.cfg c).annotate oc.tree ∈ o.compModels sys.cfg s := by
  unfold SysOut.compModels
  generalize s.comps = cs at h
  generalize o.comps = os at h ho
  induction h with
  | nil => cases ho
  | @cons c x cs os hcx _ ih =>
    rcases List.mem_cons.1 ho with rfl | ho
    · exact ⟨c, by simp, hcx, by simp⟩
    · obtain ⟨c', h1, h2, h3⟩ := ih ho
      exact ⟨c', by simp [h1], h2, by simp [h3]⟩

theorem busModels_forall {s : System} {o : SysOut} {P : BusData → BusOut → Prop} (h : List.Forall₂ P s.buses o.buses) {ob : BusOut}
    (ho : ob ∈ o.buses) : ∃ b ∈ s.buses, P b ob ∧ b.shape.annotate ob.tree ∈ o.busModels s := by
  unfold SysOut.busModels
  generalize s.buses = cs at h
  generalize o.buses = os at h ho
  induction h with
  | nil => cases ho
  | @cons c x cs os hcx _ ih =>
    rcases List.mem_cons.1 ho with rfl | ho
    · exact ⟨c, by simp, hcx, by simp⟩
    · obtain ⟨c', h1, h2, h3⟩ := ih ho
      exact ⟨c', by simp [h1], h2, by simp [h3]⟩

theorem comp_shape_key (cfg : Cfg) (c : Comp) : (Comp.shape cfg c).key = c.label := by cases c <;> rfl

theorem compModels_keys {sys : Sys} {s : System} {o : SysOut} {P : Comp → CompOut → Prop} (h : List.Forall₂ P s.comps o.comps) :
    (o.compModels sys.cfg s).map NTree.key = s.comps.map Comp.label := by
  unfold SysOut.compModels
  generalize s.comps = cs at h
  generalize o.comps = os at h
  induction h with
  | nil => rfl
  | cons _ _ ih => simp [annotate_key, comp_shape_key, ih]

theorem busModels_keys {s : System} {o : SysOut} {P : BusData → BusOut → Prop} (h : List.Forall₂ P s.buses o.buses) :
    (o.busModels s).map NTree.key = s.buses.map (·.label) := by
  unfold SysOut.busModels
  generalize s.buses = cs at h
  generalize o.buses = os at h
  induction h with
  | nil => rfl
  | cons _ _ ih =>
    rw [List.zipWith_cons_cons, List.map_cons, List.map_cons, annotate_key, ih]
    rfl

theorem forall₂_and' {α β : Type} {R S : α → β → Prop} {l : List α} {r : List β} (h : List.Forall₂ R l r) (h' : List.Forall₂ S l r) :
    List.Forall₂ (fun a b => R a b ∧ S a b) l r := by
  induction h with
  | nil => exact .nil
  | cons h1 _ ih =>
    cases h' with
    | cons h2 h3 => exact .cons ⟨h1, h2⟩ (ih h3)

/-- The three groups of results. -/
theorem results_groups (sys : Sys) (s : System) (o : SysOut) (σ : Assignment) (objective : ℚ) (p : List String) :
    (o.results sys s σ objective).get ("Components" :: p) = (RTree.dict (pyUpdate [] (NTree.subResults σ (o.compModels sys.cfg s)))).get p ∧
    (o.results sys s σ objective).get ("Effects" :: p) = ((o.collModel s).results σ).get p ∧
    (o.results sys s σ objective).get ("Buses" :: p) = (RTree.dict (pyUpdate [] (NTree.subResults σ (o.busModels s)))).get p := by
  unfold SysOut.results
  simp only [RTree.get_dict]
  exact ⟨rfl, rfl, rfl⟩

theorem subResults_get {ts : List NTree} (hk : (ts.map NTree.key).Nodup) {t : NTree} (ht : t ∈ ts) (σ : Assignment) (p : List String) :
    (RTree.dict (pyUpdate [] (NTree.subResults σ ts))).get (t.key :: p) = (t.results σ).get p := by
  rw [RTree.get_dict, pyUpdate_nil_new (by rwa [subResults_keys]),
    lookup_of_mem' (by rwa [subResults_keys]) (v := t.results σ) (by rw [subResults_eq]; exact List.mem_map.2 ⟨t, ht, rfl⟩)]
  rfl

theorem describeAll_get {α : Type} (own : NTree → List α) {ts : List NTree} (hk : (ts.map NTree.key).Nodup) {t : NTree} (ht : t ∈ ts) (p : List String) :
    (DTree.dict (pyUpdate [] (NTree.describeAll own ts))).get (t.key :: p) = (t.describe own).get p := by
  rw [DTree.get, pyUpdate_nil_new (by rwa [describeAll_keys]),
    lookup_of_mem' (by rwa [describeAll_keys]) (v := t.describe own) (by rw [describeAll_eq]; exact List.mem_map.2 ⟨t, ht, rfl⟩)]
  rfl

theorem labels_keys {s : System} (hr : s.Reportable) : (s.comps.map Comp.label).Nodup ∧ (s.buses.map (·.label)).Nodup := by
  have h := hr.distinct
  unfold System.labels at h
  have h' := (List.nodup_append.1 h).1
  exact ⟨(List.nodup_append.1 h').1, (List.nodup_append.1 h').2.1⟩

/-- Every variable and every constraint of the solver's model belongs to a model of the effects, of a component or of a bus. -/
theorem solver_nodes {sys : Sys} {s : System} {o : SysOut} (h : systemModel sys s = .ok o) (m : MTree)
    (hm : m ∈ MTree.nodesAll (o.coll.tree :: o.comps.map CompOut.tree ++ o.buses.map (·.tree))) :
    m ∈ o.coll.tree.nodes ∨ (∃ oc ∈ o.comps, m ∈ oc.tree.nodes) ∨ ∃ ob ∈ o.buses, m ∈ ob.tree.nodes := by
  obtain ⟨t, ht, hm⟩ := mem_nodesAll.1 hm
  rcases List.mem_append.1 ht with ht | ht
  · rcases List.mem_cons.1 ht with rfl | ht
    · exact Or.inl hm
    · obtain ⟨oc, hoc, rfl⟩ := List.mem_map.1 ht
      exact Or.inr (Or.inl ⟨oc, hoc, hm⟩)
  · obtain ⟨ob, hob, rfl⟩ := List.mem_map.1 ht
    exact Or.inr (Or.inr ⟨ob, hob, hm⟩)

/-- A place that holds in a component holds in the system. -/
theorem comp_place {sys : Sys} {s : System} {o : SysOut} (hr : s.Reportable) (h : systemModel sys s = .ok o) {c : Comp} {oc : CompOut}
    (hm : (Comp.shape sys.cfg c).annotate oc.tree ∈ o.compModels sys.cfg s) (hg : Good (Comp.shape sys.cfg c) oc.tree) {p : List String} {x : Var}
    (hx : ((Comp.shape sys.cfg c).annotate oc.tree).HasAt p x) (σ : Assignment) (objective : ℚ) :
    (o.results sys s σ objective).get ("Components" :: c.label :: p) = some (seriesResult σ x.length x.label) := by
  obtain ⟨-, g2, -⟩ := good_system hr h
  rw [(results_groups sys s o σ objective _).1]
  have hk : ((o.compModels sys.cfg s).map NTree.key).Nodup := by
    rw [compModels_keys g2]
    exact (labels_keys hr).1
  have := subResults_get hk hm σ p
  rw [annotate_key, comp_shape_key] at this
  rw [this, results_get hx hg.clean]

/-! ## C100 -/

/-- **C100 (complete).**  In the results of an accepted model every variable of the solver's model has its own place, at which the results
contain its value, an array or for one value a number. -/
theorem C100_complete_partial {sys : Sys} {s : System} {o : SysOut} (hr : s.Reportable) (h : systemModel sys s = .ok o) :
    ∀ x ∈ o.solver.vars, ∃ group ∈ ["Components", "Buses", "Effects"], ∃ p : List String, ∀ (σ : Assignment) (objective : ℚ),
      (o.results sys s σ objective).get (group :: p) = some (varResult ((List.range x.length).map (σ x.label))) := by
  intro x hx
  obtain ⟨h1, h2, h3, h4⟩ := system_inv h
  obtain ⟨g1, g2, g3⟩ := good_system hr h
  obtain ⟨m, hm, hxm⟩ := List.mem_flatMap.1 ((collectModel_perm h4).1.mem_iff.1 hx)
  rcases solver_nodes h m hm with hm | ⟨oc, hoc, hm⟩ | ⟨ob, hob, hm⟩
  · obtain ⟨p, hp⟩ := g1.has m hm x hxm
    refine ⟨"Effects", by simp, p, fun σ objective => ?_⟩
    rw [(results_groups sys s o σ objective p).2.1]
    exact results_get hp g1.clean σ
  · obtain ⟨c, -, hg, hcm⟩ := compModels_forall (sys := sys) g2 hoc
    obtain ⟨p, hp⟩ := hg.has m hm x hxm
    exact ⟨"Components", by simp, c.label :: p, fun σ objective => comp_place hr h hcm hg hp σ objective⟩
  · obtain ⟨b, -, hg, hbm⟩ := busModels_forall g3 hob
    obtain ⟨p, hp⟩ := hg.has m hm x hxm
    refine ⟨"Buses", by simp, b.label :: p, fun σ objective => ?_⟩
    rw [(results_groups sys s o σ objective _).2.2]
    have hk : ((o.busModels s).map NTree.key).Nodup := by
      rw [busModels_keys g3]
      exact (labels_keys hr).2
    have := subResults_get hk hbm σ p
    rw [annotate_key] at this
    exact this.trans (results_get hp hg.clean σ)

/-- **C100 (rest).**  The objective and the widths of all time steps are reported as they are. -/
theorem C100_rest {sys : Sys} {s : System} {o : SysOut} (σ : Assignment) (objective : ℚ) :
    (o.results sys s σ objective).get ["Objective"] = some (.scal objective) ∧ (o.results sys s σ objective).get ["Time intervals in hours"] = some (.arr sys.dt) := by
  unfold SysOut.results
  simp only [RTree.get_dict]
  exact ⟨rfl, rfl⟩

/-- **C100 (own place).**  Two variables with values do not share a place. -/
theorem C100_own_place {sys : Sys} {s : System} {o : SysOut} {x y : Var} (hx : 0 < x.length) (hxy : x.label ≠ y.label) {p : List String}
    (h1 : ∀ (σ : Assignment) (objective : ℚ), (o.results sys s σ objective).get p = some (varResult ((List.range x.length).map (σ x.label)))) :
    ¬∀ (σ : Assignment) (objective : ℚ), (o.results sys s σ objective).get p = some (varResult ((List.range y.length).map (σ y.label))) := by
  intro h2
  have e := (h1 (fun l _ => if l = x.label then 1 else 0) 0).symm.trans (h2 (fun l _ => if l = x.label then 1 else 0) 0)
  simp only [Option.some.injEq, ↓reduceIte, if_neg (Ne.symm hxy)] at e
  have hval : ∀ {a b : List ℚ}, varResult a = varResult b → a = b := by
    intro a b e
    unfold varResult at e
    split at e <;> split at e <;> simp_all
  have e' := hval e
  have hl : x.length = y.length := by simpa using congrArg List.length e'
  have h0 := congrArg (fun l : List ℚ => l[0]?) e'
  rw [hl] at hx
  simp [hl, hx] at h0

/-- **C100 (nothing else).**  Every number and every array among the results of the components, buses and effects is the value of a variable
of the solver's model, for all names. -/
theorem C100_only {sys : Sys} {s : System} {o : SysOut} (h : systemModel sys s = .ok o) (σ : Assignment) (objective : ℚ) {group : String}
    (hgr : group ∈ ["Components", "Buses", "Effects"]) {p : List String} {r : RTree}
    (hp : (o.results sys s σ objective).get (group :: p) = some r) (hr : r.dict? = none) :
    ∃ x ∈ o.solver.vars, r = varResult ((List.range x.length).map (σ x.label)) := by
  obtain ⟨h1, h2, h3, h4⟩ := system_inv h
  have hin : ∀ {sh : NShape} {t : MTree}, t ∈ o.coll.tree :: o.comps.map CompOut.tree ++ o.buses.map (·.tree) →
      ∀ u ∈ (sh.annotate t).nodes, ∀ x ∈ u.vars, x ∈ o.solver.vars := by
    intro sh t ht u hu x hx
    obtain ⟨m, hm, e, -⟩ := annotate_nodes sh t u hu
    rw [e] at hx
    exact (collectModel_perm h4).1.mem_iff.2 (List.mem_flatMap.2 ⟨m, mem_nodesAll.2 ⟨t, ht, hm⟩, hx⟩)
  have hdict : ∀ {ts : List NTree} {p : List String}, (∀ t ∈ ts, ∀ u ∈ t.nodes, ∀ x ∈ u.vars, x ∈ o.solver.vars) →
      (RTree.dict (pyUpdate [] (NTree.subResults σ ts))).get p = some r → ∃ x ∈ o.solver.vars, r = varResult ((List.range x.length).map (σ x.label)) := by
    intro ts p hts hp
    cases p with
    | nil => rw [RTree.get_nil] at hp; cases hp; simp [RTree.dict?] at hr
    | cons k p =>
      rw [RTree.get_dict] at hp
      cases hl : (pyUpdate [] (NTree.subResults σ ts)).lookup k with
      | none => rw [hl] at hp; cases hp
      | some v =>
        rw [hl] at hp
        rcases mem_pyUpdate (lookup_mem hl) with hm | hm
        · cases hm
        · obtain ⟨u, hu, x, hx, e⟩ := subResults_only σ ts hm hp hr
          obtain ⟨t, ht, hu⟩ := NTree.mem_nodesAll.1 hu
          exact ⟨x, hts t ht u hu x hx, e⟩
  obtain ⟨r1, r2, r3⟩ := results_groups sys s o σ objective p
  simp only [List.mem_cons, List.not_mem_nil, or_false] at hgr
  rcases hgr with rfl | rfl | rfl
  · rw [r1] at hp
    refine hdict (fun t ht => ?_) hp
    obtain ⟨i, hi, rfl⟩ := List.mem_iff_getElem.1 ht
    simp only [SysOut.compModels, List.getElem_zipWith]
    exact hin (List.mem_append_left _ (List.mem_cons_of_mem _ (List.mem_map_of_mem (List.getElem_mem _))))
  · rw [r3] at hp
    refine hdict (fun t ht => ?_) hp
    obtain ⟨i, hi, rfl⟩ := List.mem_iff_getElem.1 ht
    simp only [SysOut.busModels, List.getElem_zipWith]
    exact hin (List.mem_append_right _ (List.mem_map_of_mem (f := fun b : BusOut => b.tree) (List.getElem_mem _)))
  · rw [r2] at hp
    obtain ⟨u, hu, x, hx, e⟩ := results_only σ _ hp hr
    exact ⟨x, hin (by simp) u hu x hx, e⟩

/-- **C100 (flows).**  The flow rate and the flow hours of every flow are found under the labels of the component and the flow. -/
theorem C100_flow_partial {sys : Sys} {s : System} {o : SysOut} (hr : s.Reportable) (h : systemModel sys s = .ok o) {c : Comp} (hc : c ∈ s.comps)
    {f : FlowData} (hf : f ∈ c.flows) (σ : Assignment) (objective : ℚ) :
    (o.results sys s σ objective).get ["Components", c.label, f.label, "flow_rate"] =
      some (varResult ((List.range sys.n).map (σ (c.label ++ "__" ++ f.label ++ "_flow_rate")))) ∧
    (o.results sys s σ objective).get ["Components", c.label, f.label, "sumFlowHours"] =
      some (.scal (σ (c.label ++ "__" ++ f.label ++ "_sumFlowHours") 0)) := by
  obtain ⟨h1, -, -, -⟩ := system_inv h
  obtain ⟨-, g2, -⟩ := good_system hr h
  obtain ⟨oc, -, ⟨hm, hg⟩, hz⟩ := forall₂_zipWith (forall₂_and' h1 g2) (f := fun c t => (Comp.shape sys.cfg c).annotate (CompOut.tree t)) hc
  obtain ⟨x, y, e1, e2, e3, e4, p1, p2⟩ := comp_flow_places hm hf
  refine ⟨?_, ?_⟩
  · rw [← e1, ← e2]
    exact comp_place hr h hz hg p1 σ objective
  · have := comp_place hr h hz hg p2 σ objective
    rw [this, e3, e4]
    rfl

/-- **C100 (storages).**  The charge state of a storage, one value more than steps, and its netto discharge are found under its label. -/
theorem C100_storage_partial {sys : Sys} {s : System} {o : SysOut} (hr : s.Reportable) (h : systemModel sys s = .ok o) {st : StorageData}
    (hc : Comp.storage st ∈ s.comps) (σ : Assignment) (objective : ℚ) :
    (o.results sys s σ objective).get ["Components", st.label, "charge_state"] =
      some (varResult ((List.range (sys.n + 1)).map (σ (st.label ++ "_charge_state")))) ∧
    (o.results sys s σ objective).get ["Components", st.label, "netto_discharge"] =
      some (varResult ((List.range sys.n).map (σ (st.label ++ "_netto_discharge")))) := by
  obtain ⟨h1, -, -, -⟩ := system_inv h
  obtain ⟨-, g2, -⟩ := good_system hr h
  obtain ⟨oc, -, ⟨hm, hg⟩, hz⟩ := forall₂_zipWith (forall₂_and' h1 g2) (f := fun c t => (Comp.shape sys.cfg c).annotate (CompOut.tree t)) hc
  obtain ⟨x, y, e1, e2, e3, e4, p1, p2⟩ := storage_places hm
  refine ⟨?_, ?_⟩
  · rw [← e1, ← e2]
    exact comp_place hr h hz hg p1 σ objective
  · rw [← e3]
    have := comp_place hr h hz hg p2 σ objective
    rw [e4] at this
    exact this

/-- **C100 (effects).**  The sums of every effect, for investments, for the operation and together, and the penalty are found under their labels. -/
theorem C100_effect_partial {sys : Sys} {s : System} {o : SysOut} (hr : s.Reportable) (h : systemModel sys s = .ok o) (σ : Assignment) (objective : ℚ) :
    (∀ e ∈ s.effects, ∀ k ∈ ["invest", "operation", "all"], (o.results sys s σ objective).get ["Effects", e.label, k, k ++ "_sum"] =
      some (.scal (σ (e.label ++ "__" ++ k ++ "_" ++ (k ++ "_sum")) 0))) ∧
    (o.results sys s σ objective).get ["Effects", "penalty", "penalty_sum"] = some (.scal (σ "Effects__penalty_penalty_sum" 0)) := by
  obtain ⟨-, -, h3, -⟩ := system_inv h
  obtain ⟨g1, -, -⟩ := good_system hr h
  obtain ⟨p1, p2⟩ := coll_places h3
  have key : ∀ {x : Var} {l : String} {p : List String}, x.label = l → x.length = 1 → ((collShape s.effects).annotate o.coll.tree).HasAt p x →
      (o.results sys s σ objective).get ("Effects" :: p) = some (.scal (σ l 0)) := by
    intro x l p e1 e2 hp
    rw [(results_groups sys s o σ objective p).2.1]
    have := results_get hp g1.clean σ
    rw [e1, e2] at this
    exact this
  refine ⟨fun e he k hk => ?_, ?_⟩
  · obtain ⟨x, e1, e2, e3⟩ := p1 e he k hk
    exact key e1 e2 e3
  · obtain ⟨x, e1, e2, e3⟩ := p2
    exact key e1 e2 e3

/-! ## C101 -/

theorem describe_groups {α : Type} (own : NTree → List α) (sys : Sys) (s : System) (o : SysOut) {rest1 rest2 : List (String × DTree α)}
    (h1 : "Effects" ∉ rest1.map (·.1)) {d : DTree α}
    (hd : d = .dict ([("Components", .dict (pyUpdate [] (NTree.describeAll own (o.compModels sys.cfg s)))),
      ("Buses", .dict (pyUpdate [] (NTree.describeAll own (o.busModels s))))] ++ rest1 ++ ("Effects", (o.collModel s).describe own) :: rest2)) (p : List String) :
    d.get ("Components" :: p) = (DTree.dict (pyUpdate [] (NTree.describeAll own (o.compModels sys.cfg s)))).get p ∧
    d.get ("Buses" :: p) = (DTree.dict (pyUpdate [] (NTree.describeAll own (o.busModels s)))).get p ∧
    d.get ("Effects" :: p) = ((o.collModel s).describe own).get p := by
  subst hd
  refine ⟨rfl, rfl, ?_⟩
  have : (rest1 ++ ("Effects", (o.collModel s).describe own) :: rest2).lookup "Effects" = some ((o.collModel s).describe own) := by
    induction rest1 with
    | nil => rfl
    | cons q qs ih =>
      simp only [List.map_cons, List.mem_cons, not_or] at h1
      rw [List.cons_append, List.lookup_cons, show ("Effects" == q.1) = false by simpa using h1.1]
      exact ih h1.2
  rw [DTree.get]
  simp only [List.cons_append, List.nil_append, List.lookup_cons, show (("Effects" : String) == "Components") = false by decide +kernel,
    show (("Effects" : String) == "Buses") = false by decide +kernel, Bool.false_eq_true, ↓reduceIte, this]
  rfl

/-- Both descriptions at once. -/
theorem describe_complete {α : Type} {own : NTree → List α} {mine : MTree → List α} (hown : ∀ (u : NTree) (m : MTree), u.vars = m.vars → u.cons = m.cons → own u = mine m)
    {sys : Sys} {s : System} {o : SysOut} (hr : s.Reportable) (h : systemModel sys s = .ok o)
    {rest1 rest2 : List (String × DTree α)} (hrest : "Effects" ∉ rest1.map (·.1)) {d : DTree α}
    (hd : d = .dict ([("Components", .dict (pyUpdate [] (NTree.describeAll own (o.compModels sys.cfg s)))),
      ("Buses", .dict (pyUpdate [] (NTree.describeAll own (o.busModels s))))] ++ rest1 ++ ("Effects", (o.collModel s).describe own) :: rest2))
    {m : MTree} (hm : m ∈ MTree.nodesAll (o.coll.tree :: o.comps.map CompOut.tree ++ o.buses.map (·.tree))) :
    ∃ p, d.get p = some (.list (mine m)) := by
  obtain ⟨g1, g2, g3⟩ := good_system hr h
  rcases solver_nodes h m hm with hm | ⟨oc, hoc, hm⟩ | ⟨ob, hob, hm⟩
  · obtain ⟨p, u, hp, e1, e2⟩ := g1.nodes m hm
    refine ⟨"Effects" :: (p ++ ["_self"]), ?_⟩
    rw [(describe_groups own sys s o hrest hd _).2.2, ← hown u m e1 e2]
    exact describe_get own hp g1.desc
  · obtain ⟨c, -, hg, hcm⟩ := compModels_forall (sys := sys) g2 hoc
    obtain ⟨p, u, hp, e1, e2⟩ := hg.nodes m hm
    refine ⟨"Components" :: c.label :: (p ++ ["_self"]), ?_⟩
    have hk : ((o.compModels sys.cfg s).map NTree.key).Nodup := by
      rw [compModels_keys g2]
      exact (labels_keys hr).1
    have := describeAll_get own hk hcm (p ++ ["_self"])
    rw [annotate_key, comp_shape_key] at this
    rw [(describe_groups own sys s o hrest hd _).1, this, ← hown u m e1 e2]
    exact describe_get own hp hg.desc
  · obtain ⟨b, -, hg, hbm⟩ := busModels_forall g3 hob
    obtain ⟨p, u, hp, e1, e2⟩ := hg.nodes m hm
    refine ⟨"Buses" :: b.label :: (p ++ ["_self"]), ?_⟩
    have hk : ((o.busModels s).map NTree.key).Nodup := by
      rw [busModels_keys g3]
      exact (labels_keys hr).2
    have := describeAll_get own hk hbm (p ++ ["_self"])
    rw [annotate_key] at this
    rw [(describe_groups own sys s o hrest hd _).2.1, ← hown u m e1 e2]
    exact this.trans (describe_get own hp hg.desc)

/-- **C101 (variables).**  Every variable of the solver's model is listed in the description of the variables. -/
theorem C101_variables_partial {sys : Sys} {s : System} {o : SysOut} (hr : s.Reportable) (h : systemModel sys s = .ok o) :
    ∀ x ∈ o.solver.vars, ∃ p l, (o.describeVars sys.cfg s).get p = some (.list l) ∧ x ∈ l := by
  intro x hx
  obtain ⟨h1, h2, h3, h4⟩ := system_inv h
  obtain ⟨m, hm, hxm⟩ := List.mem_flatMap.1 ((collectModel_perm h4).1.mem_iff.1 hx)
  obtain ⟨p, hp⟩ := describe_complete (own := NTree.vars) (mine := MTree.vars) (fun _ _ e _ => e) hr h (rest1 := []) (by simp)
    (d := o.describeVars sys.cfg s) rfl hm
  exact ⟨p, _, hp, hxm⟩

/-- **C101 (constraints).**  Every constraint of the solver's model, equations and inequations, is listed in the description of the constraints, and so is the
objective. -/
theorem C101_constraints_partial {sys : Sys} {s : System} {o : SysOut} (hr : s.Reportable) (h : systemModel sys s = .ok o) :
    (∀ c ∈ o.solver.cons, ∃ p l, (o.describeCons sys.cfg s).get p = some (.list l) ∧ c ∈ l) ∧
    ∃ c, (o.describeCons sys.cfg s).get ["Objective"] = some (.list [c]) ∧ c.ops = o.solver.objective := by
  refine ⟨?_, _, rfl, rfl⟩
  intro c hc
  obtain ⟨h1, h2, h3, h4⟩ := system_inv h
  obtain ⟨m, hm, hcm⟩ := List.mem_flatMap.1 ((collectModel_perm h4).2.1.mem_iff.1 hc)
  obtain ⟨p, hp⟩ := describe_complete (own := NTree.cons) (mine := MTree.cons) (fun _ _ _ e => e) hr h
    (rest1 := [("Objective", DTree.list [{ label := "OBJECTIVE", kind := .eq, ops := o.solver.objective }])]) (by simp)
    (d := o.describeCons sys.cfg s) rfl hm
  exact ⟨p, _, hp, hcm⟩

/-- **C101 (nothing else).**  Whatever the two descriptions list are variables and constraints of the solver's model, or the objective, for all names. -/
theorem C101_only {sys : Sys} {s : System} {o : SysOut} (h : systemModel sys s = .ok o) :
    (∀ {p l}, (o.describeVars sys.cfg s).get p = some (.list l) → ∀ x ∈ l, x ∈ o.solver.vars) ∧
    (∀ {p l}, (o.describeCons sys.cfg s).get p = some (.list l) → p ≠ ["Objective"] → ∀ c ∈ l, c ∈ o.solver.cons) := by
  obtain ⟨h1, h2, h3, h4⟩ := system_inv h
  have hin : ∀ {sh : NShape} {t : MTree}, t ∈ o.coll.tree :: o.comps.map CompOut.tree ++ o.buses.map (·.tree) →
      ∀ u ∈ (sh.annotate t).nodes, (∀ x ∈ u.vars, x ∈ o.solver.vars) ∧ ∀ c ∈ u.cons, c ∈ o.solver.cons := by
    intro sh t ht u hu
    obtain ⟨m, hm, e, e'⟩ := annotate_nodes sh t u hu
    refine ⟨fun x hx => ?_, fun c hc => ?_⟩
    · rw [e] at hx
      exact (collectModel_perm h4).1.mem_iff.2 (List.mem_flatMap.2 ⟨m, mem_nodesAll.2 ⟨t, ht, hm⟩, hx⟩)
    · rw [e'] at hc
      exact (collectModel_perm h4).2.1.mem_iff.2 (List.mem_flatMap.2 ⟨m, mem_nodesAll.2 ⟨t, ht, hm⟩, hc⟩)
  have hcomp : ∀ u ∈ NTree.nodesAll (o.compModels sys.cfg s), (∀ x ∈ u.vars, x ∈ o.solver.vars) ∧ ∀ c ∈ u.cons, c ∈ o.solver.cons := by
    intro u hu
    obtain ⟨t, ht, hu⟩ := NTree.mem_nodesAll.1 hu
    obtain ⟨i, hi, rfl⟩ := List.mem_iff_getElem.1 ht
    simp only [SysOut.compModels, List.getElem_zipWith] at hu
    exact hin (List.mem_append_left _ (List.mem_cons_of_mem _ (List.mem_map_of_mem (List.getElem_mem _)))) u hu
  have hbus : ∀ u ∈ NTree.nodesAll (o.busModels s), (∀ x ∈ u.vars, x ∈ o.solver.vars) ∧ ∀ c ∈ u.cons, c ∈ o.solver.cons := by
    intro u hu
    obtain ⟨t, ht, hu⟩ := NTree.mem_nodesAll.1 hu
    obtain ⟨i, hi, rfl⟩ := List.mem_iff_getElem.1 ht
    simp only [SysOut.busModels, List.getElem_zipWith] at hu
    exact hin (List.mem_append_right _ (List.mem_map_of_mem (f := fun b : BusOut => b.tree) (List.getElem_mem _))) u hu
  have hcoll : ∀ u ∈ (o.collModel s).nodes, (∀ x ∈ u.vars, x ∈ o.solver.vars) ∧ ∀ c ∈ u.cons, c ∈ o.solver.cons := fun u hu => hin (by simp) u hu
  have hdict : ∀ {α : Type} {own : NTree → List α} {ts : List NTree} {p : List String} {l : List α},
      (DTree.dict (pyUpdate [] (NTree.describeAll own ts))).get p = some (.list l) → ∃ u ∈ NTree.nodesAll ts, l = own u := by
    intro α own ts p l hp
    cases p with
    | nil => simp [DTree.get] at hp
    | cons k p =>
      rw [DTree.get] at hp
      cases hl : (pyUpdate [] (NTree.describeAll own ts)).lookup k with
      | none => rw [hl] at hp; cases hp
      | some v =>
        rw [hl] at hp
        rcases mem_pyUpdate (lookup_mem' hl) with hm | hm
        · cases hm
        · exact describeAll_only own ts hm hp
  have hany : ∀ {α : Type} {own : NTree → List α} {d : DTree α} {kvs : List (String × DTree α)} {p : List String} {l : List α}, d = .dict kvs →
      (∀ q ∈ kvs, q = ("Components", .dict (pyUpdate [] (NTree.describeAll own (o.compModels sys.cfg s)))) ∨
        q = ("Buses", .dict (pyUpdate [] (NTree.describeAll own (o.busModels s)))) ∨ q = ("Effects", (o.collModel s).describe own) ∨
        q = ("Others", .dict []) ∨ q.1 = "Objective" ∧ ∃ l, q.2 = .list l) → d.get p = some (.list l) → p ≠ ["Objective"] →
      ∃ u, l = own u ∧ (∀ x ∈ u.vars, x ∈ o.solver.vars) ∧ ∀ c ∈ u.cons, c ∈ o.solver.cons := by
    intro α own d kvs p l hd hk hp hobj
    subst hd
    cases p with
    | nil => simp [DTree.get] at hp
    | cons k p =>
      rw [DTree.get] at hp
      cases hl : kvs.lookup k with
      | none => rw [hl] at hp; cases hp
      | some v =>
        rw [hl] at hp
        simp only [Option.bind_some] at hp
        rcases hk _ (lookup_mem' hl) with e | e | e | e | ⟨e, l', e'⟩
        · cases e
          obtain ⟨u, hu, e⟩ := hdict hp
          exact ⟨u, e, hcomp u hu⟩
        · cases e
          obtain ⟨u, hu, e⟩ := hdict hp
          exact ⟨u, e, hbus u hu⟩
        · cases e
          obtain ⟨u, hu, e⟩ := describe_only own _ hp
          exact ⟨u, e, hcoll u hu⟩
        · cases e
          cases p <;> simp [DTree.get] at hp
        · simp only at e e'
          subst e e'
          cases p with
          | nil => exact absurd rfl hobj
          | cons _ _ => simp [DTree.get] at hp
  constructor
  · intro p l hp x hx
    have hobj : p ≠ ["Objective"] := by
      rintro rfl
      cases hp
    obtain ⟨u, rfl, hu, -⟩ := hany (own := NTree.vars) (d := o.describeVars sys.cfg s) rfl (by
      intro q hq
      simp only [List.mem_cons, List.not_mem_nil, or_false] at hq
      tauto) hp hobj
    exact hu x hx
  · intro p l hp hobj c hc
    obtain ⟨u, rfl, -, hu⟩ := hany (own := NTree.cons) (d := o.describeCons sys.cfg s) rfl (by
      intro q hq
      simp only [List.mem_cons, List.not_mem_nil, or_false] at hq
      rcases hq with hq | hq | hq | hq | hq
      · exact Or.inl hq
      · exact Or.inr (Or.inl hq)
      · subst hq; exact Or.inr (Or.inr (Or.inr (Or.inr ⟨rfl, _, rfl⟩)))
      · exact Or.inr (Or.inr (Or.inl hq))
      · exact Or.inr (Or.inr (Or.inr (Or.inl hq)))) hp hobj
    exact hu c hc

/-! ### Lists without structure -/

theorem mergeNew_ok {α : Type} {label : α → String} {acc xs : List α} (h : ((acc ++ xs).map label).Nodup) : mergeNew label acc xs = .ok (acc ++ xs) := by
  unfold mergeNew
  rw [collectOne_fold label xs acc (by rw [List.map_append] at h; exact (List.nodup_append.1 h).1), if_pos h]

mutual
  theorem allOwn_ok {α : Type} {label : α → String} {own : MTree → List α} : ∀ {t : MTree}, ((t.nodes.flatMap own).map label).Nodup →
      t.allOwn label own = .ok (t.nodes.flatMap own)
    | .node vs cs ts, h => by
      rw [MTree.nodes, List.flatMap_cons] at h ⊢
      rw [MTree.allOwn]
      exact allOwnSubs_ok h
  theorem allOwnSubs_ok {α : Type} {label : α → String} {own : MTree → List α} : ∀ {ts : List MTree} {acc : List α},
      ((acc ++ (MTree.nodesAll ts).flatMap own).map label).Nodup → MTree.allOwnSubs label own acc ts = .ok (acc ++ (MTree.nodesAll ts).flatMap own)
    | [], acc, _ => by simp [MTree.allOwnSubs, MTree.nodesAll]
    | t :: ts, acc, h => by
      rw [MTree.nodesAll, List.flatMap_append, ← List.append_assoc] at h ⊢
      have h' : ((acc ++ t.nodes.flatMap own).map label).Nodup := by
        rw [List.map_append] at h
        exact (List.nodup_append.1 h).1
      have h'' : ((t.nodes.flatMap own).map label).Nodup := by
        rw [List.map_append] at h'
        exact (List.nodup_append.1 h').2.1
      rw [MTree.allOwnSubs, allOwn_ok h'']
      simp only [ok_bind, mergeNew_ok h']
      exact allOwnSubs_ok h
end

/-- Nothing occurs twice in a part of the models of a system. -/
theorem part_nodup {sys : Sys} {s : System} {o : SysOut} (h : systemModel sys s = .ok o) {t : MTree}
    (ht : t ∈ o.coll.tree :: o.comps.map CompOut.tree ++ o.buses.map (·.tree)) :
    ((t.nodes.flatMap MTree.vars).map Var.label).Nodup ∧ ((t.nodes.flatMap MTree.cons).map ConReq.label).Nodup := by
  obtain ⟨-, -, -, h4⟩ := system_inv h
  obtain ⟨p1, p2, n1, n2, -⟩ := collectModel_perm h4
  have hsub : t.nodes.Sublist (MTree.nodesAll (o.coll.tree :: o.comps.map CompOut.tree ++ o.buses.map (·.tree))) := by
    generalize o.coll.tree :: o.comps.map CompOut.tree ++ o.buses.map (·.tree) = ts at ht
    induction ts with
    | nil => cases ht
    | cons x xs ih =>
      rw [MTree.nodesAll]
      rcases List.mem_cons.1 ht with rfl | ht
      · exact List.sublist_append_left _ _
      · exact (ih ht).trans (List.sublist_append_right _ _)
  exact ⟨((hsub.flatMap MTree.vars).map Var.label).nodup ((p1.map _).nodup_iff.1 n1),
    ((hsub.flatMap MTree.cons).map ConReq.label).nodup ((p2.map _).nodup_iff.1 n2)⟩

/-- **C101 (flat list).**  Without structure, the description of an element of an accepted model lists every variable of the element and its sub
models, for all names. -/
theorem C101_flat_variables {sys : Sys} {s : System} {o : SysOut} (h : systemModel sys s = .ok o) {t : MTree}
    (ht : t ∈ o.coll.tree :: o.comps.map CompOut.tree ++ o.buses.map (·.tree)) :
    ∃ l, t.listVars = .ok l ∧ ∀ x, x ∈ l ↔ ∃ m ∈ t.nodes, x ∈ m.vars := by
  have hown : MTree.ownVars = MTree.vars := funext ownVars_eq
  refine ⟨_, ?_, fun x => List.mem_flatMap⟩
  unfold MTree.listVars
  rw [hown]
  exact allOwn_ok (part_nodup h ht).1

/-- **C101 (flat list of constraints, partial).**  The description of the constraints without structure lists the equations of the element and its
sub models.  Missing: the inequations (`C101_inequations_wrong`). -/
theorem C101_flat_constraints_partial {sys : Sys} {s : System} {o : SysOut} (h : systemModel sys s = .ok o) {t : MTree}
    (ht : t ∈ o.coll.tree :: o.comps.map CompOut.tree ++ o.buses.map (·.tree)) :
    ∃ l, t.listCons = .ok l ∧ ∀ c, c ∈ l ↔ (∃ m ∈ t.nodes, c ∈ m.cons) ∧ c.kind = .eq := by
  have hown : ∀ m : MTree, m.equations = m.cons.filter fun c => c.kind = .eq := fun m => by cases m; rfl
  have hfil : t.nodes.flatMap MTree.equations = (t.nodes.flatMap MTree.cons).filter fun c => c.kind = .eq := by
    rw [List.filter_flatMap]
    exact congrArg (t.nodes.flatMap ·) (funext hown)
  refine ⟨t.nodes.flatMap MTree.equations, ?_, fun c => ?_⟩
  · refine allOwn_ok ?_
    rw [hfil]
    exact (List.filter_sublist.map _).nodup (part_nodup h ht).2
  · rw [hfil, List.mem_filter, List.mem_flatMap]
    simp

/-! ## Examples -/

/-- `System.Reportable`, decided; `pen`: whether an effect may be called like the penalty, `names`: whether a flow may be called like a part of a component. -/
def System.reportableB (s : System) (pen names : Bool) : Bool :=
  s.labels.all isNameB && decide s.labels.Nodup && s.comps.all (fun c => c.flows.all fun f => isNameB f.label) &&
    s.comps.all (fun c => decide (c.flows.map (·.label)).Nodup) && (names || s.comps.all fun c => c.flows.all fun f => decide (f.label ∉ reservedLabels)) &&
    (pen || s.effects.all fun e => decide (e.label ≠ "penalty"))

theorem reportableB_iff {s : System} : s.reportableB false false = true ↔ s.Reportable := by
  unfold System.reportableB
  simp only [Bool.and_eq_true, List.all_eq_true, isNameB_iff, decide_eq_true_iff, Bool.false_or]
  exact ⟨fun ⟨⟨⟨⟨⟨h1, h2⟩, h3⟩, h4⟩, h5⟩, h6⟩ => ⟨h1, h2, h3, h4, h5, h6⟩, fun h => ⟨⟨⟨⟨⟨h.names, h.distinct⟩, h.flowNames⟩, h.flowDistinct⟩, h.flowFree⟩, h.effectFree⟩⟩

theorem exDay_reportable : exDaySystem.Reportable := reportableB_iff.1 (by decide +kernel)

/-- The day of a generator, a store and a load: its model is accepted, every variable is reported and described, and the store is found under its label. -/
example : ∃ o, systemModel exDay exDaySystem = .ok o ∧ o.solver.vars.length > 30 ∧
    (∀ x ∈ o.solver.vars, ∃ p, ∀ (σ : Assignment) (objective : ℚ),
      (o.results exDay exDaySystem σ objective).get p = some (varResult ((List.range x.length).map (σ x.label)))) ∧
    (∀ c ∈ o.solver.cons, ∃ p l, (o.describeCons exDay.cfg exDaySystem).get p = some (.list l) ∧ c ∈ l) ∧
    ∀ (σ : Assignment) (objective : ℚ), (o.results exDay exDaySystem σ objective).get ["Components", "Tank", "charge_state"] =
      some (varResult ((List.range 7).map (σ "Tank_charge_state"))) := by
  obtain ⟨o, h, hb⟩ := of_okB (r := systemModel exDay exDaySystem) (p := fun o : SysOut => decide (o.solver.vars.length > 30)) (by decide +kernel)
  refine ⟨o, h, of_decide_eq_true hb, ?_, (C101_constraints_partial exDay_reportable h).1, fun σ objective =>
    (C100_storage_partial exDay_reportable h (st := exDayTank) (by simp [exDaySystem]) σ objective).1⟩
  intro x hx
  obtain ⟨g, -, p, hp⟩ := C100_complete_partial exDay_reportable h x hx
  exact ⟨g :: p, hp⟩

mutual
  /-- All arrays in nested results. -/
  def RTree.arrays : RTree → List (List ℚ)
    | .arr xs => [xs]
    | .scal _ => []
    | .nul => []
    | .dict kvs => RTree.arraysAll kvs
  def RTree.arraysAll : List (String × RTree) → List (List ℚ)
    | [] => []
    | q :: qs => q.2.arrays ++ RTree.arraysAll qs
end

theorem arraysAll_mem {kvs : List (String × RTree)} {q : String × RTree} (h : q ∈ kvs) {xs : List ℚ} (hx : xs ∈ q.2.arrays) : xs ∈ RTree.arraysAll kvs := by
  induction kvs with
  | nil => cases h
  | cons y ys ih =>
    rw [RTree.arraysAll, List.mem_append]
    rcases List.mem_cons.1 h with rfl | h
    · exact Or.inl hx
    · exact Or.inr (ih h)

theorem get_arrays {p : List String} : ∀ {t : RTree} {xs : List ℚ}, t.get p = some (.arr xs) → xs ∈ t.arrays := by
  induction p with
  | nil =>
    intro t xs h
    rw [RTree.get_nil] at h
    cases h
    simp [RTree.arrays]
  | cons k p ih =>
    intro t xs h
    obtain ⟨kvs, t', rfl, hl, h'⟩ := RTree.get_cons h
    rw [RTree.arrays]
    exact arraysAll_mem (lookup_mem hl) (ih h')

def exCostlyOut : FlowData := { label := "Q", bus := "el", size := .num 10, effectsPerFlowHour := [("penalty", .s 2)] }

/-- A system whose only effect is called like the penalty. -/
def exPenaltySystem : System :=
  { effects := [{ label := "penalty", isStandard := true, isObjective := true }]
    comps := [.plain { label := "Gen", inputs := [], outputs := [exCostlyOut] }, .plain { label := "Load", inputs := [{ label := "Q", bus := "el", size := .num 10 }], outputs := [] }]
    buses := [{ label := "el", excessPenalty := none }] }

/-- It delivers 1, 2 and 3. -/
def exPenaltySol : Assignment := tableSol
  [("Gen__Q_flow_rate", [1, 2, 3]), ("Gen__Q_sumFlowHours", [9]), ("Load__Q_flow_rate", [1, 2, 3]), ("Load__Q_sumFlowHours", [9]),
   ("penalty__Gen__Q__effects_per_flow_hour", [2, 4, 12]), ("penalty__operation_operation_sum", [18]), ("penalty__operation_operation_sum_TS", [2, 4, 12]),
   ("penalty__all_all_sum", [18]), ("penalty__operation", [18])]

/-- **C100 fails** for an effect called "penalty": the model is accepted and solved, but the results of the penalty take the place of those of the effect; its sums are
not found under its label, and its values over time are found nowhere. -/
theorem C100_penalty_wrong : exPenaltySystem.reportableB true false = true ∧ ∃ o, systemModel exSys exPenaltySystem = .ok o ∧ o.solver.Solves exPenaltySol ∧
    (∀ objective, (o.results exSys exPenaltySystem exPenaltySol objective).get ["Effects", "penalty", "operation", "operation_sum"] = none) ∧
    ∃ x ∈ o.solver.vars, x.label = "penalty__operation_operation_sum_TS" ∧
      ∀ p, (o.results exSys exPenaltySystem exPenaltySol 18).get p ≠ some (varResult ((List.range x.length).map (exPenaltySol x.label))) := by
  refine ⟨by decide +kernel, ?_⟩
  obtain ⟨o, h, hs⟩ := builds_and_solves (σ := exPenaltySol) (r := systemModel exSys exPenaltySystem)
    (f := fun o : SysOut => MTree.node o.solver.vars o.solver.cons []) (by decide +kernel)
  obtain ⟨o', h', hb⟩ := of_okB (r := systemModel exSys exPenaltySystem) (p := fun o : SysOut =>
    (((o.collModel exPenaltySystem).results exPenaltySol).get ["penalty", "operation", "operation_sum"]).isNone &&
    o.solver.vars.any (fun x => decide (x.label = "penalty__operation_operation_sum_TS" ∧ x.length = 3)) &&
    decide ([2, 4, 12] ∉ (o.results exSys exPenaltySystem exPenaltySol 18).arrays)) (by decide +kernel)
  cases h.symm.trans h'
  simp only [Bool.and_eq_true, Option.isNone_iff_eq_none, List.any_eq_true, decide_eq_true_eq] at hb
  obtain ⟨⟨b1, x, hx, b2, b3⟩, b4⟩ := hb
  refine ⟨o, h, ⟨hs.1, hs.2.1⟩, fun objective => ?_, x, hx, b2, fun p hp => ?_⟩
  · rw [(results_groups exSys exPenaltySystem o exPenaltySol objective _).2.1]
    exact b1
  · rw [b2, b3, show varResult ((List.range 3).map (exPenaltySol "penalty__operation_operation_sum_TS")) = .arr [2, 4, 12] by rfl] at hp
    exact b4 (get_arrays hp)

/-- **C100 fails** for a flow labelled "OnOff" at a component with on/off parameters: the flow rate is not found under the labels of the component
and the flow. -/
theorem C100_flow_wrong : exNamedSystem.reportableB false true = true ∧ ∃ o, systemModel exSys exNamedSystem = .ok o ∧ o.solver.Solves (tableSol []) ∧
    (∃ c ∈ exNamedSystem.comps, ∃ f ∈ c.flows, c.label = "Gen" ∧ f.label = "OnOff") ∧
    ∀ objective, (o.results exSys exNamedSystem (tableSol []) objective).get ["Components", "Gen", "OnOff", "flow_rate"] = none := by
  refine ⟨by decide +kernel, ?_⟩
  obtain ⟨o, h, hs⟩ := builds_and_solves (σ := tableSol []) (r := systemModel exSys exNamedSystem)
    (f := fun o : SysOut => MTree.node o.solver.vars o.solver.cons []) (by decide +kernel)
  obtain ⟨o', h', hb⟩ := of_okB (r := systemModel exSys exNamedSystem) (p := fun o : SysOut =>
    ((RTree.dict (pyUpdate [] (NTree.subResults (tableSol []) (o.compModels exSys.cfg exNamedSystem)))).get ["Gen", "OnOff", "flow_rate"]).isNone) (by decide +kernel)
  cases h.symm.trans h'
  refine ⟨o, h, ⟨hs.1, hs.2.1⟩, ⟨_, List.mem_cons_self, _, List.mem_cons_self, rfl, rfl⟩, fun objective => ?_⟩
  rw [(results_groups exSys exNamedSystem o _ objective _).1]
  exact Option.isNone_iff_eq_none.1 hb

/-- **C101 fails** for the descriptions without structure: a component with inequations in its sub models, of which neither the list of the constraints nor `all_inequations`
contains a single one. -/
theorem C101_inequations_wrong : ∃ o, systemModel exDay exDaySystem = .ok o ∧ ∃ oc ∈ o.comps, ∃ m ∈ oc.tree.nodes, ∃ c ∈ m.cons, c.kind = .ineq ∧
    (∃ l, oc.tree.listCons = .ok l ∧ c ∉ l) ∧ ∃ l, oc.tree.allInequations = .ok l ∧ c ∉ l := by
  obtain ⟨o, h, hb⟩ := of_okB (r := systemModel exDay exDaySystem) (p := fun o : SysOut => o.comps.any fun oc =>
    (oc.tree.nodes.any fun m => m.cons.any fun c => decide (c.kind = .ineq)) &&
      (match oc.tree.allInequations with | .ok l => l.isEmpty | .error _ => false)) (by decide +kernel)
  simp only [List.any_eq_true, Bool.and_eq_true, decide_eq_true_eq] at hb
  obtain ⟨oc, hoc, ⟨m, hm, c, hc, hk⟩, he⟩ := hb
  refine ⟨o, h, oc, hoc, m, hm, c, hc, hk, ?_, ?_⟩
  · obtain ⟨l, hl, hi⟩ := C101_flat_constraints_partial h (t := oc.tree) (List.mem_append_left _ (List.mem_cons_of_mem _ (List.mem_map_of_mem hoc)))
    refine ⟨l, hl, fun hcl => ?_⟩
    have := ((hi c).1 hcl).2
    rw [hk] at this
    cases this
  · split at he
    · rename_i l hl
      refine ⟨l, hl, ?_⟩
      rw [List.isEmpty_iff.1 he]
      simp
    · cases he

end Flix
