import Verif.Lemmas.Keys8
import Verif.Props.Closed

/-!
# C83, C84: sensible declarations are modelled, and labels do not collide
-/

namespace Flix

variable {sys : Sys} {s : System}

theorem segNames_of_known (hs : s.Named) {q : InvestParams} (h : q.Known s.effects) : q.SegNames := by
  intro xs rs hq
  obtain ⟨h1, h2⟩ := h.segs xs rs hq
  refine ⟨h1, fun r hr => ?_⟩
  obtain ⟨e, he, hl⟩ := List.mem_map.1 (h2 r hr)
  rw [← hl]
  exact hs.effect he

theorem comp_named (hs : s.Named) {c : Comp} (hc : c ∈ s.comps) (hk : c.Known s.effects) : c.Named :=
  ⟨hs.comp hc, fun f hf => ⟨hs.flowNames c hc f hf, fun q hq => segNames_of_known hs ((hk.flows f hf).invest q hq)⟩, hs.flowDistinct c hc,
    fun st hst q hq => segNames_of_known hs (hk.capacity st hst q hq)⟩

theorem VC.own {c : String} {fl : List String} {cs : List Nat} {k : String × VT} (h : VC c fl cs k) : Own c fl k.1 := by
  rcases h with h | ⟨f, hf, h⟩
  · exact Or.inl h.el
  · exact Or.inr ⟨f, hf, h.el⟩
theorem CC.own {c : String} {fl : List String} {cs : List Nat} {k : String × CT} (h : CC c fl cs k) : Own c fl k.1 := by
  rcases h with h | ⟨f, hf, h⟩
  · exact Or.inl h.el
  · exact Or.inr ⟨f, hf, h.el⟩
theorem VC.occurs {c : String} {fl : List String} {cs : List Nat} {k : String × VT} (h : VC c fl cs k) : k.2.Occurs k.1 := by
  rcases h with h | ⟨f, hf, h⟩
  · exact h.occurs
  · exact h.occurs
theorem CC.occurs {c : String} {fl : List String} {cs : List Nat} {k : String × CT} (h : CC c fl cs k) : k.2.Occurs k.1 := by
  rcases h with h | ⟨f, hf, h⟩
  · exact h.occurs
  · exact h.occurs

theorem own_name {c a : String} {fl : List String} (ha : IsName a) (hne : c ≠ a) (h : Own c fl a) : False := by
  rcases h with rfl | ⟨f, _, h⟩
  · exact hne rfl
  · exact name_ne_flowFull ha h

theorem varLabels_all (ss : List MTree) : ((MTree.nodesAll ss).flatMap MTree.vars).map (·.label) = ss.flatMap MTree.labels := by
  induction ss with
  | nil => rfl
  | cons s ss ih => simp [MTree.nodesAll, MTree.labels, ih, List.flatMap_append]

/-- All labels of the models of a system are different. -/
theorem system_nodup (hv : sys.Valid) (hn : 1 < sys.n) (hs : s.Named) (hk : ∀ c ∈ s.comps, c.Known s.effects)
    (hbf : ∀ b ∈ s.buses, ∀ pen, b.excessPenalty = some pen → pen.Fits sys.n) (hef : ∀ e ∈ s.effects, e.Fits sys.n) (hek : ∀ e ∈ s.effects, e.Known s.effects)
    {comps : List CompOut} {buses : List BusOut} {coll : CollOut} (hc : List.Forall₂ (fun c oc => Comp.model sys c = .ok oc) s.comps comps)
    (hb : List.Forall₂ (fun b ob => busModel sys b (busFlows (comps.map (·.outputs)).flatten b.label)
      (busFlows (comps.map (·.inputs)).flatten b.label) = .ok ob) s.buses buses)
    (ho : collectionModel sys s.effects ((comps.map (·.shares)).flatten ++ (buses.map (·.shares)).flatten) = .ok coll) :
    ((coll.tree :: comps.map CompOut.tree ++ buses.map (·.tree)).flatMap MTree.labels).Nodup ∧
    ((coll.tree :: comps.map CompOut.tree ++ buses.map (·.tree)).flatMap MTree.conLabels).Nodup := by
  obtain ⟨k1, k2, _⟩ := system_callKeys hv hn hs hk hbf hc hb
  obtain ⟨c1, c2⟩ := coll_keys hv hs hek hef ho k1 k2
  have kc := forall₂_imp' hc fun c hcm oc hh => model_keys (comp_named hs hcm (hk c hcm)) hh
  have kb := forall₂_imp' hb fun b hbm ob hh => bus_keys (hs.bus hbm) hh
  have hE : IsName "Effects" := ⟨by decide +kernel, by decide +kernel⟩
  have hcE : ∀ c ∈ s.comps, c.label ≠ "Effects" := fun c hcm => hs.penalty (by simp [System.labels]; exact Or.inl ⟨c, hcm, rfl⟩)
  have hbE : ∀ b ∈ s.buses, b.label ≠ "Effects" := fun b hbm => hs.penalty (by simp [System.labels]; exact Or.inr (Or.inl ⟨b, hbm, rfl⟩))
  have e1 : ∀ g : MTree → List String, (coll.tree :: comps.map CompOut.tree ++ buses.map (·.tree)).flatMap g =
      g coll.tree ++ (comps.flatMap (fun o => g o.tree) ++ buses.flatMap (fun o => g o.tree)) := by
    intro g
    simp [List.flatMap_append, List.flatMap_map]
  rw [e1, e1]
  constructor
  · have hvars := KL.append (R := fun k => k.2.Occurs k.1) c1 (KL.append
      (R := fun k => (∃ c ∈ s.comps, VC c.label (c.flows.map (·.label)) [1, 2, 3, 6] k) ∨ ∃ b ∈ s.buses, VIn b.label [4] k)
      (KL.forall₂ (g := fun o : CompOut => o.tree.labels) (forall₂_imp' kc fun c _ oc h => h.1) ?_)
      (KL.forall₂ (g := fun o : BusOut => o.tree.labels) (forall₂_imp' kb fun b _ ob h => h.1) ?_) ?_ (fun k h => Or.inl h) (fun k h => Or.inr h)) ?_ ?_ ?_
    · exact hvars.nodup fun k k' h h' he => vlabel_inj h h' he
    · refine (pairwise_ne hs.comps).imp_of_mem ?_
      intro c c' hcm hcm' hne k h h'
      exact Own.apart (hs.comp hcm) (hs.comp hcm') (hs.flowName hcm) (hs.flowName hcm') hne h.own h'.own
    · exact (pairwise_ne hs.buses).imp fun hne k h h' => hne (h.el.symm.trans h'.el)
    · rintro k ⟨c, hcm, h⟩ ⟨b, hbm, h'⟩
      have := h.own
      rw [h'.el] at this
      exact own_name (hs.bus hbm) (hs.comp_bus hcm hbm) this
    · rintro k (⟨e, he, h⟩ | h) (⟨c, hcm, h'⟩ | ⟨b, hbm, h'⟩)
      · have := h'.own
        rw [h.el] at this
        exact own_name (hs.effect he) (hs.comp_effect hcm he) this
      · exact hs.bus_effect hbm he (h'.el.symm.trans h.el)
      · have := h'.own
        rw [h.el] at this
        exact own_name hE (hcE c hcm) this
      · exact hbE b hbm (h'.el.symm.trans h.el)
    · rintro k (⟨e, he, h⟩ | h)
      · exact h.occurs
      · exact h.occurs
    · rintro k (⟨c, hcm, h⟩ | ⟨b, hbm, h⟩)
      · exact h.occurs
      · exact h.occurs
  · have hcons := KL.append (R := fun k => k.2.Occurs k.1 ∧
        ((k.2 = .plain "_charge_state" ∨ k.2 = .init) → ∃ st, Comp.storage st ∈ s.comps ∧ k.1 = st.label ∧ (k.2 = .init → st.initial ≠ .none))) c2 (KL.append
      (R := fun k => (∃ c ∈ s.comps, CC c.label (c.flows.map (·.label)) [1, 2, 3, 4, 6, 8, 9] k ∧ StorOk c k) ∨ ∃ b ∈ s.buses, CIn b.label [5] k)
      (KL.forall₂ (g := fun o : CompOut => o.tree.conLabels) (forall₂_imp' kc fun c _ oc h => h.2) ?_)
      (KL.forall₂ (g := fun o : BusOut => o.tree.conLabels) (forall₂_imp' kb fun b _ ob h => h.2) ?_) ?_ (fun k h => Or.inl h) (fun k h => Or.inr h)) ?_ ?_ ?_
    · refine hcons.nodup fun k k' h h' he => ?_
      have key : ∀ k k' : String × CT, ((k.2 = .plain "_charge_state" ∨ k.2 = .init) → ∃ st, Comp.storage st ∈ s.comps ∧ k.1 = st.label ∧ (k.2 = .init → st.initial ≠ .none)) →
          ((k'.2 = .plain "_charge_state" ∨ k'.2 = .init) → ∃ st, Comp.storage st ∈ s.comps ∧ k'.1 = st.label ∧ (k'.2 = .init → st.initial ≠ .none)) → ¬ Clash k k' := by
        rintro k k' h h' ⟨h1, h2, h3⟩
        obtain ⟨a, a1, a2, _⟩ := h (Or.inl h1)
        obtain ⟨b, b1, b2, b3⟩ := h' (Or.inr h2)
        rw [a2, b2] at h3
        exact hs.noClash b a b1 a1 (b3 h2) h3
      rcases clabel_inj h.1 h'.1 he with hh | hh | hh
      · exact hh
      · exact absurd hh (key k k' h.2 h'.2)
      · exact absurd hh (key k' k h'.2 h.2)
    · refine (pairwise_ne hs.comps).imp_of_mem ?_
      intro c c' hcm hcm' hne k h h'
      exact Own.apart (hs.comp hcm) (hs.comp hcm') (hs.flowName hcm) (hs.flowName hcm') hne h.1.own h'.1.own
    · exact (pairwise_ne hs.buses).imp fun hne k h h' => hne (h.el.symm.trans h'.el)
    · rintro k ⟨c, hcm, h, _⟩ ⟨b, hbm, h'⟩
      have := h.own
      rw [h'.el] at this
      exact own_name (hs.bus hbm) (hs.comp_bus hcm hbm) this
    · rintro k (⟨e, he, h⟩ | h) (⟨c, hcm, h', _⟩ | ⟨b, hbm, h'⟩)
      · have := h'.own
        rw [h.el] at this
        exact own_name (hs.effect he) (hs.comp_effect hcm he) this
      · exact hs.bus_effect hbm he (h'.el.symm.trans h.el)
      · have := h'.own
        rw [h.el] at this
        exact own_name hE (hcE c hcm) this
      · exact hbE b hbm (h'.el.symm.trans h.el)
    · have hno : ∀ (el : String) (cs : List Nat) (k : String × CT), CIn el cs k → 3 ∉ cs → ¬ (k.2 = .plain "_charge_state" ∨ k.2 = .init) := by
        intro el cs k h h3 hk
        have hcls : k.2.cls = 3 := by rcases hk with h | h <;> rw [h] <;> decide +kernel
        exact h3 (hcls ▸ h.cls)
      rintro k (⟨e, he, h⟩ | h)
      · exact ⟨h.occurs, fun hh => absurd hh (hno _ _ _ h (by decide))⟩
      · exact ⟨h.occurs, fun hh => absurd hh (hno _ _ _ h (by decide))⟩
    · rintro k (⟨c, hcm, h, hso⟩ | ⟨b, hbm, h⟩)
      · refine ⟨h.occurs, fun hh => ?_⟩
        obtain ⟨a1, st, a2, a3⟩ := hso hh
        subst a2
        exact ⟨st, hcm, a1, a3⟩
      · refine ⟨h.occurs, fun hh => ?_⟩
        have hcls : k.2.cls = 3 := by rcases hh with h | h <;> rw [h] <;> decide +kernel
        have := h.cls
        rw [hcls] at this
        simp at this

theorem sane_effFits {c : Comp} (h : c.Sane sys) : c.EffFits sys.n := by
  cases c with
  | plain d => exact ⟨fun f hf => (h.flows.flows f hf).eff, fun q hq => (h.flows.onOff q hq).2.eff, by simp⟩
  | converter d => exact ⟨fun f hf => (h.comp.flows.flows f hf).eff, fun q hq => (h.comp.flows.onOff q hq).2.eff, by simp⟩
  | storage st =>
    refine ⟨fun f hf => ?_, fun q hq => by simp [Comp.onOff] at hq, fun st' q hst hq => ?_⟩
    · simp only [Comp.flows, Comp.inputs, Comp.outputs, List.cons_append, List.nil_append, List.mem_cons, List.not_mem_nil, or_false] at hf
      rcases hf with rfl | rfl
      · exact h.charging.eff
      · exact h.discharging.eff
    · cases hst
      exact (h.capacity q hq).eff
  | transmission t => exact ⟨fun f hf => (h.flows.flows f hf).eff, fun q hq => (h.flows.onOff q hq).2.eff, by simp⟩

theorem sane_fits (h : s.Sane sys) : s.Fits sys.n := ⟨fun e he => (h.effects e he).1, fun c hc => sane_effFits (h.comps c hc), h.buses⟩

/-- **C84.**  Labels that are valid and different never collide: if the components, the buses and the effects of a system are modelled, then so
is the system, and all variables have different labels, and all constraints.  Missing from the full statement: the label of one storage must
not be the label of another one that has an initial charge state with `_initial` appended (`C84_wrong`), and an empty label, which counts as
valid, is excluded. -/
theorem C84_partial (hv : sys.Valid) (hn : 1 < sys.n) (hs : s.Named) (hk : ∀ c ∈ s.comps, c.Known s.effects)
    (hbf : ∀ b ∈ s.buses, ∀ pen, b.excessPenalty = some pen → pen.Fits sys.n) (hef : ∀ e ∈ s.effects, e.Fits sys.n ∧ e.Known s.effects)
    {comps : List CompOut} {buses : List BusOut} {coll : CollOut} (hc : List.Forall₂ (fun c oc => Comp.model sys c = .ok oc) s.comps comps)
    (hb : List.Forall₂ (fun b ob => busModel sys b (busFlows (comps.map (·.outputs)).flatten b.label)
      (busFlows (comps.map (·.inputs)).flatten b.label) = .ok ob) s.buses buses)
    (ho : collectionModel sys s.effects ((comps.map (·.shares)).flatten ++ (buses.map (·.shares)).flatten) = .ok coll) :
    ∃ solver, systemModel sys s = .ok ⟨coll, comps, buses, solver⟩ ∧ (solver.vars.map (·.label)).Nodup ∧ (solver.cons.map (·.label)).Nodup := by
  obtain ⟨n1, n2⟩ := system_nodup hv hn hs hk hbf (fun e he => (hef e he).1) (fun e he => (hef e he).2) hc hb ho
  obtain ⟨m, hm⟩ := collectModel_of_nodup (direct := coll.tree :: comps.map CompOut.tree ++ buses.map (·.tree)) (obj := coll.objective)
    (by rw [← varLabels_all] at n1; exact n1) (by rw [← conLabels_all] at n2; exact n2)
  refine ⟨m, ?_, (collectModel_perm hm).2.2.1, (collectModel_perm hm).2.2.2.1⟩
  unfold systemModel
  rw [mapM_ok.2 hc, ok_bind]
  simp only
  rw [mapM_ok.2 hb, ok_bind, ho, ok_bind, hm, ok_bind]
  rfl

/-- **C83.**  A sensibly declared system with usable labels and without loose ends is modelled and translated without an exception, and what the solver gets means
what was modelled. -/
theorem C83 (hv : sys.Valid) (hn : 1 < sys.n) (h : s.Sane sys) (ht : s.Tied) (hs : s.Named) :
    ∃ o p, systemModel sys s = .ok o ∧ translateModel o.solver = .ok p ∧ ∀ σ, p.Feasible σ ↔ o.solver.Solves σ := by
  have hf := sane_fits h
  obtain ⟨comps, hc, fc⟩ := mapM_all (f := Comp.model sys) (l := s.comps) (P := fun c oc => Comp.model sys c = .ok oc ∧ oc.tree.Fine) (by
    intro c hcm
    obtain ⟨o, ho, hfine⟩ := model_good hv hn (h.comps c hcm)
    exact ⟨o, ho, ho, hfine⟩)
  have hc' := mapM_ok.1 hc
  have f1 := (busFlows_all (σ := fun _ _ => 0) (n := sys.n) (t := 0) Comp.outputs (·.outputs) (forall₂_imp' hc' fun c _ oc h => (model_flowOf h).2) (bus := ·) |>.2)
  have f2 := (busFlows_all (σ := fun _ _ => 0) (n := sys.n) (t := 0) Comp.inputs (·.inputs) (forall₂_imp' hc' fun c _ oc h => (model_flowOf h).1) (bus := ·) |>.2)
  obtain ⟨buses, hb, fb⟩ := mapM_all (l := s.buses)
      (f := fun b => busModel sys b (busFlows (comps.map (·.outputs)).flatten b.label) (busFlows (comps.map (·.inputs)).flatten b.label)) (P := fun b ob => ob.tree.Fine) (by
    intro b hbm
    obtain ⟨o, ho, hfine⟩ := bus_good hv (h.buses b hbm) (f1 b.label) (f2 b.label)
    exact ⟨o, ho, hfine⟩)
  have hb' := mapM_ok.1 hb
  obtain ⟨k1, k2, k3⟩ := system_callKeys hv hn hs h.known h.buses hc' hb'
  have hek : ∀ e ∈ s.effects, e.Known s.effects := fun e he => (h.effects e he).2
  obtain ⟨coll, ho, hfc⟩ := collection_good hv hn hf.effects (fun e he q hq => (hek e he).operation.2 q hq) (fun e he q hq => (hek e he).invest.2 q hq) h.objective
    (elements_calls hv hf hc' hb').1 k2 k3 (fun e he => (opNames_keys hs hek k1 k2 he).nodup fun v v' a b => a.inj b)
    (fun e he => (invNames_keys hs hek k1 k2 he).nodup fun v v' a b => a.inj b) ((penNames_keys hs k1).nodup fun v v' a b => pen_inj a b)
  obtain ⟨solver, hsm, _⟩ := C84_partial hv hn hs h.known h.buses h.effects hc' hb' ho
  obtain ⟨_, _, _, hcm⟩ := system_inv hsm
  obtain ⟨pv, pc, _⟩ := collectModel_perm hcm
  have hfine : ∀ m ∈ MTree.nodesAll (coll.tree :: comps.map CompOut.tree ++ buses.map (·.tree)), (∀ x ∈ m.vars, x.Fine) ∧ ∀ r ∈ m.cons, r.Fine := by
    intro m hm
    obtain ⟨t, ht, hmt⟩ := nodesAll_mem.1 hm
    simp only [List.cons_append, List.mem_cons, List.mem_append, List.mem_map] at ht
    rcases ht with rfl | ⟨oc, hoc, rfl⟩ | ⟨ob, hob, rfl⟩
    · exact hfc m hmt
    · obtain ⟨_, _, _, hh⟩ := forall₂_mem_right fc hoc
      exact hh m hmt
    · obtain ⟨_, _, hh⟩ := forall₂_mem_right fb hob
      exact hh m hmt
  have hvf : ∀ x ∈ solver.vars, x.Fine := by
    intro x hx
    obtain ⟨m, hm, hxm⟩ := List.mem_flatMap.1 (pv.mem_iff.1 hx)
    exact (hfine m hm).1 x hxm
  have hcf : ∀ r ∈ solver.cons, r.Fine := by
    intro r hr
    obtain ⟨m, hm, hrm⟩ := List.mem_flatMap.1 (pc.mem_iff.1 hr)
    exact (hfine m hm).2 r hrm
  obtain ⟨vars, h1⟩ := mapM_exists (f := Var.toPyomo) (l := solver.vars) (by
    intro x hx
    obtain ⟨ds, hd⟩ := hvf x hx
    exact ⟨_, by unfold Var.toPyomo; rw [hd]; rfl⟩)
  have hcon : ∀ r ∈ solver.cons, ∃ c, r.translateIn solver.vars = .ok c := by
    intro r hr
    obtain ⟨c, rows, h1, h2⟩ := hcf r hr
    exact ⟨_, by
      unfold ConReq.translateIn
      rw [h1, ok_bind, C69_translation hsm hr h1, h2, ok_bind, checkRows_ok.2 ⟨rfl, C85 hsm ht hr h1 h2⟩]
      rfl⟩
  obtain ⟨eqs, h2⟩ := mapM_exists (f := ConReq.translateIn solver.vars) (l := solver.equations) (fun r hr => hcon r ((kind_cases _ r).2 (Or.inl hr)))
  obtain ⟨ineqs, h3⟩ := mapM_exists (f := ConReq.translateIn solver.vars) (l := solver.inequations) (fun r hr => hcon r ((kind_cases _ r).2 (Or.inr hr)))
  obtain ⟨terms, _, hterms, _⟩ := C22_system hv (by omega) hf hsm
  have hobj : objectiveTermsIn solver.vars solver.objective = .ok terms := by
    rw [closed_objectiveTerms, hterms]
    intro op hop
    cases op with
    | summand x f i a => exact (C69 hsm).2 _ hop x ⟨f, i, a, rfl⟩
    | const k => trivial
  have htr : translateModel solver = .ok ⟨vars, eqs, ineqs, terms,
      compNames (solver.vars.map (·.label) ++ solver.equations.map (·.label) ++ solver.inequations.map (·.label)) ++ ["objective"]⟩ := by
    unfold translateModel
    rw [h1, ok_bind, h2, ok_bind, h3, ok_bind, hobj, ok_bind, addComponents_ok]
    rfl
  exact ⟨_, _, hsm, htr, fun σ => C69_meaning htr σ⟩

/-! ## Examples -/

/-- A plain flow. -/
theorem plain_sane {sys : Sys} {l b : String} {x : ℚ} : FlowData.Sane sys { label := l, bus := b, size := .num x } :=
  ⟨⟨Or.inl rfl, Or.inl rfl, by simp, by simp⟩, ⟨by simp [EffDict.Series], by simp, by simp⟩, by simp, by simp, by simp⟩

theorem plain_known {es : List EffectData} {l b : String} {x : ℚ} : FlowData.Known es { label := l, bus := b, size := .num x } :=
  ⟨⟨by simp, by simp⟩, by simp, by simp⟩

def exNamedTank (l : String) : StorageData :=
  { label := l, charging := { label := "in", bus := "heat", size := .num 5 }, discharging := { label := "out", bus := "heat", size := .num 5 },
    capacity := .num 20, etaDischarge := .s (9 / 10), relLoss := .v [0, 1 / 100, 0] }

theorem exNamedTank_sane (l : String) : (Comp.storage (exNamedTank l)).Sane exSys := by
  refine ⟨plain_sane, plain_sane, ⟨Or.inl rfl, Or.inl rfl, Or.inl rfl, Or.inl rfl, Or.inr rfl⟩, fun t _ => ?_, by simp [exNamedTank], by simp [exNamedTank]⟩
  simp [exNamedTank, Num.at]

theorem exNamedTank_known (l : String) (es : List EffectData) : (Comp.storage (exNamedTank l)).Known es := by
  refine ⟨fun f hf => ?_, by simp [Comp.onOff], fun s hs q hq => ?_⟩
  · simp only [Comp.flows, Comp.inputs, Comp.outputs, exNamedTank, List.cons_append, List.nil_append, List.mem_cons, List.not_mem_nil, or_false] at hf
    rcases hf with rfl | rfl <;> exact plain_known
  · cases hs
    simp [exNamedTank] at hq

/-- Gas, a boiler of decided size, a load, and storages with the given labels. -/
def exWith (tanks : List String) : System := { exSystem with comps := exSystem.comps ++ tanks.map fun l => .storage (exNamedTank l) }

theorem exWith_tied (tanks : List String) : (exWith tanks).Tied := by
  constructor
  · intro c hc
    rcases List.mem_append.1 hc with hc | hc
    · exact exSystem_tied.comps c hc
    · obtain ⟨l, _, rfl⟩ := List.mem_map.1 hc
      refine ⟨?_, by simp, ?_⟩
      · simp [Comp.flows, Comp.inputs, Comp.outputs, FlowData.Tied, exNamedTank]
      · rintro _ q ⟨⟩ hq
        simp [exNamedTank] at hq
  · intro b hb
    refine (exSystem_tied.buses b hb).imp_right ?_
    rintro ⟨c, hc, hh⟩
    exact ⟨c, List.mem_append_left _ hc, hh⟩

theorem exWith_sane (tanks : List String) : (exWith tanks).Sane exSys := by
  have hcosts : ∃ e ∈ exEffects, names exEffects e.label none = true := ⟨_, List.mem_cons_self, by decide +kernel⟩
  have hcosts' : ∃ e ∈ exEffects, names exEffects e.label (some "costs") = true := ⟨_, List.mem_cons_self, by decide +kernel⟩
  have hco2 : ∃ e ∈ exEffects, names exEffects e.label (some "co2") = true := ⟨_, List.mem_cons_of_mem _ List.mem_cons_self, by decide +kernel⟩
  refine ⟨?_, ?_, exSystem_fits.buses, ?_, ?_⟩
  · intro c hc
    rcases List.mem_append.1 hc with hc | hc
    · have he := exSystem_fits.comps c hc
      simp only [exSystem, List.mem_cons, List.not_mem_nil, or_false] at hc
      rcases hc with rfl | rfl | rfl
      · refine ⟨⟨?_, by simp⟩, Or.inl rfl⟩
        simp only [List.nil_append, List.mem_singleton, forall_eq]
        refine ⟨⟨Or.inl rfl, Or.inl rfl, by simp [exGasOut], by simp [exGasOut]⟩, he.flows _ (by simp [Comp.flows, Comp.inputs, Comp.outputs]), by simp [exGasOut],
          by simp [exGasOut], by simp [exGasOut]⟩
      · refine ⟨⟨⟨?_, by simp⟩, Or.inl rfl⟩, Or.inl ⟨by simp, ?_⟩⟩
        rotate_left
        · intro fs hfs q hq
          simp only [List.mem_singleton] at hfs
          subst hfs
          simp only [List.mem_cons, List.not_mem_nil, or_false] at hq
          rcases hq with rfl | rfl <;> exact Or.inl rfl
        simp only [List.cons_append, List.nil_append, List.mem_cons, List.not_mem_nil, or_false, forall_eq_or_imp, forall_eq]
        refine ⟨plain_sane, ⟨Or.inl rfl, Or.inl rfl, by simp [exBoilerOut], by simp [exBoilerOut]⟩, he.flows _ (by simp [Comp.flows, Comp.inputs, Comp.outputs]), ?_,
          by simp [exBoilerOut], by simp [exBoilerOut]⟩
        intro q hq
        exact ⟨(he.flows exBoilerOut (by simp [Comp.flows, Comp.inputs, Comp.outputs])).invest q hq, by simp only [exBoilerOut, SizeArg.invest.injEq] at hq; subst hq; simp [exBoilerInvest]⟩
      · refine ⟨⟨?_, by simp⟩, Or.inl rfl⟩
        simp only [List.append_nil, List.mem_singleton, forall_eq]
        refine ⟨⟨Or.inl rfl, Or.inl rfl, ?_, by simp [exLoadIn]⟩, he.flows _ (by simp [Comp.flows, Comp.inputs, Comp.outputs]), by simp [exLoadIn],
          by simp [exLoadIn], by simp [exLoadIn]⟩
        intro g hg
        simp only [exLoadIn, Option.some.injEq] at hg
        subst hg
        exact Or.inr rfl
    · obtain ⟨l, _, rfl⟩ := List.mem_map.1 hc
      exact exNamedTank_sane l
  · intro c hc
    rcases List.mem_append.1 hc with hc | hc
    · simp only [exSystem, List.mem_cons, List.not_mem_nil, or_false] at hc
      rcases hc with rfl | rfl | rfl
      · refine ⟨?_, by simp [Comp.onOff], by simp⟩
        simp only [Comp.flows, Comp.inputs, Comp.outputs, List.nil_append, List.mem_singleton, forall_eq]
        refine ⟨⟨?_, ?_⟩, by simp [exGasOut], by simp [exGasOut]⟩
        · simp only [exGasOut, List.mem_cons, List.not_mem_nil, or_false, forall_eq_or_imp, forall_eq]
          exact ⟨hcosts, hco2⟩
        · simp only [exGasOut, List.pairwise_cons, List.mem_singleton, forall_eq, List.not_mem_nil, false_imp_iff, implies_true, and_true, List.Pairwise.nil]
          intro l hl
          by_cases h : l = "co2"
          · subst h; exact absurd (show names exEffects "co2" _ = true from hl) (by decide +kernel)
          · simpa [names] using fun hh => h hh.symm
      · refine ⟨?_, by simp [Comp.onOff], by simp⟩
        simp only [Comp.flows, Comp.inputs, Comp.outputs, List.cons_append, List.nil_append, List.mem_cons, List.not_mem_nil, or_false, forall_eq_or_imp, forall_eq]
        refine ⟨plain_known, ⟨by simp [exBoilerOut], by simp [exBoilerOut]⟩, by simp [exBoilerOut], fun q hq => ?_⟩
        simp only [exBoilerOut, SizeArg.invest.injEq] at hq
        subst hq
        refine ⟨⟨?_, by simp [exBoilerInvest]⟩, ⟨?_, ?_⟩, ⟨by simp [exBoilerInvest], by simp [exBoilerInvest]⟩, by simp [exBoilerInvest]⟩
        · simp only [exBoilerInvest, List.mem_singleton, forall_eq]; exact hcosts
        · simp only [exBoilerInvest, List.mem_cons, List.not_mem_nil, or_false, forall_eq_or_imp, forall_eq]
          exact ⟨hcosts', hco2⟩
        · simp only [exBoilerInvest, List.pairwise_cons, List.mem_singleton, forall_eq, List.not_mem_nil, false_imp_iff, implies_true, and_true, List.Pairwise.nil]
          intro l hl
          by_cases h : l = "co2"
          · subst h; exact absurd (show names exEffects "co2" _ = true from hl) (by decide +kernel)
          · simpa [names] using fun hh => h hh.symm
      · refine ⟨?_, by simp [Comp.onOff], by simp⟩
        simp only [Comp.flows, Comp.inputs, Comp.outputs, List.append_nil, List.mem_singleton, forall_eq]
        exact ⟨⟨by simp [exLoadIn], by simp [exLoadIn]⟩, by simp [exLoadIn], by simp [exLoadIn]⟩
    · obtain ⟨l, _, rfl⟩ := List.mem_map.1 hc
      exact exNamedTank_known l _
  · intro e he
    refine ⟨exEffects_fit e he, ?_⟩
    simp only [exWith, exSystem, exEffects, List.mem_cons, List.not_mem_nil, or_false] at he
    rcases he with rfl | rfl
    · exact ⟨⟨by simp, by simp⟩, ⟨by simp, by simp⟩⟩
    · exact ⟨⟨by simp, by simp [exWith, exSystem, exEffects]⟩, ⟨by simp, by simp⟩⟩
  · exact ⟨_, List.mem_cons_self, rfl⟩

/-- Everything asked of the labels but the last condition. -/
structure System.NamedOnly (s : System) : Prop where
  names : ∀ l ∈ s.labels, IsName l
  distinct : (s.labels ++ ["Effects"]).Nodup
  flowNames : ∀ c ∈ s.comps, ∀ f ∈ c.flows, IsName f.label
  flowDistinct : ∀ c ∈ s.comps, (c.flows.map (·.label)).Nodup

def isNameB (s : String) : Bool := labelIsValid s && decide (s ≠ "")
theorem isNameB_iff {s : String} : isNameB s = true ↔ IsName s := by
  unfold isNameB
  rw [Bool.and_eq_true, decide_eq_true_iff]
  exact ⟨fun h => ⟨h.1, h.2⟩, fun h => ⟨h.valid, h.ne⟩⟩

def System.namedB (s : System) : Bool :=
  s.labels.all isNameB && decide ((s.labels ++ ["Effects"]).Nodup) && s.comps.all (fun c => c.flows.all fun f => isNameB f.label) &&
    s.comps.all fun c => decide ((c.flows.map (·.label)).Nodup)

theorem named_of {s : System} (h : s.namedB = true) : s.NamedOnly := by
  unfold System.namedB at h
  simp only [Bool.and_eq_true, List.all_eq_true, decide_eq_true_iff] at h
  obtain ⟨⟨⟨h1, h2⟩, h3⟩, h4⟩ := h
  exact ⟨fun l hl => isNameB_iff.1 (h1 l hl), h2, fun c hc f hf => isNameB_iff.1 (h3 c hc f hf), h4⟩

theorem exWith_named : (exWith ["Tank"]).Named := by
  have hn := named_of (s := exWith ["Tank"]) (by decide +kernel)
  refine ⟨hn.names, hn.distinct, hn.flowNames, hn.flowDistinct, ?_⟩
  intro a b ha hb _
  simp only [exWith, exSystem, List.map_cons, List.map_nil, List.cons_append, List.nil_append, List.mem_cons, List.not_mem_nil, or_false, reduceCtorEq, false_or,
    Comp.storage.injEq] at ha hb
  subst ha hb
  decide +kernel

/-- The hypotheses are met by a system with an investment, a converter, a storage and contributions between effects. -/
example : ∃ o p, systemModel exSys (exWith ["Tank"]) = .ok o ∧ translateModel o.solver = .ok p ∧ ∀ σ, p.Feasible σ ↔ o.solver.Solves σ := by
  exact C83 exSys_valid (by decide) (exWith_sane _) (exWith_tied _) exWith_named

/-- So are those of `C84_partial`. -/
example : ∃ o, systemModel exSys (exWith ["Tank"]) = .ok o ∧ (o.solver.vars.map (·.label)).Nodup ∧ (o.solver.cons.map (·.label)).Nodup := by
  obtain ⟨o, _, h, _⟩ := C83 exSys_valid (by decide) (exWith_sane _) (exWith_tied _) exWith_named
  obtain ⟨h1, h2, h3, _⟩ := system_inv h
  have hs := exWith_sane ["Tank"]
  obtain ⟨m, hm, n1, n2⟩ := C84_partial exSys_valid (by decide) exWith_named hs.known hs.buses hs.effects h1 h2 h3
  exact ⟨_, hm, n1, n2⟩

/-- **C84 is violated**: two storages labelled `A` and `A_initial`.  All labels are valid, not empty and different, everything declared is sensible, and
each component is modelled; yet both storages call a constraint `A_initial_charge_state`, and the model is refused. -/
theorem C84_wrong : ∃ s : System, s.NamedOnly ∧ s.Sane exSys ∧ (∃ comps, s.comps.mapM (Comp.model exSys) = .ok comps) ∧ systemModel exSys s = .error .key := by
  refine ⟨exWith ["A", "A_initial"], named_of (by decide +kernel), exWith_sane _, ?_, ?_⟩
  · exact mapM_exists fun c hc => ⟨_, (model_good exSys_valid (by decide) ((exWith_sane _).comps c hc)).choose_spec.1⟩
  · have : (match systemModel exSys (exWith ["A", "A_initial"]) with | .error .key => true | _ => false) = true := by decide +kernel
    revert this
    cases systemModel exSys (exWith ["A", "A_initial"]) with
    | ok o => intro h; cases h
    | error e => cases e <;> intro h <;> first | rfl | cases h

end Flix
