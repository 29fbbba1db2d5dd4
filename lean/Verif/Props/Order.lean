import Verif.Props.Account

/-!
# C73: the order in which elements are added does not matter
-/

namespace Flix

theorem mapM_perm {α β} {f : α → Except Err β} {l l' : List α} {r : List β} (hp : l.Perm l') (h : l.mapM f = .ok r) :
    ∃ r', l'.mapM f = .ok r' ∧ r.Perm r' := by
  obtain ⟨w, hw, hwr⟩ := List.perm_comp_forall₂ hp.symm (mapM_ok.1 h)
  exact ⟨w, mapM_ok.2 hw, hwr.symm⟩

/-- All variables of a model. -/
def MTree.treeVars (t : MTree) : List Var := t.nodes.flatMap MTree.vars
/-- The labels of all constraints of a model. -/
def MTree.conLabels (t : MTree) : List String := (t.nodes.flatMap MTree.cons).map (·.label)

/-- The same variables and the same labels of constraints, in some order. -/
structure MTree.Alike (t t' : MTree) : Prop where
  vars : t.treeVars.Perm t'.treeVars
  cons : t.conLabels.Perm t'.conLabels

theorem MTree.Alike.refl (t : MTree) : t.Alike t := ⟨.refl _, .refl _⟩

theorem treeVars_node (vs : List Var) (cs : List ConReq) (ss : List MTree) : (MTree.node vs cs ss).treeVars = vs ++ ss.flatMap MTree.treeVars := by
  have key : ∀ ss : List MTree, (MTree.nodesAll ss).flatMap MTree.vars = ss.flatMap MTree.treeVars := by
    intro ss
    induction ss with
    | nil => rfl
    | cons s ss ih => simp [MTree.nodesAll, MTree.treeVars, ih, List.flatMap_append]
  unfold MTree.treeVars
  simp [MTree.nodes, List.flatMap_cons, MTree.vars, key]
  rfl

theorem conLabels_all (ss : List MTree) : ((MTree.nodesAll ss).flatMap MTree.cons).map (·.label) = ss.flatMap MTree.conLabels := by
  induction ss with
  | nil => rfl
  | cons s ss ih => simp [MTree.nodesAll, MTree.conLabels, ih, List.flatMap_append]

theorem treeVars_all (ss : List MTree) : (MTree.nodesAll ss).flatMap MTree.vars = ss.flatMap MTree.treeVars := by
  induction ss with
  | nil => rfl
  | cons s ss ih => simp [MTree.nodesAll, MTree.treeVars, ih, List.flatMap_append]

theorem conLabels_node (vs : List Var) (cs : List ConReq) (ss : List MTree) :
    (MTree.node vs cs ss).conLabels = cs.map (·.label) ++ ss.flatMap MTree.conLabels := by
  rw [← conLabels_all]
  unfold MTree.conLabels
  simp [MTree.nodes, List.flatMap_cons, MTree.cons]

/-- Lists of models that are alike one by one, in some order. -/
def AlikeAll (ts ts' : List MTree) : Prop := (ts.flatMap MTree.treeVars).Perm (ts'.flatMap MTree.treeVars) ∧ (ts.flatMap MTree.conLabels).Perm (ts'.flatMap MTree.conLabels)

theorem AlikeAll.of_perm {ts ts' : List MTree} (h : ts.Perm ts') : AlikeAll ts ts' := ⟨h.flatMap_right _, h.flatMap_right _⟩

theorem AlikeAll.of_forall₂ {ts ts' : List MTree} (h : List.Forall₂ MTree.Alike ts ts') : AlikeAll ts ts' := by
  induction h with
  | nil => exact ⟨.refl _, .refl _⟩
  | cons h _ ih => exact ⟨h.vars.append ih.1, h.cons.append ih.2⟩

theorem AlikeAll.trans {a b c : List MTree} (h : AlikeAll a b) (h' : AlikeAll b c) : AlikeAll a c := ⟨h.1.trans h'.1, h.2.trans h'.2⟩

theorem AlikeAll.append {a b c d : List MTree} (h : AlikeAll a b) (h' : AlikeAll c d) : AlikeAll (a ++ c) (b ++ d) := by
  simp only [AlikeAll, List.flatMap_append] at *
  exact ⟨h.1.append h'.1, h.2.append h'.2⟩

theorem AlikeAll.node {a b : List MTree} (h : AlikeAll a b) (vs : List Var) {cs cs' : List ConReq} (hc : cs.map (·.label) = cs'.map (·.label)) :
    (MTree.node vs cs a).Alike (.node vs cs' b) := by
  constructor
  · rw [treeVars_node, treeVars_node]; exact (List.Perm.refl _).append h.1
  · rw [conLabels_node, conLabels_node, hc]; exact (List.Perm.refl _).append h.2

theorem AlikeAll.one {t t' : MTree} (h : t.Alike t') : AlikeAll [t] [t'] := .of_forall₂ (.cons h .nil)

/-! ## The collection -/

theorem samTree_perm {d : SamData} {vs : SamVars} {calls calls' : List Share} {t : MTree} (hp : calls.Perm calls') (h : samTree d vs calls = .ok t) :
    ∃ t', samTree d vs calls' = .ok t' ∧ t.Alike t' := by
  unfold samTree at h ⊢
  simp only at h ⊢
  peel h with shares, hsh
  obtain ⟨shares', hsh', hpp⟩ := mapM_perm hp hsh
  rw [hsh', ok_bind]
  have hnd : (calls.map (·.name)).Nodup ↔ (calls'.map (·.name)).Nodup := (hp.map _).nodup_iff
  split at h
  · cases h
  · rename_i hc
    rw [if_neg (not_not.2 (hnd.1 (not_not.1 hc)))]
    cases hs : vs.sumTS with
    | none =>
      rw [hs] at h
      simp only [Except.ok.injEq] at h
      subst h
      exact ⟨_, rfl, AlikeAll.node (.of_perm (hpp.map _)) _ rfl⟩
    | some ts =>
      rw [hs] at h
      simp only [Except.ok.injEq] at h
      subst h
      exact ⟨_, rfl, AlikeAll.node (.of_perm (hpp.map _)) _ rfl⟩

theorem sharesFor_perm {cs cs' : List Addressed} (h : cs.Perm cs') (t : Target) (l : String) : (sharesFor t l cs).Perm (sharesFor t l cs') := h.filterMap _

theorem effectTree_perm {cs cs' : List Addressed} (hp : cs.Perm cs') {e : EffectVars} {t : MTree} (h : effectTree cs e = .ok t) :
    ∃ t', effectTree cs' e = .ok t' ∧ t.Alike t' := by
  unfold effectTree at h ⊢
  peel h with i, hi
  peel h with o, ho
  peel h with a, ha
  simp only [except_pure, Except.ok.injEq] at h
  subst h
  obtain ⟨i', hi', ai⟩ := samTree_perm (sharesFor_perm hp .invest _) hi
  obtain ⟨o', ho', ao⟩ := samTree_perm (sharesFor_perm hp .operation _) ho
  rw [hi', ok_bind, ho', ok_bind, ha, ok_bind]
  exact ⟨_, rfl, AlikeAll.node (.of_forall₂ (.cons ai (.cons ao (.cons (.refl _) .nil)))) _ rfl⟩

/-- `find?` does not depend on the order if at most one element is wanted. -/
theorem find?_perm {α} {p : α → Bool} {l l' : List α} (hp : l.Perm l') (hu : (l.filter p).length ≤ 1) : l.find? p = l'.find? p := by
  have hf := hp.filter p
  rw [← List.head?_filter, ← List.head?_filter]
  rcases h : l.filter p with _ | ⟨a, _ | ⟨b, r⟩⟩
  · rw [h] at hf
    rw [hf.symm.eq_nil]
  · rw [h] at hf
    rw [List.perm_singleton.1 hf.symm]
  · rw [h] at hu
    simp at hu

/-- At most one effect is the standard effect and at most one the objective. -/
structure System.Single (es : List EffectData) : Prop where
  standard : (es.filter (·.isStandard)).length ≤ 1
  objective : (es.filter (·.isObjective)).length ≤ 1

theorem address_perm {es es' : List EffectData} (hp : es.Perm es') (hu : System.Single es) (c : ShareCall) : address es' c = address es c := by
  have h1 : standardOf es' = standardOf es := by unfold standardOf; rw [find?_perm hp hu.standard]
  have h2 : ∀ e, resolveEffect es' e = resolveEffect es e := by
    intro e
    unfold resolveEffect
    rw [h1]
    cases e with
    | none => rfl
    | some l => simp only [(hp.map (·.label)).mem_iff]
  unfold address
  simp only [h2]

theorem betweenOf_perm {evs evs' : List EffectVars} (hp : evs.Perm evs') (ev : EffectVars) : betweenOf evs' ev = betweenOf evs ev := by
  unfold betweenOf
  simp only [(hp.map (·.data.label)).mem_iff]

theorem objective_evs {sys : Sys} {es : List EffectData} {evs : List EffectVars} (h : List.Forall₂ (fun e ev => effectVars sys e = .ok ev) es evs) :
    (evs.filter (·.data.isObjective)).length = (es.filter (·.isObjective)).length := by
  induction h with
  | nil => rfl
  | cons h hh ih =>
    rename_i e ev es evs
    have : ev.data = e := by
      unfold effectVars at h
      peel h with a, ha
      peel h with b, hb
      peel h with c, hc
      cases h
      rfl
    simp only [List.filter_cons, this]
    split <;> simp [ih]

theorem collection_perm {sys : Sys} {es es' : List EffectData} {calls calls' : List ShareCall} {o : CollOut} (hpe : es.Perm es') (hu : System.Single es)
    (hpc : calls.Perm calls') (h : collectionModel sys es calls = .ok o) :
    ∃ o', collectionModel sys es' calls' = .ok o' ∧ o.tree.Alike o'.tree ∧ o'.objective = o.objective ∧ o.effects.Perm o'.effects ∧ o'.penalty = o.penalty := by
  obtain ⟨between, addressed, trees, pt, h1, h2, h3, h4, h5, h6, h7, h8⟩ := collection_inv h
  obtain ⟨evs', e1, p1⟩ := mapM_perm hpe (mapM_ok.2 h1)
  have h3' : o.effects.mapM (betweenOf evs') = .ok between := by
    rw [mapM_congr_mem fun ev _ => betweenOf_perm p1 ev]
    exact mapM_ok.2 h3
  obtain ⟨between', e3, p3⟩ := mapM_perm p1 h3'
  have h5' : calls.mapM (address es') = .ok addressed := by
    rw [mapM_congr_mem fun c _ => address_perm hpe hu c]
    exact mapM_ok.2 h5
  obtain ⟨addressed', e5, p5⟩ := mapM_perm hpc h5'
  have hall : (between.flatten ++ addressed).Perm (between'.flatten ++ addressed') := p3.flatten.append p5
  have h6' : ∃ trees0, o.effects.mapM (effectTree (between'.flatten ++ addressed')) = .ok trees0 ∧ List.Forall₂ MTree.Alike trees trees0 := by
    clear h1 h3 h4 h8 p1 h3' h2 e1 h
    generalize o.effects = evs at h6
    induction h6 with
    | nil => exact ⟨[], rfl, .nil⟩
    | cons hd _ ih =>
      obtain ⟨t', ht', ha⟩ := effectTree_perm hall hd
      obtain ⟨ts0, hts, hal⟩ := ih
      exact ⟨t' :: ts0, mapM_ok.2 (.cons ht' (mapM_ok.1 hts)), .cons ha hal⟩
  obtain ⟨trees0, e60, a6⟩ := h6'
  obtain ⟨trees', e6, p6⟩ := mapM_perm p1 e60
  obtain ⟨pt', e7, a7⟩ := samTree_perm (sharesFor_perm hall .penalty "") h7
  have hobj : objectiveOps evs' o.penalty = .ok o.objective := by
    have : objectiveOf evs' = objectiveOf o.effects := by
      unfold objectiveOf
      rw [find?_perm p1 (by rw [objective_evs h1]; exact hu.objective)]
    unfold objectiveOps at h4 ⊢
    rw [this]
    exact h4
  refine ⟨⟨evs', o.penalty, o.objective, .node [] [] (trees' ++ [pt'])⟩, ?_, ?_, rfl, p1, rfl⟩
  · unfold collectionModel
    simp only [e1, h2, e3, hobj, e5, e6, e7, ok_bind]
    rfl
  · rw [h8]
    exact AlikeAll.node (((AlikeAll.of_forall₂ a6).trans (.of_perm p6)).append (.one a7)) _ rfl

theorem goesTo_perm {es es' : List EffectData} (hp : es.Perm es') (hu : System.Single es) (tg : Target) (l : String) : ShareCall.goesTo es' tg l = ShareCall.goesTo es tg l := by
  funext c
  unfold ShareCall.goesTo
  rw [find?_perm hp hu.standard]

theorem collRows_perm {sys : Sys} {es es' : List EffectData} {evs evs' : List EffectVars} {calls calls' : List ShareCall} (hpe : es.Perm es')
    (hu : System.Single es) (hpc : calls.Perm calls') (hpv : evs.Perm evs') {σ : Assignment} (h : CollRows sys es evs calls σ) : CollRows sys es' evs' calls' σ := by
  have d : ∀ tg l t, direct σ es' calls' tg l t = direct σ es calls tg l t := by
    intro tg l t
    unfold direct
    rw [goesTo_perm hpe hu]
    exact (((hpc.filter _).map _).sum_eq).symm
  have f1 : ∀ l t, fromOthersOp σ es' l t = fromOthersOp σ es l t := fun l t => ((hpe.map _).sum_eq).symm
  have f2 : ∀ l, fromOthersInv σ es' l = fromOthersInv σ es l := fun l => ((hpe.map _).sum_eq).symm
  have s1 : ∀ l, (opShares es evs calls l).Perm (opShares es' evs' calls' l) := by
    intro l
    unfold opShares othersOp
    rw [goesTo_perm hpe hu]
    exact (hpv.map _).flatten.append ((hpc.filter _).map _)
  have s2 : ∀ l, (invShares es evs calls l).Perm (invShares es' evs' calls' l) := by
    intro l
    unfold invShares othersInv
    rw [goesTo_perm hpe hu]
    exact (hpv.map _).flatten.append ((hpc.filter _).map _)
  have s3 : (penaltyShares calls).Perm (penaltyShares calls') := (hpc.filter _).map _
  refine ⟨fun e he => ?_, ?_, fun e he => ?_, fun e he => ?_, fun e he => h.allShares e (hpe.mem_iff.2 he), ?_⟩
  · have r := h.effect e (hpe.mem_iff.2 he)
    exact ⟨fun t ht => by rw [d, f1]; exact r.opStep t ht, r.opTotal, by rw [d, f2]; exact r.inv, r.all, r.opBounds, r.invBounds, r.allBounds⟩
  · rw [h.penalty]; exact (s3.map _).sum_eq
  · intro c hc
    exact h.opShares e (hpe.mem_iff.2 he) c ((s1 _).mem_iff.2 hc)
  · intro c hc
    exact h.invShares e (hpe.mem_iff.2 he) c ((s2 _).mem_iff.2 hc)
  · intro c hc
    exact h.penaltyShares c (s3.mem_iff.2 hc)

/-! ## The buses -/

theorem busModel_perm {sys : Sys} {b : BusData} {ins outs ins' outs' : List Var} {ob : BusOut} (h : busModel sys b ins outs = .ok ob) :
    ∃ ob', busModel sys b ins' outs' = .ok ob' ∧ ob.tree.Alike ob'.tree ∧ ob'.shares = ob.shares ∧ ob'.excessInput = ob.excessInput ∧ ob'.excessOutput = ob.excessOutput := by
  unfold busModel at h ⊢
  cases hp : b.excessPenalty with
  | none =>
    rw [hp] at h
    simp only [Except.ok.injEq] at h
    subst h
    exact ⟨_, rfl, AlikeAll.node (.of_perm (.refl _)) _ rfl, rfl, rfl, rfl⟩
  | some pen =>
    rw [hp] at h
    simp only at h ⊢
    peel h with f, hf
    peel h with a, ha
    peel h with c, hc
    simp only [except_pure, Except.ok.injEq] at h
    subst h
    rw [hf, ok_bind, ha, ok_bind, hc, ok_bind]
    exact ⟨_, rfl, AlikeAll.node (.of_perm (.refl _)) _ rfl, rfl, rfl, rfl⟩

theorem flowSum_perm {xs ys : List Var} (h : xs.Perm ys) (σ : Assignment) (t : Nat) : flowSum σ xs t = flowSum σ ys t := (h.map _).sum_eq

theorem busSolves_perm {sys : Sys} (hv : sys.Valid) {b : BusData} {ins outs ins' outs' : List Var} {ob ob' : BusOut} (h : busModel sys b ins outs = .ok ob)
    (h' : busModel sys b ins' outs' = .ok ob') (hpen : ∀ pen, b.excessPenalty = some pen → pen.Fits sys.n) (hpi : ins.Perm ins') (hpo : outs.Perm outs')
    (hin : ∀ x ∈ ins, x.length = sys.n) (hout : ∀ x ∈ outs, x.length = sys.n) (he : ob'.excessInput = ob.excessInput ∧ ob'.excessOutput = ob.excessOutput)
    (σ : Assignment) : ob.tree.Solves σ ↔ ob'.tree.Solves σ := by
  have hin' : ∀ x ∈ ins', x.length = sys.n := fun x hx => hin x (hpi.mem_iff.2 hx)
  have hout' : ∀ x ∈ outs', x.length = sys.n := fun x hx => hout x (hpo.mem_iff.2 hx)
  cases hp : b.excessPenalty with
  | none =>
    rw [(bus_none h hp hin hout).2.2.2 σ, (bus_none h' hp hin' hout').2.2.2 σ]
    have e1 : ins = [] ↔ ins' = [] := ⟨fun e => by subst e; exact hpi.symm.eq_nil, fun e => by subst e; exact hpi.eq_nil⟩
    have e2 : outs = [] ↔ outs' = [] := ⟨fun e => by subst e; exact hpo.symm.eq_nil, fun e => by subst e; exact hpo.eq_nil⟩
    simp only [e1, e2, flowSum_perm hpi, flowSum_perm hpo]
  | some pen =>
    obtain ⟨ein, eout, _, x1, x2, _, _, _, _, _, _, _, hi⟩ := bus_some hv h hp (hpen pen hp) hin hout
    obtain ⟨ein', eout', _, x1', x2', _, _, _, _, _, _, _, hi'⟩ := bus_some hv h' hp (hpen pen hp) hin' hout'
    rw [he.1, x1] at x1'
    rw [he.2, x2] at x2'
    cases x1'
    cases x2'
    rw [hi σ, hi' σ]
    simp only [flowSum_perm hpi, flowSum_perm hpo]

/-! ## The system -/

theorem busFlows_perm {fs fs' : List (FlowData × FlowOut)} (h : fs.Perm fs') (l : String) : (busFlows fs l).Perm (busFlows fs' l) := h.filterMap _

/-- **C73.**  The order in which effects, components and buses were added does not matter: the system in another order can be modelled as well, has
the same variables, the same solutions and the same objective. -/
theorem C73 {sys : Sys} {s s' : System} {o : SysOut} (hv : sys.Valid) (hn : sys.n ≠ 0) (hf : s.Fits sys.n) (hu : System.Single s.effects)
    (hpe : s.effects.Perm s'.effects) (hpc : s.comps.Perm s'.comps) (hpb : s.buses.Perm s'.buses) (h : systemModel sys s = .ok o) :
    ∃ o', systemModel sys s' = .ok o' ∧ o.solver.vars.Perm o'.solver.vars ∧ o'.solver.objective = o.solver.objective ∧
      ∀ σ : Assignment, o.solver.Solves σ ↔ o'.solver.Solves σ := by
  obtain ⟨h1, h2, h3, h4⟩ := system_inv h
  obtain ⟨comps', e1, p1⟩ := mapM_perm hpc (mapM_ok.2 h1)
  have pin : ((o.comps.map (·.outputs)).flatten).Perm ((comps'.map (·.outputs)).flatten) := (p1.map _).flatten
  have pout : ((o.comps.map (·.inputs)).flatten).Perm ((comps'.map (·.inputs)).flatten) := (p1.map _).flatten
  -- the same buses with the flows in the new order
  have h2' : ∃ b0, s.buses.mapM (fun b => busModel sys b (busFlows (comps'.map (·.outputs)).flatten b.label) (busFlows (comps'.map (·.inputs)).flatten b.label)) = .ok b0 ∧
      List.Forall₂ (fun ob ob' => ob.tree.Alike ob'.tree ∧ ob'.shares = ob.shares ∧ ∀ σ : Assignment, ob.tree.Solves σ ↔ ob'.tree.Solves σ) o.buses b0 := by
    have hpen := hf.buses
    have hin := fun l => (busFlows_all (σ := fun _ _ => 0) (n := sys.n) (t := 0) Comp.outputs (·.outputs) (forall₂_imp' h1 fun c _ oc h => (model_flowOf h).2) (bus := l)).2
    have hout := fun l => (busFlows_all (σ := fun _ _ => 0) (n := sys.n) (t := 0) Comp.inputs (·.inputs) (forall₂_imp' h1 fun c _ oc h => (model_flowOf h).1) (bus := l)).2
    clear h4 h3 h1 h hpb hf
    generalize s.buses = bs at h2 hpen
    generalize o.buses = obs at h2
    induction h2 with
    | nil => exact ⟨[], rfl, .nil⟩
    | cons hd hh ih =>
      rename_i b ob bs obs
      obtain ⟨ob', hb', al, sh, x1, x2⟩ := busModel_perm (ins' := busFlows (comps'.map (·.outputs)).flatten b.label)
        (outs' := busFlows (comps'.map (·.inputs)).flatten b.label) hd
      obtain ⟨b0, hb0, hal⟩ := ih fun b hb => hpen b (by simp [hb])
      refine ⟨ob' :: b0, mapM_ok.2 (.cons hb' (mapM_ok.1 hb0)), .cons ⟨al, sh, ?_⟩ hal⟩
      exact busSolves_perm hv hd hb' (hpen b (by simp)) (busFlows_perm pin _) (busFlows_perm pout _) (hin _) (hout _) ⟨x1, x2⟩
  obtain ⟨b0, eb0, ab⟩ := h2'
  obtain ⟨buses', e2, p2⟩ := mapM_perm hpb eb0
  have hsh0 : (b0.map (·.shares)) = o.buses.map (·.shares) := by
    clear eb0 p2 h4 h3 h2 h
    generalize o.buses = obs at ab ⊢
    induction ab with
    | nil => rfl
    | cons hd _ ih => simp [hd.2.1]; simpa using ih
  have pcalls : o.calls.Perm ((comps'.map (·.shares)).flatten ++ (buses'.map (·.shares)).flatten) := by
    unfold SysOut.calls
    refine ((p1.map _).flatten).append ?_
    rw [← hsh0]
    exact (p2.map _).flatten
  obtain ⟨coll', e3, a3, ob3, pe3, pp3⟩ := collection_perm hpe hu pcalls h3
  have alike : AlikeAll (o.coll.tree :: o.comps.map CompOut.tree ++ o.buses.map (·.tree)) (coll'.tree :: comps'.map CompOut.tree ++ buses'.map (·.tree)) := by
    refine AlikeAll.append (AlikeAll.append (.one a3) (.of_perm (p1.map _))) ?_
    refine AlikeAll.trans (.of_forall₂ ?_) (.of_perm (p2.map _))
    rw [List.forall₂_map_left_iff, List.forall₂_map_right_iff]
    exact forall₂_imp' ab fun _ _ _ h => h.1
  obtain ⟨q1, q2, n1, n2, q5⟩ := collectModel_perm h4
  have hex := (C53 (coll'.tree :: comps'.map CompOut.tree ++ buses'.map (·.tree)) coll'.objective).2 ?_
  swap
  · have := (C53 _ _).1 ⟨_, h4⟩
    rw [treeVars_all, conLabels_all] at this ⊢
    exact ⟨((alike.1.map _).nodup_iff).1 this.1, (alike.2.nodup_iff).1 this.2⟩
  obtain ⟨m', e4⟩ := hex
  have hsys : systemModel sys s' = .ok ⟨coll', comps', buses', m'⟩ := by
    unfold systemModel
    simp only [e1, ok_bind, e2, e3, e4]
    rfl
  obtain ⟨q1', _, _, _, q5'⟩ := collectModel_perm e4
  refine ⟨_, hsys, ?_, ?_, fun σ => ?_⟩
  · rw [treeVars_all] at q1 q1'
    exact q1.trans (alike.1.trans q1'.symm)
  · show m'.objective = _
    rw [q5', q5, ob3]
  · rw [system_solves h σ, system_solves hsys σ]
    have hw := (system_calls hv hf h).1
    have hw' : ∀ c ∈ (comps'.map (·.shares)).flatten ++ (buses'.map (·.shares)).flatten, c.WellFormed sys.n := fun c hc => hw c (pcalls.mem_iff.2 hc)
    have hfe' : ∀ e ∈ s'.effects, e.Fits sys.n := fun e he => hf.effects e (hpe.mem_iff.2 he)
    have hu' : System.Single s'.effects := ⟨by rw [← (hpe.filter _).length_eq]; exact hu.standard, by rw [← (hpe.filter _).length_eq]; exact hu.objective⟩
    have c1 : o.coll.tree.Solves σ ↔ coll'.tree.Solves σ := by
      rw [(collection_iff hv hn h3 hf.effects hw).2.2.2.2 σ, (collection_iff hv hn e3 hfe' hw').2.2.2.2 σ]
      exact ⟨collRows_perm hpe hu pcalls pe3, collRows_perm hpe.symm hu' pcalls.symm pe3.symm⟩
    have c2 : (∀ c ∈ o.comps, c.tree.Solves σ) ↔ ∀ c ∈ comps', c.tree.Solves σ := ⟨fun hh c hc => hh c (p1.mem_iff.2 hc), fun hh c hc => hh c (p1.mem_iff.1 hc)⟩
    have c3 : (∀ b ∈ o.buses, b.tree.Solves σ) ↔ ∀ b ∈ buses', b.tree.Solves σ := by
      have k1 : (∀ b ∈ b0, b.tree.Solves σ) ↔ ∀ b ∈ buses', b.tree.Solves σ := ⟨fun hh c hc => hh c (p2.mem_iff.2 hc), fun hh c hc => hh c (p2.mem_iff.1 hc)⟩
      rw [← k1]
      constructor
      · intro hh b hb
        obtain ⟨b', hb', hr⟩ := forall₂_mem_right ab hb
        exact (hr.2.2 σ).1 (hh b' hb')
      · intro hh b hb
        obtain ⟨b', hb', hr⟩ := forall₂_mem_left ab hb
        exact (hr.2.2 σ).2 (hh b' hb')
    exact and_congr c1 (and_congr c2 c3)

/-- **C73 (created effects).**  Effects made by constructor and add calls always meet the condition on standard and objective effects. -/
theorem C73_created {sys : Sys} {s s' : System} {o : SysOut} (hv : sys.Valid) (hn : sys.n ≠ 0) (hf : s.Fits sys.n) (cs : List EffCall)
    (he : s.effects = (({} : EffState).run cs).effects) (hpe : s.effects.Perm s'.effects) (hpc : s.comps.Perm s'.comps) (hpb : s.buses.Perm s'.buses)
    (h : systemModel sys s = .ok o) :
    ∃ o', systemModel sys s' = .ok o' ∧ o.solver.vars.Perm o'.solver.vars ∧ o'.solver.objective = o.solver.objective ∧
      ∀ σ : Assignment, o.solver.Solves σ ↔ o'.solver.Solves σ := by
  obtain ⟨h1, h2, _⟩ := C25 cs
  exact C73 hv hn hf (by rw [he]; exact ⟨h1, h2⟩) hpe hpc hpb h

/-! ## An example -/

/-- The example with everything in another order. -/
def exTurned : System := { effects := exSystem.effects.reverse, comps := exSystem.comps.reverse, buses := exSystem.buses.reverse }

example : System.Single exSystem.effects ∧ exSystem.effects.Perm exTurned.effects ∧ exSystem.comps.Perm exTurned.comps ∧ exSystem.buses.Perm exTurned.buses ∧
    ∃ o', systemModel exSys exTurned = .ok o' ∧ o'.solver.Solves exSystemSol := by
  have hu : System.Single exSystem.effects := ⟨by decide +kernel, by decide +kernel⟩
  obtain ⟨o, h, hs⟩ := exSystem_ok
  obtain ⟨o', h', _, _, hi⟩ := C73 (s' := exTurned) exSys_valid (by decide) exSystem_fits hu (List.reverse_perm _).symm (List.reverse_perm _).symm
    (List.reverse_perm _).symm h
  exact ⟨hu, (List.reverse_perm _).symm, (List.reverse_perm _).symm, (List.reverse_perm _).symm, o', h', (hi _).1 hs⟩

/-- Two standard effects: which one a contribution without a name goes to depends on the order; `System.Single` is needed. -/
example : resolveEffect [{ label := "a", isStandard := true }, { label := "b", isStandard := true }] none ≠
    resolveEffect [{ label := "b", isStandard := true }, { label := "a", isStandard := true }] none := by decide +kernel

end Flix
