import Verif.Model.Translate
import Verif.Lemmas.Tied
import Verif.Props.System

/-!
# C69: constraints only talk about variables the solver knows
-/

namespace Flix

variable {sys : Sys} {s : System} {o : SysOut}

theorem vars_hasVar (t : MTree) : t.Vars t.HasVar := fun m hm x hx => ⟨m, (within_nodes m t).1 hm, hx⟩

theorem refs_hasCon {P : Var → Prop} {t : MTree} (h : t.Refs P) {r : ConReq} (hr : t.HasCon r) {x : Var} (hx : r.Mentions x) : P x := by
  obtain ⟨m, hm, hc⟩ := hr
  exact refs_iff.1 (h m ((within_nodes m t).2 hm) r hc) x hx

/-- **C69 (components).**  The constraints of a component, including those of its flows, on/off models, investments and segments, only
mention variables of the same component: components are coupled by the buses and the effects alone. -/
theorem C69_component {c : Comp} {oc : CompOut} (h : c.model sys = .ok oc) {r : ConReq} (hr : oc.tree.HasCon r) {x : Var}
    (hx : r.Mentions x) : oc.tree.HasVar x :=
  refs_hasCon (model_refs h (vars_hasVar _)).1 hr hx

/-- **C69 (shares).**  What a component gives to the effects are its own variables. -/
theorem C69_shares {c : Comp} {oc : CompOut} (h : c.model sys = .ok oc) {sh : ShareCall} (hs : sh ∈ oc.shares) {x : Var}
    (hx : sh.var = some x) : oc.tree.HasVar x :=
  (model_refs h (vars_hasVar _)).2.1 sh hs x hx

/-- The flow rates a bus sees belong to components. -/
theorem busFlows_refs {P : Var → Prop} {os : List CompOut} (sel : CompOut → List (FlowData × FlowOut)) (bus : String)
    (h : ∀ oc ∈ os, ∀ q ∈ sel oc, P q.2.flowRate) : ∀ x ∈ busFlows (os.map sel).flatten bus, P x := by
  intro x hx
  unfold busFlows at hx
  obtain ⟨q, hq, hh⟩ := List.mem_filterMap.1 hx
  obtain ⟨l, hl, hq⟩ := List.mem_flatten.1 hq
  obtain ⟨oc, hoc, rfl⟩ := List.mem_map.1 hl
  split at hh
  · cases hh; exact h oc hoc q hq
  · cases hh

theorem system_refs (h : systemModel sys s = .ok o) {P : Var → Prop} (hv : ∀ t ∈ o.models, t.Vars P) :
    (∀ t ∈ o.models, t.Refs P) ∧ (∀ c ∈ o.calls, c.Refs P) ∧ ∀ op ∈ o.solver.objective, op.Refs P := by
  obtain ⟨h1, h2, h3, h4⟩ := system_inv h
  have kc : ∀ oc ∈ o.comps, oc.tree.Refs P ∧ (∀ c ∈ oc.shares, c.Refs P) ∧ (∀ q ∈ oc.flows, FlowRefs P q.2) := by
    intro oc hoc
    obtain ⟨c, _, hm⟩ := forall₂_mem_right h1 hoc
    exact model_refs hm (hv _ (by simp [SysOut.models]; exact Or.inr (Or.inl ⟨oc, hoc, rfl⟩)))
  have kb : ∀ ob ∈ o.buses, ob.tree.Refs P ∧ ∀ c ∈ ob.shares, c.Refs P := by
    intro ob hob
    obtain ⟨b, _, hm⟩ := forall₂_mem_right h2 hob
    refine bus_refs hm (hv _ (by simp [SysOut.models]; exact Or.inr (Or.inr ⟨ob, hob, rfl⟩))) ?_ ?_
    · exact busFlows_refs _ _ fun oc hoc q hq => ((kc oc hoc).2.2 q (List.mem_append_right _ hq)).1
    · exact busFlows_refs _ _ fun oc hoc q hq => ((kc oc hoc).2.2 q (List.mem_append_left _ hq)).1
  have kcalls : ∀ c ∈ o.calls, c.Refs P := by
    intro c hc
    unfold SysOut.calls at hc
    rcases List.mem_append.1 hc with hc | hc
    · obtain ⟨l, hl, hc⟩ := List.mem_flatten.1 hc
      obtain ⟨oc, hoc, rfl⟩ := List.mem_map.1 hl
      exact (kc oc hoc).2.1 c hc
    · obtain ⟨l, hl, hc⟩ := List.mem_flatten.1 hc
      obtain ⟨ob, hob, rfl⟩ := List.mem_map.1 hl
      exact (kb ob hob).2 c hc
  have ke := collection_refs h3 (hv _ (by simp [SysOut.models])) kcalls
  refine ⟨?_, kcalls, ?_⟩
  · intro t ht
    unfold SysOut.models at ht
    simp only [List.cons_append, List.mem_cons, List.mem_append, List.mem_map] at ht
    rcases ht with rfl | ⟨oc, hoc, rfl⟩ | ⟨ob, hob, rfl⟩
    · exact ke.1
    · exact (kc oc hoc).1
    · exact (kb ob hob).1
  · rw [(collectModel_perm h4).2.2.2.2]
    exact ke.2

/-- **C69.**  Every variable mentioned by a constraint or by the objective handed to the solver is itself handed to the solver (as the
same object: bounds, length and type included). -/
theorem C69 (h : systemModel sys s = .ok o) :
    (∀ r ∈ o.solver.cons, ∀ x, r.Mentions x → x ∈ o.solver.vars) ∧
    ∀ op ∈ o.solver.objective, ∀ x, op.Mentions x → x ∈ o.solver.vars := by
  obtain ⟨m1, m2⟩ := C52_mem h
  have hv : ∀ t ∈ o.models, t.Vars (· ∈ o.solver.vars) := fun t ht m hm x hx => (m1 x).2 ⟨t, ht, m, (within_nodes m t).1 hm, hx⟩
  obtain ⟨k1, _, k3⟩ := system_refs h hv
  constructor
  · intro r hr x hx
    obtain ⟨t, ht, m, hm, hc⟩ := (m2 r).1 hr
    exact refs_hasCon (k1 t ht) ⟨m, hm, hc⟩ hx
  · rintro op hop x ⟨f, i, a, rfl⟩
    exact k3 _ hop

/-- **C69 (buses).**  The balance of a bus mentions its own excess variables and the rates of the flows connected to it, nothing else. -/
theorem C69_bus (h : systemModel sys s = .ok o) {ob : BusOut} (hb : ob ∈ o.buses) {r : ConReq} (hr : ob.tree.HasCon r) {x : Var} (hx : r.Mentions x) :
    ob.tree.HasVar x ∨ ∃ b ∈ s.buses, ∃ oc ∈ o.comps, ∃ q ∈ oc.flows, q.1.bus = b.label ∧ x = q.2.flowRate := by
  obtain ⟨_, h2, _, _⟩ := system_inv h
  obtain ⟨b, hbs, hm⟩ := forall₂_mem_right h2 hb
  have key : ∀ (sel : CompOut → List (FlowData × FlowOut)), (∀ oc, ∀ q ∈ sel oc, q ∈ oc.flows) → ∀ y ∈ busFlows (o.comps.map sel).flatten b.label,
      ∃ b ∈ s.buses, ∃ oc ∈ o.comps, ∃ q ∈ oc.flows, q.1.bus = b.label ∧ y = q.2.flowRate := by
    intro sel hsel y hy
    unfold busFlows at hy
    obtain ⟨q, hq, hh⟩ := List.mem_filterMap.1 hy
    obtain ⟨l, hl, hq⟩ := List.mem_flatten.1 hq
    obtain ⟨oc, hoc, rfl⟩ := List.mem_map.1 hl
    split at hh
    · rename_i hbq
      cases hh
      exact ⟨b, hbs, oc, hoc, q, hsel oc q hq, hbq, rfl⟩
    · cases hh
  refine refs_hasCon (P := fun x => ob.tree.HasVar x ∨ ∃ b ∈ s.buses, ∃ oc ∈ o.comps, ∃ q ∈ oc.flows, q.1.bus = b.label ∧ x = q.2.flowRate)
    (bus_refs hm (fun m hm x hx => Or.inl (vars_hasVar _ m hm x hx)) ?_ ?_).1 hr hx
  · intro y hy; exact Or.inr (key _ (fun oc q hq => List.mem_append_right _ hq) y hy)
  · intro y hy; exact Or.inr (key _ (fun oc q hq => List.mem_append_left _ hq) y hy)

/-! ## Translation -/

theorem run_summands {P : Var → Prop} {c c' : Constraint} {op : Op} (h : op.run c = .ok c') (hc : ∀ sm ∈ c.summands, P sm.var) (ho : op.Refs P) :
    ∀ sm ∈ c'.summands, P sm.var := by
  cases op with
  | summand x f i a =>
    simp only [Op.run, Constraint.addSummand] at h
    peel h with sm, hsm
    peel h with len, hlen
    simp only [except_pure, Except.ok.injEq] at h
    subst h
    unfold mkSummand at hsm
    simp only at hsm
    peel hsm with l, hl
    peel hsm with fv, hfv
    simp only [except_pure, Except.ok.injEq] at hsm
    subst hsm
    intro sm' hs
    rcases List.mem_append.1 hs with hs | hs
    · exact hc sm' hs
    · simp at hs; subst hs; exact ho
  | const k =>
    simp only [Op.run, Constraint.addConstant] at h
    have : c'.summands = c.summands := by
      unfold Constraint.addConstantFull at h
      split at h
      · rename_i c1 hh
        cases h
        split at hh
        · simp at hh
        · split at hh
          · simp at hh
          · simp only [Prod.mk.injEq] at hh
            rw [← hh.1]
      · cases h
    rw [this]; exact hc

theorem runOps_summands {P : Var → Prop} {ops : List Op} : ∀ {c c' : Constraint}, runOps c ops = .ok c' → (∀ sm ∈ c.summands, P sm.var) →
    (∀ op ∈ ops, op.Refs P) → ∀ sm ∈ c'.summands, P sm.var := by
  induction ops with
  | nil => intro c c' h hc _; simp only [runOps, Except.ok.injEq] at h; subst h; exact hc
  | cons op ops ih =>
    intro c c' h hc ho
    simp only [runOps] at h
    peel h with c1, h1
    exact ih h (run_summands h1 hc (ho op (by simp))) fun op' h' => ho op' (by simp [h'])

theorem build_summands {P : Var → Prop} {r : ConReq} {c : Constraint} (h : r.build = .ok c) (hr : r.Refs P) : ∀ sm ∈ c.summands, P sm.var :=
  runOps_summands h (by simp) hr

theorem mapM_congr_mem {α β} {f g : α → Except Err β} {l : List α} (h : ∀ a ∈ l, f a = g a) : l.mapM f = l.mapM g := by
  induction l with
  | nil => rfl
  | cons a l ih => rw [List.mapM_cons, List.mapM_cons, h a (by simp), ih fun b hb => h b (by simp [hb])]

/-- **C69 (translation).**  The look-up of variables during the translation to Pyomo never fails: translating with the variables handed to the
solver gives the same rows as without the look-up, for every constraint of the model. -/
theorem C69_translation (h : systemModel sys s = .ok o) {r : ConReq} (hr : r ∈ o.solver.cons) {c : Constraint} (hb : r.build = .ok c) :
    c.translateIn o.solver.vars = c.translate := by
  have hsm := build_summands (P := (· ∈ o.solver.vars)) hb (refs_iff.2 ((C69 h).1 r hr))
  unfold Constraint.translateIn Constraint.translate
  congr 1
  funext cv
  congr 1
  funext i
  rw [mapM_congr_mem (g := fun sm => sm.expr i)]
  intro sm hs
  unfold Summand.exprIn
  rw [if_pos (hsm sm hs)]

theorem closed_objectiveTerms {known : List Var} {ops : List Op} (h : ∀ op ∈ ops, op.Refs (· ∈ known)) : objectiveTermsIn known ops = objectiveTerms ops := by
  unfold objectiveTermsIn objectiveTerms
  cases hb : ({ label := "OBJECTIVE", kind := .eq, ops } : ConReq).build with
  | error e => rfl
  | ok c =>
    have hsm := build_summands (P := (· ∈ known)) hb h
    simp only [ok_bind]
    congr 1
    rw [mapM_congr_mem (g := fun sm => sm.expr 0)]
    intro sm hs
    unfold Summand.exprIn
    rw [if_pos (hsm sm hs)]

/-- What the Pyomo model says: every entry is in its domain, every row holds. -/
def PyomoVar.Holds (σ : Assignment) (v : PyomoVar) : Prop :=
  ∀ i d, v.entries[i]? = some d → d.Holds (σ v.label i) ∧ (v.isBinary = true → (∀ f, d ≠ .fixed f) → σ v.label i = 0 ∨ σ v.label i = 1)

def PyomoModel.Feasible (σ : Assignment) (m : PyomoModel) : Prop :=
  (∀ v ∈ m.vars, v.Holds σ) ∧ ∀ c ∈ m.eqs ++ m.ineqs, ∀ row ∈ c.rows, row.Holds σ

theorem expr_of_exprIn {known : List Var} {sm : Summand} {i : Nat} {r} (h : sm.exprIn known i = .ok r) : sm.expr i = .ok r := by
  unfold Summand.exprIn at h
  split at h
  · exact h
  · cases h

theorem translate_of_in {known : List Var} {c : Constraint} {rows : List Row} (h : c.translateIn known = .ok rows) : c.translate = .ok rows := by
  unfold Constraint.translateIn at h
  peel h with cv, hcv
  unfold Constraint.translate
  rw [hcv]
  simp only [ok_bind]
  rw [mapM_ok] at h ⊢
  refine forall₂_imp' h ?_
  intro i _ row hr
  peel hr with tss, ht
  peel hr with rhs, hrhs
  have : c.summands.mapM (fun sm => sm.expr i) = .ok tss := by
    rw [mapM_ok] at ht ⊢
    exact forall₂_imp' ht fun sm _ r hh => expr_of_exprIn hh
  rw [this]
  simp only [ok_bind]
  rw [hrhs]
  exact hr

theorem checkRows_ok {rows rows' : List Row} : checkRows rows = .ok rows' ↔ rows' = rows ∧ ∀ row ∈ rows, row.terms ≠ [] := by
  unfold checkRows
  by_cases h : rows.any (·.terms.isEmpty) = true
  · rw [if_pos h]
    simp only [reduceCtorEq, false_iff, not_and]
    rintro -
    obtain ⟨row, hr, ht⟩ := List.any_eq_true.1 h
    exact fun hh => hh row hr (List.isEmpty_iff.1 ht)
  · rw [if_neg h, Except.ok.injEq, eq_comm, iff_self_and]
    rintro - row hr ht
    exact h (List.any_eq_true.2 ⟨row, hr, by rw [ht]; rfl⟩)

theorem translateIn_rows {known : List Var} {r : ConReq} {p : PyomoCon} (h : r.translateIn known = .ok p) : ∀ row ∈ p.rows, row.terms ≠ [] := by
  unfold ConReq.translateIn at h
  peel h with c, hc
  peel h with rows, hr
  peel h with rows', hr'
  simp only [except_pure, Except.ok.injEq] at h
  subst h
  obtain ⟨rfl, ht⟩ := checkRows_ok.1 hr'
  exact ht

theorem translateIn_ok {known : List Var} {r : ConReq} {p : PyomoCon} (h : r.translateIn known = .ok p) :
    ∃ c, r.build = .ok c ∧ c.translate = .ok p.rows ∧ p.label = r.label := by
  unfold ConReq.translateIn at h
  peel h with c, hc
  peel h with rows, hr
  peel h with rows', hr'
  simp only [except_pure, Except.ok.injEq] at h
  subst h
  obtain ⟨rfl, _⟩ := checkRows_ok.1 hr'
  exact ⟨c, hc, translate_of_in hr, rfl⟩

theorem toPyomo_ok {x : Var} {v : PyomoVar} (h : x.toPyomo = .ok v) : x.translate = .ok v.entries ∧ v.label = x.label ∧ v.isBinary = x.isBinary := by
  unfold Var.toPyomo at h
  peel h with ds, hd
  simp only [except_pure, Except.ok.injEq] at h
  subst h
  exact ⟨hd, rfl, rfl⟩

theorem translateModel_inv {m : SolverModel} {p : PyomoModel} (h : translateModel m = .ok p) :
    List.Forall₂ (fun x v => x.toPyomo = .ok v) m.vars p.vars ∧ List.Forall₂ (fun r c => r.translateIn m.vars = .ok c) m.equations p.eqs ∧
    List.Forall₂ (fun r c => r.translateIn m.vars = .ok c) m.inequations p.ineqs ∧ objectiveTermsIn m.vars m.objective = .ok p.objective ∧
    p.names = compNames (m.vars.map (·.label) ++ m.equations.map (·.label) ++ m.inequations.map (·.label)) ++ ["objective"] := by
  unfold translateModel at h
  peel h with vars, h1
  peel h with eqs, h2
  peel h with ineqs, h3
  peel h with obj, h4
  peel h with names, h5
  simp only [except_pure, Except.ok.injEq] at h
  subst h
  refine ⟨mapM_ok.1 h1, mapM_ok.1 h2, mapM_ok.1 h3, h4, ?_⟩
  unfold addComponents at h5
  split at h5
  · cases h5; rfl
  · cases h5

theorem kind_cases (m : SolverModel) (r : ConReq) : r ∈ m.cons ↔ r ∈ m.equations ∨ r ∈ m.inequations := by
  unfold SolverModel.equations SolverModel.inequations
  simp only [List.mem_filter, decide_eq_true_eq]
  cases hk : r.kind <;> simp

/-- **C69 (meaning of the translation).**  The Pyomo model has exactly the solutions of the model handed to the solver: nothing is lost or
added by sorting constraints into equations and inequations. -/
theorem C69_meaning {m : SolverModel} {p : PyomoModel} (h : translateModel m = .ok p) (σ : Assignment) : p.Feasible σ ↔ m.Solves σ := by
  obtain ⟨h1, h2, h3, _, _⟩ := translateModel_inv h
  unfold PyomoModel.Feasible SolverModel.Solves
  constructor
  · rintro ⟨a, b⟩
    constructor
    · intro x hx
      obtain ⟨v, hv, hxv⟩ := forall₂_mem_left h1 hx
      obtain ⟨t1, t2, t3⟩ := toPyomo_ok hxv
      have := a v hv
      unfold PyomoVar.Holds at this
      rw [t2, t3] at this
      exact ⟨_, t1, this⟩
    · intro r hr
      rcases (kind_cases m r).1 hr with hr | hr
      · obtain ⟨c, hc, hrc⟩ := forall₂_mem_left h2 hr
        obtain ⟨c', t1, t2, _⟩ := translateIn_ok hrc
        exact ⟨c', _, t1, t2, b c (List.mem_append_left _ hc)⟩
      · obtain ⟨c, hc, hrc⟩ := forall₂_mem_left h3 hr
        obtain ⟨c', t1, t2, _⟩ := translateIn_ok hrc
        exact ⟨c', _, t1, t2, b c (List.mem_append_right _ hc)⟩
  · rintro ⟨a, b⟩
    constructor
    · intro v hv
      obtain ⟨x, hx, hxv⟩ := forall₂_mem_right h1 hv
      obtain ⟨t1, t2, t3⟩ := toPyomo_ok hxv
      obtain ⟨ds, hd, hh⟩ := a x hx
      rw [t1] at hd
      cases hd
      unfold PyomoVar.Holds
      rw [t2, t3]
      exact hh
    · intro c hc
      have : ∃ r ∈ m.cons, r.translateIn m.vars = .ok c := by
        rcases List.mem_append.1 hc with hc | hc
        · obtain ⟨r, hr, hh⟩ := forall₂_mem_right h2 hc
          exact ⟨r, (kind_cases m r).2 (Or.inl hr), hh⟩
        · obtain ⟨r, hr, hh⟩ := forall₂_mem_right h3 hc
          exact ⟨r, (kind_cases m r).2 (Or.inr hr), hh⟩
      obtain ⟨r, hr, hrc⟩ := this
      obtain ⟨c', t1, t2, _⟩ := translateIn_ok hrc
      obtain ⟨c'', rows, u1, u2, hh⟩ := b r hr
      rw [t1] at u1; cases u1
      rw [t2] at u2; cases u2
      exact hh

/-! ## C70: sizes and names -/

theorem isDigit_ne {c : Char} (h : c.isDigit = true) : c ≠ '_' := by rintro rfl; revert h; decide

theorem takeWhile_sep {α} {p : α → Bool} {a b : List α} {c : α} (ha : ∀ x ∈ a, p x = true) (hc : p c = false) : (a ++ c :: b).takeWhile p = a := by
  induction a with
  | nil => simp [hc]
  | cons x a ih => simp [ha x (by simp), ih fun y hy => ha y (by simp [hy])]

theorem compName_inj {l l' : String} {i j : Nat} (h : compName l i = compName l' j) : i = j := by
  have h' := congrArg (fun s : String => (s.toList.reverse.takeWhile fun c => decide (c ≠ '_'))) h
  have key : ∀ (l : String) (i : Nat), ((compName l i).toList.reverse.takeWhile fun c => decide (c ≠ '_')) = (toString i).toList.reverse := by
    intro l i
    unfold compName
    have e : (l ++ "__" ++ toString i).toList.reverse = (toString i).toList.reverse ++ '_' :: '_' :: l.toList.reverse := by
      simp [String.toList_append]
    rw [e]
    apply takeWhile_sep
    · intro c hc
      have : c.isDigit = true := by
        have hc' : c ∈ (toString i).toList := List.mem_reverse.1 hc
        rw [Nat.toString_eq_repr, Nat.toList_repr] at hc'
        exact Nat.isDigit_of_mem_toDigits (by decide) (by decide) hc'
      simpa using isDigit_ne this
    · simp
  simp only [key] at h'
  have := List.reverse_inj.1 h'
  exact toString_nat_inj (String.ext this)

theorem compName_ne (l : String) (i : Nat) : compName l i ≠ "objective" := by
  intro h
  have h' := congrArg (fun s : String => '_' ∈ s.toList) h
  simp [compName, String.toList_append] at h'

/-- **C70 (names).**  The names under which variables and constraints are registered in Pyomo are distinct, whatever their labels are; none
is `objective`. -/
theorem C70_names (labels : List String) : (compNames labels ++ ["objective"]).Nodup := by
  rw [List.nodup_append]
  refine ⟨?_, by simp, ?_⟩
  · unfold compNames
    rw [List.nodup_iff_injective_get]
    intro a b hab
    simp only [List.get_eq_getElem, List.getElem_mapIdx] at hab
    have := compName_inj hab
    exact Fin.ext (by omega)
  · intro a ha b hb
    simp only [List.mem_cons, List.not_mem_nil, or_false] at hb
    subst hb
    unfold compNames at ha
    obtain ⟨i, hi, rfl⟩ := List.mem_mapIdx.1 ha
    exact compName_ne _ _

theorem addComponents_ok (labels : List String) : addComponents (compNames labels ++ ["objective"]) = .ok (compNames labels ++ ["objective"]) :=
  if_pos (C70_names labels)

theorem mapM_exists {α β} {f : α → Except Err β} {l : List α} (h : ∀ a ∈ l, ∃ b, f a = .ok b) : ∃ r, l.mapM f = .ok r := by
  induction l with
  | nil => exact ⟨[], rfl⟩
  | cons a l ih =>
    obtain ⟨b, hb⟩ := h a (by simp)
    obtain ⟨r, hr⟩ := ih fun c hc => h c (by simp [hc])
    exact ⟨b :: r, by rw [List.mapM_cons, hb, hr]; rfl⟩

/-! ## C85: no row without a variable -/

theorem busFlows_tied (h : systemModel sys s = .ok o) {b : BusData} (hb : ∃ c ∈ s.comps, ∃ f ∈ c.flows, f.bus = b.label) :
    busFlows (o.comps.map (·.outputs)).flatten b.label ++ busFlows (o.comps.map (·.inputs)).flatten b.label ≠ [] := by
  obtain ⟨h1, _⟩ := system_inv h
  obtain ⟨c, hc, f, hf, hl⟩ := hb
  obtain ⟨oc, hoc, hm⟩ := forall₂_mem_left h1 hc
  obtain ⟨f1, f2⟩ := model_flowOf hm
  have key : ∀ (sel : CompOut → List (FlowData × FlowOut)) (q : FlowData × FlowOut), q ∈ sel oc → q.1.bus = b.label →
      q.2.flowRate ∈ busFlows (o.comps.map sel).flatten b.label := by
    intro sel q hq hbus
    unfold busFlows
    exact List.mem_filterMap.2 ⟨q, List.mem_flatten.2 ⟨_, List.mem_map.2 ⟨oc, hoc, rfl⟩, hq⟩, by rw [if_pos hbus]⟩
  unfold Comp.flows at hf
  rcases List.mem_append.1 hf with hf | hf
  · obtain ⟨q, hq, hof⟩ := forall₂_mem_left f1 hf
    exact List.ne_nil_of_mem (List.mem_append_right _ (key (·.inputs) q hq (hof.1.trans hl)))
  · obtain ⟨q, hq, hof⟩ := forall₂_mem_left f2 hf
    exact List.ne_nil_of_mem (List.mem_append_left _ (key (·.outputs) q hq (hof.1.trans hl)))

theorem system_talks (h : systemModel sys s = .ok o) (ht : s.Tied) : ∀ r ∈ o.solver.cons, r.Talks := by
  obtain ⟨h1, h2, h3, h4⟩ := system_inv h
  obtain ⟨_, m2⟩ := C52_mem h
  intro r hr
  obtain ⟨t, ht', m, hm, hc⟩ := (m2 r).1 hr
  refine (?_ : t.Talks) m ((within_nodes m t).2 hm) r hc
  unfold SysOut.models at ht'
  simp only [List.cons_append, List.mem_cons, List.mem_append, List.mem_map] at ht'
  rcases ht' with rfl | ⟨oc, hoc, rfl⟩ | ⟨ob, hob, rfl⟩
  · exact collection_talks h3
  · obtain ⟨c, hcs, hm⟩ := forall₂_mem_right h1 hoc
    exact model_talks hm (ht.comps c hcs)
  · obtain ⟨b, hbs, hm⟩ := forall₂_mem_right h2 hob
    exact bus_talks hm ((ht.buses b hbs).imp_right (busFlows_tied h))

/-- **C85.**  In a system without loose ends every row of every constraint handed to Pyomo mentions a variable: none is a comparison of two
numbers, which Pyomo would refuse. -/
theorem C85 (h : systemModel sys s = .ok o) (ht : s.Tied) {r : ConReq} (hr : r ∈ o.solver.cons) {c : Constraint} {rows : List Row}
    (hb : r.build = .ok c) (hrows : c.translate = .ok rows) : ∀ row ∈ rows, row.terms ≠ [] :=
  talks_rows hb hrows (system_talks h ht r hr)

/-- **C69 (translation of the whole model).**  A solvable model of a system with well-shaped values and without loose ends is translated without an error, the Pyomo
model has the same solutions, and its objective is that of the effects. -/
theorem C69_translated (hv : sys.Valid) (hn : sys.n ≠ 0) (hf : s.Fits sys.n) (ht : s.Tied) (h : systemModel sys s = .ok o) {σ : Assignment} (hs : o.solver.Solves σ) :
    ∃ p, translateModel o.solver = .ok p ∧ (∀ τ, p.Feasible τ ↔ o.solver.Solves τ) ∧ objectiveTerms o.solver.objective = .ok p.objective := by
  obtain ⟨vars, h1⟩ := mapM_exists (f := Var.toPyomo) (l := o.solver.vars) (by
    intro x hx
    obtain ⟨ds, hd, _⟩ := hs.1 x hx
    exact ⟨_, by unfold Var.toPyomo; rw [hd]; rfl⟩)
  have hcon : ∀ r ∈ o.solver.cons, ∃ c, r.translateIn o.solver.vars = .ok c := by
    intro r hr
    obtain ⟨c, rows, h1, h2, _⟩ := hs.2 r hr
    exact ⟨_, by
      unfold ConReq.translateIn
      rw [h1, ok_bind, C69_translation h hr h1, h2, ok_bind, checkRows_ok.2 ⟨rfl, C85 h ht hr h1 h2⟩]
      rfl⟩
  obtain ⟨eqs, h2⟩ := mapM_exists (f := ConReq.translateIn o.solver.vars) (l := o.solver.equations) (fun r hr => hcon r ((kind_cases _ r).2 (Or.inl hr)))
  obtain ⟨ineqs, h3⟩ := mapM_exists (f := ConReq.translateIn o.solver.vars) (l := o.solver.inequations) (fun r hr => hcon r ((kind_cases _ r).2 (Or.inr hr)))
  obtain ⟨terms, _, hterms, _⟩ := C22_system hv hn hf h
  have hobj : objectiveTermsIn o.solver.vars o.solver.objective = .ok terms := by
    rw [closed_objectiveTerms, hterms]
    intro op hop
    cases op with
    | summand x f i a => exact (C69 h).2 _ hop x ⟨f, i, a, rfl⟩
    | const k => trivial
  have : translateModel o.solver = .ok ⟨vars, eqs, ineqs, terms,
      compNames (o.solver.vars.map (·.label) ++ o.solver.equations.map (·.label) ++ o.solver.inequations.map (·.label)) ++ ["objective"]⟩ := by
    unfold translateModel
    rw [h1, ok_bind, h2, ok_bind, h3, ok_bind, hobj, ok_bind, addComponents_ok]
    rfl
  exact ⟨_, this, fun τ => C69_meaning this τ, hterms⟩

theorem sum_of_forall₂ {α β} {R : α → β → Prop} {l : List α} {r : List β} {f : α → Nat} {g : β → Nat} (h : List.Forall₂ R l r)
    (hfg : ∀ a b, R a b → f a = g b) : (l.map f).sum = (r.map g).sum := by
  induction h with
  | nil => rfl
  | cons hd _ ih => simp [hfg _ _ hd, ih]

theorem translate_length {c : Constraint} {rows : List Row} (h : c.translate = .ok rows) : rows.length = c.length := by
  unfold Constraint.translate at h
  peel h with cv, hcv
  have := (mapM_ok.1 h).length_eq
  simpa using this.symm

theorem var_translate_length {x : Var} {ds : List Dom} (h : x.translate = .ok ds) : ds.length = x.length := by
  unfold Var.translate at h
  peel h with a, ha
  peel h with b, hb
  peel h with c, hc
  have := (mapM_ok.1 h).length_eq
  simpa using this.symm

/-- **C70.**  The reported model size is the size of what Pyomo receives: numbers of variables, equations and inequations, of their single
entries and rows, and of the variables over time (those with more than one entry). -/
theorem C70 {m : SolverModel} {p : PyomoModel} (h : translateModel m = .ok p) :
    ∃ z, m.size = .ok z ∧ z.vars = p.vars.length ∧ z.eqs = p.eqs.length ∧ z.ineqs = p.ineqs.length ∧
      z.singleVars = (p.vars.map fun v => v.entries.length).sum ∧ z.singleEqs = (p.eqs.map fun c => c.rows.length).sum ∧
      z.singleIneqs = (p.ineqs.map fun c => c.rows.length).sum ∧ z.tsVars = (p.vars.filter fun v => v.entries.length > 1).length ∧
      (∀ c ∈ p.eqs, ∀ row ∈ c.rows, row.kind = .eq) ∧ ∀ c ∈ p.ineqs, ∀ row ∈ c.rows, row.kind = .ineq := by
  obtain ⟨h1, h2, h3, _, _⟩ := translateModel_inv h
  have hlen : ∀ (r : ConReq) (c : PyomoCon), r.translateIn m.vars = .ok c → r.finalLength = .ok c.rows.length := by
    intro r c hh
    obtain ⟨c', t1, t2, _⟩ := translateIn_ok hh
    unfold ConReq.finalLength
    rw [t1, translate_length t2]
    rfl
  have hmap : ∀ {l : List ConReq} {cs : List PyomoCon}, List.Forall₂ (fun r c => r.translateIn m.vars = .ok c) l cs →
      l.mapM ConReq.finalLength = .ok (cs.map fun c => c.rows.length) := by
    intro l cs hh
    rw [mapM_ok, List.forall₂_map_right_iff]
    exact forall₂_imp' hh fun r _ c hc => hlen r c hc
  have hkind : ∀ {k : Kind} {l : List ConReq} {cs : List PyomoCon}, List.Forall₂ (fun r c => r.translateIn m.vars = .ok c) l cs →
      (∀ r ∈ l, r.kind = k) → ∀ c ∈ cs, ∀ row ∈ c.rows, row.kind = k := by
    intro k l cs hh hk c hc row hrow
    obtain ⟨r, hr, hrc⟩ := forall₂_mem_right hh hc
    obtain ⟨c', t1, t2, _⟩ := translateIn_ok hrc
    have hck : c'.kind = r.kind := (build_built t1).hkind
    unfold Constraint.translate at t2
    peel t2 with cv, hcv
    obtain ⟨i, _, hi⟩ := forall₂_mem_right (mapM_ok.1 t2) hrow
    peel hi with tss, ht
    peel hi with rhs, hrhs
    simp only [except_pure, Except.ok.injEq] at hi
    rw [← hi]
    show c'.kind = k
    rw [hck, hk r hr]
  refine ⟨⟨m.equations.length, (p.eqs.map fun c => c.rows.length).sum, m.inequations.length, (p.ineqs.map fun c => c.rows.length).sum, m.vars.length,
    (m.vars.map (·.length)).sum, (m.vars.filter fun x => x.length > 1).length⟩, ?_, h1.length_eq, h2.length_eq, h3.length_eq, sum_of_forall₂ h1 ?_, rfl, rfl, ?_, ?_, ?_⟩
  · unfold SolverModel.size
    rw [hmap h2, ok_bind, hmap h3, ok_bind]
    rfl
  · intro x v hxv
    exact (var_translate_length (toPyomo_ok hxv).1).symm
  · clear h2 h3 hmap hlen hkind h
    show (m.vars.filter fun x => x.length > 1).length = _
    generalize m.vars = vs at h1 ⊢
    generalize p.vars = ps at h1 ⊢
    induction h1 with
    | nil => rfl
    | cons hd _ ih =>
      have := var_translate_length (toPyomo_ok hd).1
      simp only [List.filter_cons, this]
      split <;> simp [ih]
  · exact hkind h2 fun r hr => by simpa [SolverModel.equations] using (List.mem_filter.1 hr).2
  · exact hkind h3 fun r hr => by simpa [SolverModel.inequations] using (List.mem_filter.1 hr).2

theorem of_okB {α} {r : Except Err α} {p : α → Bool} (h : (match r with | .ok a => p a | .error _ => false) = true) : ∃ a, r = .ok a ∧ p a = true := by
  cases r with
  | ok a => exact ⟨a, rfl, h⟩
  | error e => simp at h

/-- **C70 is wrong for `nr_of_constraints`.**  It is 0 for every system, also for the example with its many constraints. -/
theorem C70_nr_wrong : ∃ o, systemModel exSys exSystem = .ok o ∧ o.solver.nrOfConstraints ≠ o.solver.cons.length := by
  obtain ⟨o, h, hh⟩ := of_okB (p := fun o : SysOut => decide (o.solver.nrOfConstraints ≠ o.solver.cons.length)) (r := systemModel exSys exSystem) (by decide +kernel)
  exact ⟨o, h, of_decide_eq_true hh⟩

theorem exSystem_tied : exSystem.Tied := by
  constructor
  · intro c hc
    simp only [exSystem, List.mem_cons, List.not_mem_nil, or_false] at hc
    rcases hc with rfl | rfl | rfl
    · refine ⟨?_, by simp, by simp⟩
      simp [Comp.flows, Comp.inputs, Comp.outputs, FlowData.Tied, exGasOut]
    · refine ⟨?_, ?_, by simp⟩
      · simp [Comp.flows, Comp.inputs, Comp.outputs, FlowData.Tied, exBoilerIn, exBoilerOut, InvestParams.Tied, exBoilerInvest]
      · rintro _ ⟨⟩
        refine ⟨?_, by simp⟩
        simp only [List.mem_cons, List.not_mem_nil, or_false, forall_eq]
        exact ⟨("fu", .s (1 / 2)), Or.inl rfl, exBoilerIn, by simp, rfl⟩
    · refine ⟨?_, by simp, by simp⟩
      simp [Comp.flows, Comp.inputs, Comp.outputs, FlowData.Tied, exLoadIn]
  · intro b hb
    simp only [exSystem, List.mem_cons, List.not_mem_nil, or_false] at hb
    rcases hb with rfl | rfl
    · exact Or.inr ⟨_, List.mem_cons_self, exGasOut, by simp [Comp.flows, Comp.outputs, Comp.inputs], rfl⟩
    · exact Or.inl (by simp)

/-- The example system with a boiler whose conversion names no flow. -/
def exLoose : System :=
  { exSystem with comps := exSystem.comps ++ [.converter { comp := { label := "Loose", inputs := [exBoilerIn], outputs := [exLoadIn] }, factors := [[]] }] }

/-- **C85 is not ensured by the checks.**  A converter with an empty dictionary of conversion factors passes the checks of its constructor and
is modelled, but Pyomo refuses its conversion equation: the exception comes as late as the translation. -/
theorem C85_checks_wrong : (∀ c, Comp.converter c ∈ exLoose.comps → c.check = .ok ()) ∧ ∃ o, systemModel exSys exLoose = .ok o ∧
    translateModel o.solver = .error .value := by
  constructor
  · intro c hc
    simp only [exLoose, exSystem, List.cons_append, List.nil_append, List.mem_cons, reduceCtorEq, Comp.converter.injEq, List.not_mem_nil, or_false, false_or] at hc
    rcases hc with rfl | rfl <;> decide +kernel
  · obtain ⟨o, h, hh⟩ := of_okB (p := fun o : SysOut => match translateModel o.solver with | .error .value => true | _ => false)
      (r := systemModel exSys exLoose) (by decide +kernel)
    refine ⟨o, h, ?_⟩
    split at hh
    · assumption
    · cases hh

/-- Rows of the example system, all with variables. -/
example : ∃ o r c rows row, systemModel exSys exSystem = .ok o ∧ r ∈ o.solver.cons ∧ r.build = .ok c ∧ c.translate = .ok rows ∧ row ∈ rows ∧
    row.terms ≠ [] := by
  obtain ⟨o, h, hs⟩ := exSystem_ok
  obtain ⟨o', h', hh⟩ := of_okB (p := fun o : SysOut => o.solver.cons.any fun r => match r.build with | .ok c => decide (0 < c.length) | .error _ => false)
    (r := systemModel exSys exSystem) (by decide +kernel)
  rw [h] at h'; cases h'
  obtain ⟨r, hr, hrc⟩ := List.any_eq_true.1 hh
  obtain ⟨c, rows, h1, h2, _⟩ := hs.2 r hr
  rw [h1] at hrc
  have : rows ≠ [] := by
    rw [← List.length_pos_iff, translate_length h2]
    exact of_decide_eq_true hrc
  obtain ⟨row, hrow⟩ := List.exists_mem_of_ne_nil _ this
  exact ⟨o, r, c, rows, row, h, hr, h1, h2, hrow, C85 h exSystem_tied hr h1 h2 row hrow⟩

/-- The example system: 26 variables and so on reach Pyomo as they are counted. -/
example : ∃ o p z, systemModel exSys exSystem = .ok o ∧ translateModel o.solver = .ok p ∧ o.solver.size = .ok z ∧ p.Feasible exSystemSol ∧
    1 < z.eqs ∧ z.eqs = p.eqs.length := by
  obtain ⟨o, h, hs⟩ := exSystem_ok
  obtain ⟨p, hp, hiff, _⟩ := C69_translated exSys_valid (by decide) exSystem_fits exSystem_tied h hs
  obtain ⟨z, hz, _, he, _⟩ := C70 hp
  obtain ⟨o', h', hh⟩ := of_okB (p := fun o : SysOut => decide (1 < o.solver.equations.length)) (r := systemModel exSys exSystem) (by decide +kernel)
  rw [h] at h'; cases h'
  have hl := (translateModel_inv hp).2.1.length_eq
  exact ⟨o, p, z, h, hp, hz, (hiff _).2 hs, by rw [he, ← hl]; exact of_decide_eq_true hh, he⟩

/-- A constraint of the example system mentions variables, and they are known. -/
example : ∃ o r x, systemModel exSys exSystem = .ok o ∧ r ∈ o.solver.cons ∧ r.Mentions x ∧ x ∈ o.solver.vars := by
  obtain ⟨o, h, hh⟩ := of_okB (p := fun o : SysOut => o.solver.cons.any fun r => r.ops.any Op.isSummand) (r := systemModel exSys exSystem) (by decide +kernel)
  rw [List.any_eq_true] at hh
  obtain ⟨r, hr, hh⟩ := hh
  rw [List.any_eq_true] at hh
  obtain ⟨op, hop, hh⟩ := hh
  cases op with
  | const k => simp [Op.isSummand] at hh
  | summand x f i a =>
    have hm : r.Mentions x := ⟨_, hop, f, i, a, rfl⟩
    exact ⟨o, r, x, h, hr, hm, (C69 h).1 r hr x hm⟩

end Flix
