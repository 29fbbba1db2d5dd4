import Verif.Lemmas.Norm
import Verif.Lemmas.InfoFiles
import Verif.Props.Order

/-!
# What the description of a flow system tells

C97: two flow systems with the same description (`FlowSystem.infos`) pose the same optimization problem.  The prevention of simultaneous flows of storages
and transmissions is missing from the description, and the shortened form (`to_json`) rounds time series.
-/

namespace Flix

variable {sys : Sys}

/-! ## Specification -/

/-- Whether simultaneous charging and discharging, or flows in both directions, are prevented: the argument that no description contains. -/
def Comp.guard : Comp → Bool
  | .storage s => s.preventSimultaneous
  | .transmission t => t.preventBoth
  | _ => true

/-- What the constructors allow: a `LinearConverter` has no argument for flows that exclude each other (components.py:26-35), a previous flow rate is a
number, a series or not given. -/
structure Comp.Constructed (c : Comp) : Prop where
  prevent : ∀ d, c = .converter d → d.comp.prevent = []
  previous : ∀ f ∈ c.flows, f.previousFlowRate ≠ some (.v [])

/-- Both models state the same problem: the same variables, the same objective, the same solutions. -/
def SysOut.SameProblem (o o' : SysOut) : Prop :=
  o.solver.vars.Perm o'.solver.vars ∧ o'.solver.objective = o.solver.objective ∧ ∀ σ : Assignment, o.solver.Solves σ ↔ o'.solver.Solves σ

/-! ## Proof -/

theorem guard_norm (cfg : Cfg) (c : Comp) : (c.norm cfg).guard = c.guard := by cases c <;> rfl

theorem comp_inj {np lab : Bool} {cfg : Cfg} {env env' : String → BusData} {c d : Comp} (hc : c.Constructed) (hd : d.Constructed) (hg : c.guard = d.guard)
    (h : c.infos cfg np lab env = d.infos cfg np lab env') : c.norm cfg = d.norm cfg := by
  match c, d with
  | .plain a, .plain b => exact congrArg Comp.plain (plain_inj hc.previous hd.previous h)
  | .converter a, .converter b =>
    exact congrArg Comp.converter (converter_inj (hc.prevent a rfl) (hd.prevent b rfl) hc.previous hd.previous h)
  | .storage a, .storage b =>
    exact congrArg Comp.storage (storage_inj hg (hc.previous _ (by simp [Comp.flows, Comp.inputs])) (hc.previous _ (by simp [Comp.flows, Comp.outputs]))
      (hd.previous _ (by simp [Comp.flows, Comp.inputs])) (hd.previous _ (by simp [Comp.flows, Comp.outputs])) h)
  | .transmission a, .transmission b => exact congrArg Comp.transmission (transmission_inj hg hc.previous hd.previous h)
  | .plain a, .converter b => exact absurd (comp_class (c := .plain a) (d := .converter b) rfl rfl h) (by decide +kernel)
  | .plain a, .storage b => exact absurd (comp_class (c := .plain a) (d := .storage b) rfl rfl h) (by decide +kernel)
  | .plain a, .transmission b => exact absurd (comp_class (c := .plain a) (d := .transmission b) rfl rfl h) (by decide +kernel)
  | .converter a, .plain b => exact absurd (comp_class (c := .converter a) (d := .plain b) rfl rfl h) (by decide +kernel)
  | .converter a, .storage b => exact absurd (comp_class (c := .converter a) (d := .storage b) rfl rfl h) (by decide +kernel)
  | .converter a, .transmission b => exact absurd (comp_class (c := .converter a) (d := .transmission b) rfl rfl h) (by decide +kernel)
  | .storage a, .plain b => exact absurd (comp_class (c := .storage a) (d := .plain b) rfl rfl h) (by decide +kernel)
  | .storage a, .converter b => exact absurd (comp_class (c := .storage a) (d := .converter b) rfl rfl h) (by decide +kernel)
  | .storage a, .transmission b => exact absurd (comp_class (c := .storage a) (d := .transmission b) rfl rfl h) (by decide +kernel)
  | .transmission a, .plain b => exact absurd (comp_class (c := .transmission a) (d := .plain b) rfl rfl h) (by decide +kernel)
  | .transmission a, .converter b => exact absurd (comp_class (c := .transmission a) (d := .converter b) rfl rfl h) (by decide +kernel)
  | .transmission a, .storage b => exact absurd (comp_class (c := .transmission a) (d := .storage b) rfl rfl h) (by decide +kernel)

theorem map_eq_of_map_eq {α β γ : Type} {f f' : α → β} {g : α → γ} : ∀ {xs ys : List α}, xs.map f = ys.map f' → (∀ a ∈ xs, ∀ b ∈ ys, f a = f' b → g a = g b) → xs.map g = ys.map g
  | [], [], _, _ => rfl
  | [], _ :: _, h, _ => by simp at h
  | _ :: _, [], h, _ => by simp at h
  | a :: xs, b :: ys, h, k => by
    simp only [List.map_cons, List.cons.injEq] at h
    rw [List.map_cons, List.map_cons, k a List.mem_cons_self b List.mem_cons_self h.1,
      map_eq_of_map_eq h.2 fun a ha b hb => k a (List.mem_cons_of_mem _ ha) b (List.mem_cons_of_mem _ hb)]

theorem byLabel_perm {α : Type} (l : α → String) (xs : List α) : (byLabel l xs).Perm xs := List.mergeSort_perm _ _

theorem name_label (c : Comp) : c.name = c.label := by cases c <;> rfl

/-- What follows from equal descriptions. -/
theorem infos_inj {cfg : Cfg} {np lab : Bool} {text text' : String → String × String} {s s' : System} (hc : ∀ c ∈ s.comps, c.Constructed) (hc' : ∀ c ∈ s'.comps, c.Constructed)
    (hg : ∀ c ∈ s.comps, ∀ c' ∈ s'.comps, c.label = c'.label → c.guard = c'.guard) (h : s.infos cfg np lab text = s'.infos cfg np lab text') :
    (byLabel Comp.name s.comps).map (Comp.norm cfg) = (byLabel Comp.name s'.comps).map (Comp.norm cfg) ∧ byLabel BusData.label s.buses = byLabel BusData.label s'.buses ∧
      byLabel EffectData.label s.effects = byLabel EffectData.label s'.effects := by
  simp only [System.infos, Doc.dict.injEq, List.cons.injEq, Prod.mk.injEq, true_and, and_true] at h
  refine ⟨map_eq_of_map_eq h.1 fun a ha b hb e => ?_, ?_, ?_⟩
  · have ma := (byLabel_perm _ _).mem_iff.1 ha
    have mb := (byLabel_perm _ _).mem_iff.1 hb
    simp only [Prod.mk.injEq, Option.some.injEq, name_label] at e
    exact comp_inj (hc a ma) (hc' b mb) (hg a ma b mb e.1) e.2
  · simpa using map_eq_of_map_eq (g := id) h.2.1 fun a _ b _ e => bus_inj (Prod.mk.inj e).2
  · simpa using map_eq_of_map_eq (g := id) h.2.2 fun a _ b _ e => effect_inj (Prod.mk.inj e).2

theorem solver_norm {s : System} {o : SysOut} (h : systemModel sys s = .ok o) : ∃ o', systemModel sys (s.norm sys.cfg) = .ok o' ∧ o'.solver = o.solver := by
  have e := systemModel_norm (sys := sys) s
  rw [h] at e
  obtain ⟨o', h', e'⟩ := map_ok.1 e
  exact ⟨o', h', e'⟩

theorem solver_unnorm {s : System} {o : SysOut} (h : systemModel sys (s.norm sys.cfg) = .ok o) : ∃ o', systemModel sys s = .ok o' ∧ o'.solver = o.solver := by
  have e := (systemModel_norm (sys := sys) s).symm
  rw [h] at e
  obtain ⟨o', h', e'⟩ := map_ok.1 e
  exact ⟨o', h', e'⟩

theorem fits_of_perm {n : Nat} {s s' : System} (h : s.Fits n) (pe : s.effects.Perm s'.effects) (pc : s.comps.Perm s'.comps) (pb : s.buses.Perm s'.buses) : s'.Fits n :=
  ⟨fun e he => h.effects e (pe.mem_iff.2 he), fun c hc => h.comps c (pc.mem_iff.2 hc), fun b hb => h.buses b (pb.mem_iff.2 hb)⟩

/-- **C97.**  Flow systems with the same description pose the same optimization problem, in whatever order their elements were added, if storages and transmissions
with the same label agree in the one argument the description leaves out.  Missing: exactly that argument (`C97_storage_wrong`, `C97_transmission_wrong`). -/
theorem C97_partial {s s' : System} {np lab : Bool} {text text' : String → String × String} {o : SysOut} (hv : sys.Valid) (hn : sys.n ≠ 0) (hf : s.Fits sys.n) (hf' : s'.Fits sys.n)
    (hu : System.Single s.effects) (hc : ∀ c ∈ s.comps, c.Constructed) (hc' : ∀ c ∈ s'.comps, c.Constructed)
    (hg : ∀ c ∈ s.comps, ∀ c' ∈ s'.comps, c.label = c'.label → c.guard = c'.guard) (hi : s.infos sys.cfg np lab text = s'.infos sys.cfg np lab text')
    (h : systemModel sys s = .ok o) : ∃ o', systemModel sys s' = .ok o' ∧ o.SameProblem o' := by
  obtain ⟨e1, e2, e3⟩ := infos_inj hc hc' hg hi
  let t : System := ⟨byLabel EffectData.label s.effects, byLabel Comp.name s.comps, byLabel BusData.label s.buses⟩
  let t' : System := ⟨byLabel EffectData.label s'.effects, byLabel Comp.name s'.comps, byLabel BusData.label s'.buses⟩
  obtain ⟨o1, h1, p1, q1, r1⟩ := C73 (s' := t) hv hn hf hu (byLabel_perm _ _).symm (byLabel_perm _ _).symm (byLabel_perm _ _).symm h
  obtain ⟨o2, h2, k2⟩ := solver_norm h1
  have e : t.norm sys.cfg = t'.norm sys.cfg := by
    simp only [System.norm, t, t', e1, e2, e3]
  rw [e] at h2
  obtain ⟨o3, h3, k3⟩ := solver_unnorm h2
  have pe : s.effects.Perm t'.effects := by
    have : t'.effects = byLabel EffectData.label s.effects := e3.symm
    rw [this]
    exact (byLabel_perm _ _).symm
  have hu' : System.Single t'.effects := by
    exact ⟨(pe.filter _).length_eq ▸ hu.standard, (pe.filter _).length_eq ▸ hu.objective⟩
  have hft : t'.Fits sys.n := fits_of_perm hf' (byLabel_perm _ _).symm (byLabel_perm _ _).symm (byLabel_perm _ _).symm
  obtain ⟨o4, h4, p4, q4, r4⟩ := C73 (s' := s') hv hn hft hu' (byLabel_perm _ _) (byLabel_perm _ _) (byLabel_perm _ _) h3
  have k : o3.solver = o1.solver := k3.trans k2
  refine ⟨o4, h4, p1.trans ?_, ?_, fun σ => (r1 σ).trans ?_⟩
  · rw [← k]; exact p4
  · rw [q4, k, q1]
  · rw [← k]; exact r4 σ

/-! ## The saved description is that after modelling -/

theorem fillOnOff_effFits {n : Nat} {f : FlowData} (h : f.EffFits n) (c : CompData) : (fillOnOff c f).EffFits n := by
  unfold fillOnOff
  split
  · exact ⟨h.op, fun q hq => by cases hq; exact empty_effFits n, h.invest⟩
  · exact h

theorem fillForced_effFits {n : Nat} {f : FlowData} (h : f.EffFits n) (b : Bool) : (fillForced b f).EffFits n := by
  unfold fillForced
  split
  · exact ⟨h.op, fun q hq => by cases hq; exact empty_effFits n, h.invest⟩
  · exact h

theorem fillIn2_effFits {n : Nat} {f : FlowData} (h : f.EffFits n) (cfg : Cfg) (t : TransData) : (t.fillIn2 cfg f).EffFits n := by
  unfold TransData.fillIn2
  split
  · exact h
  · refine ⟨h.op, h.onOff, fun q hq => ?_⟩
    cases hq
    refine ⟨?_, ?_, ?_⟩ <;> intro q hq <;> simp at hq
  · exact h

theorem fillOnOff_keepsPrev (c : CompData) (f : FlowData) : (fillOnOff c f).previousFlowRate = f.previousFlowRate := by
  unfold fillOnOff; split <;> rfl

theorem fillForced_keepsPrev (b : Bool) (f : FlowData) : (fillForced b f).previousFlowRate = f.previousFlowRate := by
  unfold fillForced; split <;> rfl

theorem fillIn2_keepsPrev (cfg : Cfg) (t : TransData) (f : FlowData) : (t.fillIn2 cfg f).previousFlowRate = f.previousFlowRate := by
  unfold TransData.fillIn2; split <;> rfl

/-- What holds of all flows before modelling and is kept by filling in holds after it. -/
theorem modelled_flows {P : FlowData → Prop} (cfg : Cfg) (h1 : ∀ c f, P f → P (fillOnOff c f)) (h2 : ∀ b f, P f → P (fillForced b f)) (h3 : ∀ t f, P f → P (TransData.fillIn2 cfg t f))
    {c : Comp} (hc : ∀ f ∈ c.flows, P f) (a len : Nat) : ∀ f ∈ (c.modelled cfg a len).flows, P f := by
  intro f hf
  cases c with
  | plain c =>
    rcases List.mem_append.1 hf with hf | hf <;> obtain ⟨g, hg, rfl⟩ := List.mem_map.1 hf
    · exact h1 _ _ (hc g (List.mem_append_left _ hg))
    · exact h1 _ _ (hc g (List.mem_append_right _ hg))
  | converter c =>
    rcases List.mem_append.1 hf with hf | hf <;> obtain ⟨g, hg, rfl⟩ := List.mem_map.1 hf
    · exact h1 _ _ (hc g (List.mem_append_left _ hg))
    · exact h1 _ _ (hc g (List.mem_append_right _ hg))
  | storage s =>
    simp only [Comp.modelled, Comp.flows, Comp.inputs, Comp.outputs, List.mem_append, List.mem_singleton] at hf
    rcases hf with rfl | rfl
    · exact h1 _ _ (hc _ (by simp [Comp.flows, Comp.inputs]))
    · exact h1 _ _ (hc _ (by simp [Comp.flows, Comp.outputs]))
  | transmission t =>
    simp only [Comp.modelled, TransData.modelled, TransData.filled, Comp.flows, Comp.inputs, Comp.outputs, List.mem_append, List.mem_cons, Option.mem_toList, Option.map_map,
      Option.map_eq_some_iff, Function.comp] at hf
    rcases hf with (rfl | ⟨g, hg, rfl⟩) | (rfl | ⟨g, hg, rfl⟩)
    · exact h1 _ _ (h2 _ _ (hc _ (by simp [Comp.flows, Comp.inputs])))
    · exact h1 _ _ (h3 _ _ (h2 _ _ (hc _ (by simp [Comp.flows, Comp.inputs, hg]))))
    · exact h1 _ _ (h2 _ _ (hc _ (by simp [Comp.flows, Comp.outputs])))
    · exact h1 _ _ (h2 _ _ (hc _ (by simp [Comp.flows, Comp.outputs, hg])))

theorem modelled_fits {s : System} {n : Nat} (h : s.Fits n) (cfg : Cfg) (a len : Nat) : (s.modelled cfg a len).Fits n := by
  refine ⟨h.effects, fun c hc => ?_, h.buses⟩
  obtain ⟨d, hd, rfl⟩ := List.mem_map.1 hc
  have k := h.comps d hd
  refine ⟨modelled_flows (P := FlowData.EffFits n) cfg (fun c f hf => fillOnOff_effFits hf c) (fun b f hf => fillForced_effFits hf b) (fun t f hf => fillIn2_effFits hf cfg t) k.flows a len, fun q hq => k.onOff q ?_, fun s q e hq => ?_⟩
  · cases d <;> exact hq
  · cases d with
    | storage s' => cases e; exact k.invest s' q rfl hq
    | plain | converter | transmission => simp [Comp.modelled] at e

theorem modelled_constructed {c : Comp} (h : c.Constructed) (cfg : Cfg) (a len : Nat) : (c.modelled cfg a len).Constructed := by
  refine ⟨fun d e => ?_, modelled_flows cfg (P := fun f => f.previousFlowRate ≠ some (.v [])) (fun c f hf => by rwa [fillOnOff_keepsPrev]) (fun b f hf => by rwa [fillForced_keepsPrev])
    (fun t f hf => by rwa [fillIn2_keepsPrev]) h.previous a len⟩
  cases c with
  | converter c => cases e; exact h.prevent c rfl
  | plain | storage | transmission => simp [Comp.modelled] at e

theorem modelled_guard (cfg : Cfg) (a len : Nat) (c : Comp) : (c.modelled cfg a len).guard = c.guard ∧ (c.modelled cfg a len).label = c.label := by
  cases c <;> exact ⟨rfl, rfl⟩

/-- **C97, saved descriptions.**  The description saved with the results is made after modelling, which fills in missing parameters of flows; it determines the problem as well. -/
theorem C97_saved_partial {s s' : System} {np lab : Bool} {text text' : String → String × String} {o : SysOut} (hv : sys.Valid) (hn : sys.n ≠ 0) (hf : s.Fits sys.n) (hf' : s'.Fits sys.n)
    (hl : ∀ t, Comp.transmission t ∈ s.comps ++ s'.comps → ∀ x, t.absLosses = some x → x.Fits sys.n)
    (hu : System.Single s.effects) (hc : ∀ c ∈ s.comps, c.Constructed) (hc' : ∀ c ∈ s'.comps, c.Constructed)
    (hg : ∀ c ∈ s.comps, ∀ c' ∈ s'.comps, c.label = c'.label → c.guard = c'.guard)
    (hi : (s.modelled sys.cfg 0 sys.n).infos sys.cfg np lab text = (s'.modelled sys.cfg 0 sys.n).infos sys.cfg np lab text')
    (h : systemModel sys s = .ok o) : ∃ o', systemModel sys s' = .ok o' ∧ o.SameProblem o' := by
  have e1 : systemModel sys (s.modelled sys.cfg 0 sys.n) = systemModel sys s := C89 s (fun t ht => hl t (List.mem_append_left _ ht)) 1
  have e2 : systemModel sys (s'.modelled sys.cfg 0 sys.n) = systemModel sys s' := C89 s' (fun t ht => hl t (List.mem_append_right _ ht)) 1
  rw [← e2]
  refine C97_partial hv hn (modelled_fits hf _ _ _) (modelled_fits hf' _ _ _) hu ?_ ?_ ?_ hi (e1.trans h)
  · intro c hc1
    obtain ⟨d, hd, rfl⟩ := List.mem_map.1 hc1
    exact modelled_constructed (hc d hd) _ _ _
  · intro c hc1
    obtain ⟨d, hd, rfl⟩ := List.mem_map.1 hc1
    exact modelled_constructed (hc' d hd) _ _ _
  · intro c h1 c' h2 e
    obtain ⟨d, hd, rfl⟩ := List.mem_map.1 h1
    obtain ⟨d', hd', rfl⟩ := List.mem_map.1 h2
    rw [(modelled_guard _ _ _ _).2, (modelled_guard _ _ _ _).2] at e
    rw [(modelled_guard _ _ _ _).1, (modelled_guard _ _ _ _).1]
    exact hg d hd d' hd' e

/-! ## The order of the elements is not in the description -/

theorem byLabel_congr {α : Type} {l : α → String} {xs ys : List α} (p : xs.Perm ys) (hd : (xs.map fun x => (l x).toUpper).Nodup) : byLabel l xs = byLabel l ys := by
  refine List.Perm.eq_of_pairwise (le := fun a b => decide ((l a).toUpper ≤ (l b).toUpper) = true) ?_ ?_ ?_ ((byLabel_perm _ _).trans (p.trans (byLabel_perm _ _).symm))
  · intro a b ha hb h1 h2
    simp only [decide_eq_true_eq] at h1 h2
    exact List.inj_on_of_nodup_map hd ((byLabel_perm _ _).mem_iff.1 ha) (p.mem_iff.2 ((byLabel_perm _ _).mem_iff.1 hb)) (String.le_antisymm h1 h2)
  all_goals
    refine List.pairwise_mergeSort (fun a b c h1 h2 => ?_) (fun a b => ?_) _
    · simp only [decide_eq_true_eq] at h1 h2 ⊢
      exact String.le_trans h1 h2
    · simpa using String.le_total (l a).toUpper (l b).toUpper

theorem find_congr {α : Type} {l : α → String} {xs ys : List α} (p : xs.Perm ys) (hd : (xs.map l).Nodup) (k : String) :
    xs.find? (fun x => l x == k) = ys.find? (fun x => l x == k) := by
  cases h : xs.find? (fun x => l x == k) with
  | none =>
    refine (List.find?_eq_none.2 fun y hy => ?_).symm
    exact List.find?_eq_none.1 h y (p.mem_iff.2 hy)
  | some a =>
    have ha := List.mem_of_find?_eq_some h
    have ea := List.find?_some h
    cases h' : ys.find? (fun x => l x == k) with
    | none => exact absurd ea (List.find?_eq_none.1 h' a (p.mem_iff.1 ha))
    | some b =>
      have eb := List.find?_some h'
      simp only [beq_iff_eq] at ea eb
      exact congrArg some (List.inj_on_of_nodup_map hd ha (p.mem_iff.2 (List.mem_of_find?_eq_some h')) (ea.trans eb.symm))

/-- **C97, order.**  The description does not depend on the order in which the elements were added, if no two labels of a kind differ only in case. -/
theorem C97_order {s s' : System} (cfg : Cfg) (np lab : Bool) (text : String → String × String) (pe : s.effects.Perm s'.effects) (pc : s.comps.Perm s'.comps)
    (pb : s.buses.Perm s'.buses) (he : (s.effects.map fun e => e.label.toUpper).Nodup) (hc : (s.comps.map fun c => c.label.toUpper).Nodup)
    (hb : (s.buses.map fun b => b.label.toUpper).Nodup) : s.infos cfg np lab text = s'.infos cfg np lab text := by
  have e4 : s.busOf = s'.busOf := by
    funext k
    have hb' : (s.buses.map BusData.label).Nodup := by
      refine List.Nodup.of_map String.toUpper ?_
      rwa [List.map_map]
    simp only [System.busOf, find_congr (l := BusData.label) pb hb' k]
  have hc' : (s.comps.map fun c => (Comp.name c).toUpper).Nodup := by
    simpa only [name_label] using hc
  simp only [System.infos, byLabel_congr pe he, byLabel_congr pc hc', byLabel_congr pb hb, e4]

/-! ## Files -/

/-- **C97, files.**  The file with the data, saved with the results, determines the problem. -/
theorem C97_file_partial {s s' : System} {text text' : String → String × String} {o : SysOut} (hv : sys.Valid) (hn : sys.n ≠ 0) (hf : s.Fits sys.n) (hf' : s'.Fits sys.n)
    (hl : ∀ t, Comp.transmission t ∈ s.comps ++ s'.comps → ∀ x, t.absLosses = some x → x.Fits sys.n)
    (hu : System.Single s.effects) (hc : ∀ c ∈ s.comps, c.Constructed) (hc' : ∀ c ∈ s'.comps, c.Constructed)
    (hg : ∀ c ∈ s.comps, ∀ c' ∈ s'.comps, c.label = c'.label → c.guard = c'.guard)
    (hi : (s.modelled sys.cfg 0 sys.n).dataFile sys.cfg text = (s'.modelled sys.cfg 0 sys.n).dataFile sys.cfg text')
    (h : systemModel sys s = .ok o) : ∃ o', systemModel sys s' = .ok o' ∧ o.SameProblem o' := by
  unfold System.dataFile at hi
  rw [system_lists, system_lists] at hi
  exact C97_saved_partial hv hn hf hf' hl hu hc hc' hg hi h

/-- **C97, shortened descriptions.**  The shortened description determines the problem if no time series has more than 50 values or more than two decimals.
Missing: other time series (`C97_json_wrong`). -/
theorem C97_json_partial {s s' : System} {stats : List ℚ → String} {text text' : String → String × String} {o : SysOut} (hv : sys.Valid) (hn : sys.n ≠ 0) (hf : s.Fits sys.n)
    (hf' : s'.Fits sys.n) (hu : System.Single s.effects) (hc : ∀ c ∈ s.comps, c.Constructed) (hc' : ∀ c ∈ s'.comps, c.Constructed)
    (hg : ∀ c ∈ s.comps, ∀ c' ∈ s'.comps, c.label = c'.label → c.guard = c'.guard) (hs : (s.infos sys.cfg true true text).Short) (hs' : (s'.infos sys.cfg true true text').Short)
    (hi : s.jsonFile sys.cfg stats text = s'.jsonFile sys.cfg stats text') (h : systemModel sys s = .ok o) : ∃ o', systemModel sys s' = .ok o' ∧ o.SameProblem o' := by
  unfold System.jsonFile at hi
  rw [compact_lists stats _ hs, compact_lists stats _ hs', system_lists, system_lists] at hi
  exact C97_partial hv hn hf hf' hu hc hc' hg hi h

/-! ## What the description leaves out -/

theorem not_same {s s' : System} (σ : Assignment)
    (h : buildsAndSolvesB σ (systemModel sys s) (fun o : SysOut => MTree.node o.solver.vars o.solver.cons []) = true) (hb : (systemModel sys s').toBool = true)
    (h' : buildsAndSolvesB σ (systemModel sys s') (fun o : SysOut => MTree.node o.solver.vars o.solver.cons []) = false) :
    ∃ o o', systemModel sys s = .ok o ∧ systemModel sys s' = .ok o' ∧ ¬ o.SameProblem o' := by
  obtain ⟨o, ho, hs⟩ := builds_and_solves h
  obtain ⟨o', ho'⟩ := builds hb
  refine ⟨o, o', ho, ho', fun e => ?_⟩
  have k := (e.2.2 σ).1 ⟨hs.1, hs.2.1⟩
  have : (MTree.node o'.solver.vars o'.solver.cons []).solvesB σ = true := (MTree.solvesB_iff _).2 ⟨k.1, k.2, trivial⟩
  unfold buildsAndSolvesB at h'
  rw [ho'] at h'
  exact absurd this (by simpa using h')

def exHours : Sys := ⟨2, [1, 1], 2, .s 1, ⟨1 / 100000, 100000000⟩⟩

def exVatFlow (l : String) (k : ℚ) : FlowData := { label := l, bus := "heat", size := .num k, onOff := some ({} : OnOffParams) }

/-- A storage with flows of size `k`. -/
def exVat (g : Bool) (k : ℚ) : System :=
  { effects := [{ label := "costs", isStandard := true, isObjective := true }]
    comps := [.storage { label := "Tank", charging := exVatFlow "in" k, discharging := exVatFlow "out" k, capacity := .num 1, preventSimultaneous := g }]
    buses := [{ label := "heat", excessPenalty := none }] }

/-- Both flows of the storage run all the time. -/
def exVatSol (k : ℚ) : Assignment := tableSol
  [("Tank__in_flow_rate", [k, k]), ("Tank__in_sumFlowHours", [2 * k]), ("Tank__out_flow_rate", [k, k]), ("Tank__out_sumFlowHours", [2 * k]),
   ("Tank__in__OnOff_on", [1, 1]), ("Tank__in__OnOff_totalOnHours", [2]), ("Tank__in__OnOff_switchOn", [1, 0]), ("Tank__in__OnOff_nrSwitchOn", [1]),
   ("Tank__out__OnOff_on", [1, 1]), ("Tank__out__OnOff_totalOnHours", [2]), ("Tank__out__OnOff_switchOn", [1, 0]), ("Tank__out__OnOff_nrSwitchOn", [1])]

/-- **C97 is wrong for storages.**  Whether charging and discharging at the same time is prevented is in no description, neither before nor after modelling
(`Storage.__init__` does not store the argument, components.py:190-215), but it changes what solves the problem. -/
theorem C97_storage_wrong : (∀ np lab text, (exVat false 1).infos exHours.cfg np lab text = (exVat true 1).infos exHours.cfg np lab text ∧
      ((exVat false 1).modelled exHours.cfg 0 exHours.n).infos exHours.cfg np lab text = ((exVat true 1).modelled exHours.cfg 0 exHours.n).infos exHours.cfg np lab text) ∧
    ∃ o o', systemModel exHours (exVat false 1) = .ok o ∧ systemModel exHours (exVat true 1) = .ok o' ∧ ¬ o.SameProblem o' := by
  refine ⟨fun np lab text => ⟨?_, ?_⟩, not_same (exVatSol 1) (by decide +kernel) (by decide +kernel) (by decide +kernel)⟩
  · simp only [System.infos, exVat, byLabel, List.mergeSort_singleton, List.map_cons, List.map_nil]
    rfl
  · simp only [System.infos, System.modelled, exVat, byLabel, Comp.modelled, List.mergeSort_singleton, List.map_cons, List.map_nil]
    rfl

def exLine (l b : String) (q : Option OnOffParams) : FlowData := { label := l, bus := b, size := .num 1, onOff := q }

def exLines (g : Bool) : TransData :=
  { label := "Pipe"
    in1 := exLine "in1" "a" (some {})
    out1 := exLine "out1" "b" none
    in2 := some (exLine "in2" "b" (some {}))
    out2 := some (exLine "out2" "a" none)
    preventBoth := g }

def exTwoWay (g : Bool) : System :=
  { effects := [{ label := "costs", isStandard := true, isObjective := true }]
    comps := [.transmission (exLines g)]
    buses := [{ label := "a", excessPenalty := none }, { label := "b", excessPenalty := none }] }

/-- Both directions run all the time. -/
def exTwoWaySol : Assignment := tableSol
  [("Pipe__in1_flow_rate", [1, 1]), ("Pipe__in1_sumFlowHours", [2]), ("Pipe__in2_flow_rate", [1, 1]), ("Pipe__in2_sumFlowHours", [2]),
   ("Pipe__out1_flow_rate", [1, 1]), ("Pipe__out1_sumFlowHours", [2]), ("Pipe__out2_flow_rate", [1, 1]), ("Pipe__out2_sumFlowHours", [2]),
   ("Pipe__in1__OnOff_on", [1, 1]), ("Pipe__in1__OnOff_totalOnHours", [2]), ("Pipe__in1__OnOff_switchOn", [1, 0]), ("Pipe__in1__OnOff_nrSwitchOn", [1]),
   ("Pipe__in2__OnOff_on", [1, 1]), ("Pipe__in2__OnOff_totalOnHours", [2]), ("Pipe__in2__OnOff_switchOn", [1, 0]), ("Pipe__in2__OnOff_nrSwitchOn", [1])]

/-- **C97 is wrong for transmissions.**  Whether flows in both directions are prevented is in no description either (components.py:277-292). -/
theorem C97_transmission_wrong : (∀ np lab text, (exTwoWay false).infos exHours.cfg np lab text = (exTwoWay true).infos exHours.cfg np lab text ∧
      ((exTwoWay false).modelled exHours.cfg 0 exHours.n).infos exHours.cfg np lab text = ((exTwoWay true).modelled exHours.cfg 0 exHours.n).infos exHours.cfg np lab text) ∧
    ∃ o o', systemModel exHours (exTwoWay false) = .ok o ∧ systemModel exHours (exTwoWay true) = .ok o' ∧ ¬ o.SameProblem o' := by
  refine ⟨fun np lab text => ⟨?_, ?_⟩, not_same exTwoWaySol (by decide +kernel) (by decide +kernel) (by decide +kernel)⟩
  · simp only [System.infos, exTwoWay, exLines, byLabel, List.mergeSort_singleton, List.map_cons, List.map_nil]
    rfl
  · simp only [System.infos, System.modelled, exTwoWay, exLines, byLabel, Comp.modelled, List.mergeSort_singleton, List.map_cons, List.map_nil]
    rfl

theorem setDoc_compact (stats : List ℚ → String) (k : String) (x : Doc) (es : List (Option String × Doc)) :
    compactIn stats (setDoc k x es) = setDoc k (x.compact stats) (compactIn stats es) := by
  induction es with
  | nil => rfl
  | cons e es ih =>
    obtain ⟨m, y⟩ := e
    unfold setDoc
    by_cases h : m = some k <;> simp [compactIn, h, ih]

def exRoughFlow (l : String) (x : ℚ) : FlowData := { label := l, bus := "heat", size := .num 1, relMax := .v [1, x] }

/-- A storage whose flows are limited by a time series. -/
def exRough (x : ℚ) : System :=
  { effects := [{ label := "costs", isStandard := true, isObjective := true }]
    comps := [.storage { label := "Tank", charging := exRoughFlow "in" x, discharging := exRoughFlow "out" x, capacity := .num 1, preventSimultaneous := false }]
    buses := [{ label := "heat", excessPenalty := none }] }

def exRoughSol : Assignment := tableSol
  [("Tank__in_flow_rate", [0, 502 / 1000]), ("Tank__in_sumFlowHours", [502 / 1000]), ("Tank__out_flow_rate", [0, 502 / 1000]), ("Tank__out_sumFlowHours", [502 / 1000])]

/-- **C97 is wrong for the shortened description.**  `to_json` rounds time series to two decimals (structure.py:705), so that flow systems with a time series of 0.501 and of 0.502
have the same file but other solutions. -/
theorem C97_json_wrong : (∀ stats text, (exRough (502 / 1000)).jsonFile exHours.cfg stats text = (exRough (501 / 1000)).jsonFile exHours.cfg stats text) ∧
    ∃ o o', systemModel exHours (exRough (502 / 1000)) = .ok o ∧ systemModel exHours (exRough (501 / 1000)) = .ok o' ∧ ¬ o.SameProblem o' := by
  refine ⟨fun stats text => ?_, not_same exRoughSol (by decide +kernel) (by decide +kernel) (by decide +kernel)⟩
  have e : shortArr stats [1, 502 / 1000] = shortArr stats [1, 501 / 1000] := by
    have : around (502 / 1000) = around (501 / 1000) := by decide +kernel
    simp [shortArr, this]
  have flow : ∀ (env : String → BusData) (l : String) (i : Bool) (x : ℚ), ((exRoughFlow l x).val exHours.cfg env i).infos true true = .dict [(some "class", .str "Flow:Element:Interface:object"),
      (some "label", .str l), (some "bus", .str "heat"), (some "relative_maximum", .arr [1, x]), (some "relative_minimum", .num 0), (some "size", .num 1),
      (some "is_input_in_component", .bool i)] := fun _ _ _ _ => rfl
  have flows : ∀ (env : String → BusData) (l : String) (i : Bool) (x : ℚ), (flowDocs exHours.cfg true true env i [exRoughFlow l x]).compact stats =
      .list [.dict [(some "class", .str "Flow:Element:Interface:object"), (some "label", .str l), (some "bus", .str "heat"), (some "relative_maximum", shortArr stats [1, x]),
        (some "relative_minimum", .num 0), (some "size", .num 1), (some "is_input_in_component", .bool i)]] := by
    intro env l i x
    simp [flowDocs, flow, Doc.compact, compactOf, compactIn, Doc.number?]
  have comp : ∀ x (env : String → BusData), ((Comp.storage { label := "Tank", charging := exRoughFlow "in" x, discharging := exRoughFlow "out" x, capacity := .num 1, preventSimultaneous := false }).infos
      exHours.cfg true true env).compact stats = .dict (setDoc "outputs" ((flowDocs exHours.cfg true true env false [exRoughFlow "out" x]).compact stats)
        (setDoc "inputs" ((flowDocs exHours.cfg true true env true [exRoughFlow "in" x]).compact stats)
        [(some "class", .str "Storage:Component:Element:Interface:object"), (some "label", .str "Tank"), (some "capacity_in_flow_hours", .num 1), (some "charging", .str "in"),
          (some "discharging", .str "out"), (some "eta_charge", .num 1), (some "eta_discharge", .num 1), (some "prevent_simultaneous_charge_and_discharge", .null),
          (some "relative_loss_per_hour", .num 0), (some "relative_maximum_charge_state", .num 1), (some "relative_minimum_charge_state", .num 0)])) := by
    intro x env
    rw [comp_doc rfl, Doc.compact, setDoc_compact, setDoc_compact]
    rfl
  simp only [System.jsonFile, System.infos, exRough, byLabel, List.mergeSort_singleton, List.map_cons, List.map_nil, Doc.compact, compactIn, comp, flows, e]
  rfl

theorem exSystem_constructed : ∀ c ∈ exSystem.comps, c.Constructed := by
  simp only [exSystem, List.forall_mem_cons, List.not_mem_nil, false_imp_iff, implies_true, and_true]
  refine ⟨⟨by simp, ?_⟩, ⟨by simp, ?_⟩, ⟨by simp, ?_⟩⟩ <;>
    simp [Comp.flows, Comp.inputs, Comp.outputs, exGasOut, exBoilerIn, exBoilerOut, exLoadIn]

/-- The hypotheses of `C97_partial` and `C97_order` are met by a system and the same one built in reverse order. -/
example : System.Single exSystem.effects ∧ (∀ c ∈ exTurned.comps, c.Constructed) ∧
    (∀ np lab text, exSystem.infos exSys.cfg np lab text = exTurned.infos exSys.cfg np lab text) ∧
    (∀ c ∈ exSystem.comps, ∀ c' ∈ exTurned.comps, c.label = c'.label → c.guard = c'.guard) ∧ exTurned.Fits exSys.n := by
  refine ⟨⟨by decide +kernel, by decide +kernel⟩, fun c hc => exSystem_constructed c (List.mem_reverse.1 hc), fun np lab text => ?_, ?_,
    fits_of_perm exSystem_fits (List.reverse_perm _).symm (List.reverse_perm _).symm (List.reverse_perm _).symm⟩
  · exact C97_order (s' := exTurned) _ _ _ _ (List.reverse_perm _).symm (List.reverse_perm _).symm (List.reverse_perm _).symm (by decide +kernel) (by decide +kernel) (by decide +kernel)
  · intro c hc c' hc' _
    have hc' := List.mem_reverse.1 hc'
    simp only [exSystem, List.mem_cons, List.not_mem_nil, or_false] at hc hc'
    rcases hc with rfl | rfl | rfl <;> rcases hc' with rfl | rfl | rfl <;> rfl

/-- The additional hypothesis of `C97_json_partial` is met. -/
example (text : String → String × String) : ((exRough (1 / 2)).infos exHours.cfg true true text).Short := by
  have flow : ∀ (env : String → BusData) (l : String) (i : Bool), (flowDocs exHours.cfg true true env i [exRoughFlow l (1 / 2)]).Short := by
    intro env l i
    have e : ((exRoughFlow l (1 / 2)).val exHours.cfg env i).infos true true = .dict [(some "class", .str "Flow:Element:Interface:object"),
      (some "label", .str l), (some "bus", .str "heat"), (some "relative_maximum", .arr [1, 1 / 2]), (some "relative_minimum", .num 0), (some "size", .num 1),
      (some "is_input_in_component", .bool i)] := rfl
    have s : ShortNums [1, 1 / 2] := by
      refine ⟨by simp, ?_⟩
      simp only [List.forall_mem_cons, List.not_mem_nil, false_imp_iff, implies_true, and_true]
      exact ⟨⟨100, by norm_num⟩, ⟨50, by norm_num⟩⟩
    have n : ShortNums [] := ⟨by simp, by simp⟩
    rw [flowDocs, List.map_cons, List.map_nil, e, Doc.Short]
    exact ⟨n, ⟨trivial, trivial, trivial, s, trivial, trivial, trivial, trivial⟩, trivial⟩
  simp only [System.infos, exRough, byLabel, List.mergeSort_singleton, List.map_cons, List.map_nil, Doc.Short, entriesShort, and_true]
  refine ⟨?_, ?_, ?_⟩
  · rw [comp_doc rfl, Doc.Short]
    exact ⟨trivial, trivial, trivial, trivial, trivial, trivial, trivial, trivial, trivial, trivial, trivial, flow _ _ _, flow _ _ _, trivial⟩
  · exact ⟨trivial, trivial, trivial, trivial⟩
  · exact ⟨trivial, trivial, trivial, trivial, trivial, trivial, trivial⟩

end Flix
