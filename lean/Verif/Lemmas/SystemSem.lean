import Verif.Lemmas.System
import Verif.Lemmas.Contrib
import Verif.Lemmas.Collection

/-!
# The meaning of a whole system
-/

namespace Flix

/-- The calls of all elements. -/
def SysOut.calls (o : SysOut) : List ShareCall := (o.comps.map (·.shares)).flatten ++ (o.buses.map (·.shares)).flatten

theorem system_inv {sys : Sys} {s : System} {o : SysOut} (h : systemModel sys s = .ok o) :
    List.Forall₂ (fun c oc => Comp.model sys c = .ok oc) s.comps o.comps ∧
    List.Forall₂ (fun b ob => busModel sys b (busFlows (o.comps.map (·.outputs)).flatten b.label)
      (busFlows (o.comps.map (·.inputs)).flatten b.label) = .ok ob) s.buses o.buses ∧
    collectionModel sys s.effects o.calls = .ok o.coll ∧
    collectModel (o.coll.tree :: o.comps.map CompOut.tree ++ o.buses.map (·.tree)) o.coll.objective = .ok o.solver := by
  unfold systemModel at h
  peel h with comps, h1
  simp only at h
  peel h with buses, h2
  peel h with coll, h3
  peel h with solver, h4
  simp only [except_pure, Except.ok.injEq] at h
  subst h
  exact ⟨mapM_ok.1 h1, mapM_ok.1 h2, h3, h4⟩

/-- A solution of the whole model solves every element, and conversely. -/
theorem system_solves {sys : Sys} {s : System} {o : SysOut} (h : systemModel sys s = .ok o) (σ : Assignment) :
    o.solver.Solves σ ↔ o.coll.tree.Solves σ ∧ (∀ c ∈ o.comps, c.tree.Solves σ) ∧ ∀ b ∈ o.buses, b.tree.Solves σ := by
  obtain ⟨_, _, _, h4⟩ := system_inv h
  rw [collectModel_solves h4, List.cons_append, MTree.SolvesAll, solvesAll_append, solvesAll_iff, solvesAll_iff]
  simp only [List.forall_mem_map]

/-! ## Flows at the buses -/

theorem fillOnOff_bus (c : CompData) (f : FlowData) : (fillOnOff c f).bus = f.bus := by
  unfold fillOnOff; split <;> rfl

theorem fill_bus (t : TransData) (f : FlowData) : (t.fill f).bus = f.bus := by
  unfold TransData.fill; cases t.absLosses <;> simp; split <;> rfl

theorem fillIn2_bus (cfg : Cfg) (t : TransData) (f : FlowData) : (t.fillIn2 cfg f).bus = f.bus := by
  unfold TransData.fillIn2; split <;> rfl

/-- A modelled flow of the component `c` is that of the given flow `f`. -/
def FlowOf (n : Nat) (comp : String) (f : FlowData) (q : FlowData × FlowOut) : Prop :=
  q.1.bus = f.bus ∧ q.1.label = f.label ∧ q.2.flowRate.label = rateL comp f.label ∧ q.2.flowRate.length = n

theorem comp_flowOf {sys : Sys} {c : CompData} {o : CompOut} (h : compModel sys c = .ok o) :
    List.Forall₂ (FlowOf sys.n c.label) c.inputs o.inputs ∧ List.Forall₂ (FlowOf sys.n c.label) c.outputs o.outputs := by
  obtain ⟨h1, h2, _⟩ := comp_inv h
  have : ∀ f (q : FlowData × FlowOut), (q.1 = fillOnOff c f ∧ flowModel sys (flowFull c.label f.label) (fillOnOff c f) = .ok q.2) →
      FlowOf sys.n c.label f q := by
    rintro f q ⟨ha, hb⟩
    obtain ⟨hl, hn, _⟩ := flowRate_ok (flow_inv hb).1
    exact ⟨by rw [ha, fillOnOff_bus], by rw [ha, fillOnOff_label], by rw [hl]; rfl, hn⟩
  exact ⟨forall₂_imp' h1 fun f _ q hq => this f q hq, forall₂_imp' h2 fun f _ q hq => this f q hq⟩

theorem forall₂_of_map {α β γ} {R : β → γ → Prop} {g : α → β} {l : List α} {r : List γ} (h : List.Forall₂ R (l.map g) r) :
    List.Forall₂ (fun a c => R (g a) c) l r := by
  rwa [List.forall₂_map_left_iff] at h

theorem model_flowOf {sys : Sys} {c : Comp} {o : CompOut} (h : c.model sys = .ok o) :
    List.Forall₂ (FlowOf sys.n c.label) c.inputs o.inputs ∧ List.Forall₂ (FlowOf sys.n c.label) c.outputs o.outputs := by
  cases c with
  | plain c => exact comp_flowOf h
  | converter c =>
    obtain ⟨o0, h0, e1, e2, _⟩ := converter_base h
    rw [e1, e2]
    exact comp_flowOf h0
  | storage s =>
    obtain ⟨so, hso, rfl⟩ := map_ok.1 (show (·.comp) <$> storageModel sys s = .ok o from h)
    obtain ⟨o0, h0, e1, e2, _⟩ := storage_base hso
    rw [e1, e2]
    have := comp_flowOf h0
    exact this
  | transmission t =>
    obtain ⟨tr, hto, rfl⟩ := map_ok.1 (show (·.comp) <$> transmissionModel sys t = .ok o from h)
    obtain ⟨o0, h0, e1, e2, _⟩ := trans_base hto
    rw [e1, e2]
    obtain ⟨r1, r2⟩ := comp_flowOf h0
    have k1 : ∀ f q, FlowOf sys.n t.label (t.fill f) q → FlowOf sys.n t.label f q := by
      rintro f q ⟨a, b, c, d⟩
      exact ⟨by rw [a, fill_bus], by rw [b, (sameCost_fill t f).label], by rw [c, (sameCost_fill t f).label], d⟩
    have k2 : ∀ f q, FlowOf sys.n t.label (t.fillIn2 sys.cfg (t.fill f)) q → FlowOf sys.n t.label f q := by
      rintro f q ⟨a, b, c, d⟩
      have e := ((sameCost_fill t f).trans (sameCost_fillIn2 sys.cfg t _)).label
      exact ⟨by rw [a, fillIn2_bus, fill_bus], by rw [b, e], by rw [c, e], d⟩
    constructor
    · change List.Forall₂ _ (t.fill t.in1 :: (t.in2.map fun f => t.fillIn2 sys.cfg (t.fill f)).toList) _ at r1
      change List.Forall₂ _ (t.in1 :: t.in2.toList) _
      revert r1
      cases o0.inputs with
      | nil => intro r1; cases r1
      | cons a as =>
        intro r1
        rw [List.forall₂_cons] at r1 ⊢
        refine ⟨k1 _ _ r1.1, ?_⟩
        rw [Option.toList_map] at r1
        exact forall₂_imp' (forall₂_of_map r1.2) fun f _ q hq => k2 f q hq
    · change List.Forall₂ _ (t.fill t.out1 :: (t.out2.map t.fill).toList) _ at r2
      change List.Forall₂ _ (t.out1 :: t.out2.toList) _
      revert r2
      cases o0.outputs with
      | nil => intro r2; cases r2
      | cons a as =>
        intro r2
        rw [List.forall₂_cons] at r2 ⊢
        refine ⟨k1 _ _ r2.1, ?_⟩
        rw [Option.toList_map] at r2
        exact forall₂_imp' (forall₂_of_map r2.2) fun f _ q hq => k1 f q hq

/-- Total of the given flows at a bus. -/
def flowsAt (σ : Assignment) (comp : String) (fs : List FlowData) (bus : String) (t : Nat) : ℚ :=
  ((fs.filter fun f => f.bus = bus).map fun f => σ (rateL comp f.label) t).sum

theorem busFlows_comp {σ : Assignment} {n : Nat} {comp bus : String} {fs : List FlowData} {qs : List (FlowData × FlowOut)} {t : Nat}
    (h : List.Forall₂ (FlowOf n comp) fs qs) :
    flowSum σ (busFlows qs bus) t = flowsAt σ comp fs bus t ∧ ∀ x ∈ busFlows qs bus, x.length = n := by
  induction h with
  | nil => exact ⟨rfl, by simp [busFlows]⟩
  | @cons f q _ _ hd _ ih =>
    obtain ⟨hb, _, hl, hlen⟩ := hd
    unfold busFlows flowSum flowsAt at ih ⊢
    rw [List.filterMap_cons, List.filter_cons, hb]
    by_cases hbus : f.bus = bus
    · simp only [hbus, if_true, decide_true, List.map_cons, List.sum_cons, ih.1, hl, List.forall_mem_cons, hlen, true_and]
      exact ih.2
    · simp only [hbus, if_false, decide_false, Bool.false_eq_true, ih.1, true_and]
      exact ih.2

theorem busFlows_append (a b : List (FlowData × FlowOut)) (bus : String) : busFlows (a ++ b) bus = busFlows a bus ++ busFlows b bus := by
  simp [busFlows]

theorem busFlows_all {σ : Assignment} {n : Nat} {bus : String} {t : Nat} {cs : List Comp} {os : List CompOut} (fl : Comp → List FlowData)
    (ofl : CompOut → List (FlowData × FlowOut)) (h : List.Forall₂ (fun c o => List.Forall₂ (FlowOf n c.label) (fl c) (ofl o)) cs os) :
    flowSum σ (busFlows (os.map ofl).flatten bus) t = (cs.map fun c => flowsAt σ c.label (fl c) bus t).sum ∧
      ∀ x ∈ busFlows (os.map ofl).flatten bus, x.length = n := by
  induction h with
  | nil => exact ⟨rfl, by simp [busFlows]⟩
  | cons hd _ ih =>
    obtain ⟨h1, h2⟩ := busFlows_comp (σ := σ) (bus := bus) (t := t) hd
    simp only [List.map_cons, List.flatten_cons, busFlows_append, List.sum_cons]
    refine ⟨?_, ?_⟩
    · rw [← ih.1, ← h1]; simp [flowSum]
    · intro x hx
      rcases List.mem_append.1 hx with hx | hx
      · exact h2 x hx
      · exact ih.2 x hx

end Flix
