import Verif.Lemmas.History

/-! # The component model -/

namespace Flix

theorem fillOnOff_label (c : CompData) (f : FlowData) : (fillOnOff c f).label = f.label := by
  unfold fillOnOff; split <;> rfl

theorem fillOnOff_onOff (c : CompData) (f : FlowData) (h : c.onOff ≠ none ∨ f.label ∈ c.prevent) :
    ∃ q, (fillOnOff c f).onOff = some q := by
  unfold fillOnOff
  cases hf : f.onOff with
  | some q =>
    refine ⟨q, ?_⟩
    rw [if_neg (by simp [hf])]; exact hf
  | none =>
    refine ⟨{}, ?_⟩
    rw [if_pos]
    rcases h with h | h
    · simp [Option.isSome_iff_ne_none.2 h, hf]
    · simp [h, hf]

theorem fillOnOff_fits {n : Nat} {c : CompData} {f : FlowData} (h : f.Fits n) : (fillOnOff c f).Fits n := by
  unfold fillOnOff
  split
  · refine ⟨h.relMin, h.relMax, h.prof, ?_⟩
    intro q hq
    simp at hq; subst hq
    constructor <;> intro m hm <;> simp at hm
  · exact h

theorem fillOnOff_absBounds (cfg : Cfg) (c : CompData) (f : FlowData) : (fillOnOff c f).absBounds cfg = f.absBounds cfg := by
  unfold fillOnOff; split <;> rfl

theorem comp_flows {sys : Sys} {c : CompData} {fs : List FlowData} {l : List (FlowData × FlowOut)}
    (h : fs.mapM (compFlow sys c) = .ok l) :
    List.Forall₂ (fun f q => q.1 = fillOnOff c f ∧ flowModel sys (flowFull c.label f.label) (fillOnOff c f) = .ok q.2) fs l := by
  rw [mapM_ok] at h
  refine forall₂_imp' h ?_
  intro f _ q hq
  unfold compFlow at hq
  peel hq with o, ho
  simp only [except_pure, Except.ok.injEq] at hq
  subst hq
  rw [fillOnOff_label] at ho
  exact ⟨rfl, ho⟩

theorem comp_inv {sys : Sys} {c : CompData} {o : CompOut} (h : compModel sys c = .ok o) :
    List.Forall₂ (fun f q => q.1 = fillOnOff c f ∧ flowModel sys (flowFull c.label f.label) (fillOnOff c f) = .ok q.2)
      c.inputs o.inputs ∧
    List.Forall₂ (fun f q => q.1 = fillOnOff c f ∧ flowModel sys (flowFull c.label f.label) (fillOnOff c f) = .ok q.2)
      c.outputs o.outputs ∧
    compOnOff sys c o.flows = .ok o.on ∧
    ∃ prev, compPrevent c o.flows = .ok prev ∧ o.vars = [] ∧ o.cons = [] ∧
      o.subs = o.flows.map (·.2.tree) ++ (o.on.map OnOffOut.tree).toList ++ prev ∧
      o.shares = (o.flows.map (·.2.shares)).flatten ++ (o.on.map (·.shares)).getD [] := by
  unfold compModel at h
  peel h with ins, h1
  peel h with outs, h2
  peel h with on, h3
  peel h with prev, h4
  simp only [except_pure, Except.ok.injEq] at h
  subst h
  exact ⟨comp_flows h1, comp_flows h2, h3, prev, h4, rfl, rfl, rfl, rfl⟩

/-- Each modelled flow of a component. -/
theorem comp_flow_mem {sys : Sys} {c : CompData} {o : CompOut} (h : compModel sys c = .ok o) :
    ∀ p ∈ o.flows, ∃ f ∈ c.inputs ++ c.outputs, p.1 = fillOnOff c f ∧
      flowModel sys (flowFull c.label f.label) (fillOnOff c f) = .ok p.2 := by
  obtain ⟨h1, h2, _⟩ := comp_inv h
  intro p hp
  unfold CompOut.flows at hp
  have aux : ∀ {fs l}, List.Forall₂ (fun f (q : FlowData × FlowOut) => q.1 = fillOnOff c f ∧
      flowModel sys (flowFull c.label f.label) (fillOnOff c f) = .ok q.2) fs l → p ∈ l → ∃ f ∈ fs, p.1 = fillOnOff c f ∧
      flowModel sys (flowFull c.label f.label) (fillOnOff c f) = .ok p.2 := by
    intro fs l hl
    induction hl with
    | nil => simp
    | cons hd _ ih =>
      intro hp
      rcases List.mem_cons.1 hp with rfl | hp
      · exact ⟨_, List.mem_cons_self, hd⟩
      · obtain ⟨f, hf, hf'⟩ := ih hp
        exact ⟨f, List.mem_cons_of_mem _ hf, hf'⟩
  rcases List.mem_append.1 hp with hp | hp
  · obtain ⟨f, hf, hf'⟩ := aux h1 hp
    exact ⟨f, List.mem_append_left _ hf, hf'⟩
  · obtain ⟨f, hf, hf'⟩ := aux h2 hp
    exact ⟨f, List.mem_append_right _ hf, hf'⟩

/-- Solving a component means solving its flows, its on/off model and the prevention of simultaneous use. -/
theorem comp_solves {sys : Sys} {c : CompData} {o : CompOut} (h : compModel sys c = .ok o) (σ : Assignment) :
    (∀ p ∈ o.flows, p.2.tree.Solves σ) ∧ (∀ oo, o.on = some oo → oo.tree.Solves σ) ∧
      (∃ prev, compPrevent c o.flows = .ok prev ∧ MTree.SolvesAll σ prev) ↔ o.tree.Solves σ := by
  obtain ⟨_, _, _, prev, hp, hv, hc, hsub, _⟩ := comp_inv h
  unfold CompOut.tree
  rw [MTree.Solves, hv, hc, hsub, solvesAll_append, solvesAll_append, solvesAll_iff, hp]
  rw [List.forall_mem_map]
  cases o.on <;> simp [MTree.SolvesAll, and_assoc]

/-- A flow with an on/off model: its state and rate belong together. -/
theorem flow_state {sys : Sys} (hv : sys.Valid) {el : String} {f : FlowData} {o : FlowOut} {q : OnOffParams} {σ : Assignment}
    (hf : f.Fits sys.n) (h : flowModel sys el f = .ok o) (hq : f.onOff = some q) (hs : o.tree.Solves σ) :
    ∃ oo, o.onOff = some oo ∧ onOffModel sys el q [(o.flowRate, f.absBounds sys.cfg)] = .ok oo ∧ o.flowRate.length = sys.n ∧
      ∀ t < sys.n, (σ oo.on.label t = 0 ∧ σ o.flowRate.label t = 0) ∨
        (σ oo.on.label t = 1 ∧ sys.cfg.eps ≤ σ o.flowRate.label t ∧ (f.absBounds sys.cfg).1.at t ≤ σ o.flowRate.label t ∧
          σ o.flowRate.label t ≤ (f.absBounds sys.cfg).2.at t) := by
  have hr := (flow_iff hv hf h σ).1 hs
  obtain ⟨h1, h2, h3, h4, h5, _⟩ := flow_inv h
  obtain ⟨hl, hlen, _⟩ := flowRate_ok h1
  cases ho : o.onOff with
  | none => rw [ho] at h2; rw [flowOnOff_none h2] at hq; simp at hq
  | some oo =>
    rw [ho] at h2
    obtain ⟨q', hq', hoo⟩ := flowOnOff_some h2
    rw [hq] at hq'; cases hq'
    refine ⟨oo, rfl, hoo, hlen, ?_⟩
    obtain ⟨ha1, ha2⟩ := hf.absBounds sys.cfg
    obtain ⟨_, prevOn, _, hiff⟩ := onOff_iff hv (hf.onOff q hq) (by simpa using ⟨hlen, ha1, ha2⟩) hoo
    have hrr := (hiff σ).1 (hr.onOff oo ho)
    intro t ht
    have hrel : max sys.cfg.eps ((f.absBounds sys.cfg).1.at t) * σ oo.on.label t ≤ σ o.flowRate.label t ∧
        σ o.flowRate.label t ≤ (f.absBounds sys.cfg).2.at t * σ oo.on.label t := hrr.onRel t ht
    rcases hrr.onBin t ht with h | h
    · left; rw [h] at hrel ⊢; exact ⟨rfl, by linarith⟩
    · right; rw [h] at hrel ⊢
      rw [mul_one, mul_one] at hrel
      exact ⟨rfl, le_trans (le_max_left _ _) hrel.1, le_trans (le_max_right _ _) hrel.1, hrel.2⟩

/-- The state of several variables: on when their sum is at least epsilon, off when it is zero. -/
theorem onRel_sum {n : Nat} {eps : ℚ} {σ : Assignment} {on : Var} {ds : List (Var × Num × Num)}
    (h : OnRel n eps σ on ds) {t : Nat} (ht : t < n) (hb : σ on.label t = 0 ∨ σ on.label t = 1) :
    (σ on.label t = 0 ∧ (ds.map fun d => σ d.1.label t).sum ≤ 0) ∨
    (σ on.label t = 1 ∧ eps ≤ (ds.map fun d => σ d.1.label t).sum) := by
  match ds, h with
  | [], h =>
    have := h t ht
    rcases hb with hb | hb <;> rw [hb] at this ⊢ <;> simp at this ⊢; exact this
  | [(x, lb, ub)], h =>
    obtain ⟨h1, h2⟩ := h t ht
    rcases hb with hb | hb
    · left; rw [hb] at h2 ⊢; simp at h2 ⊢; exact h2
    · right; rw [hb] at h1 ⊢; simp at h1 ⊢; exact h1.1
  | a :: b :: ds, h =>
    obtain ⟨h1, h2⟩ := h t ht
    rcases hb with hb | hb
    · left; rw [hb, mul_zero] at h2; exact ⟨hb, h2⟩
    · right; rw [hb, mul_one] at h1; exact ⟨hb, h1⟩

end Flix
