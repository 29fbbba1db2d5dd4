import Verif.Lemmas.Storage
import Verif.Lemmas.Comp

/-! # Prevention of simultaneous use -/

namespace Flix

/-- A sum of zeros and ones is at most 1.1 iff at most one of them is one. -/
theorem binSum_le {xs : List ℚ} (hb : ∀ x ∈ xs, x = 0 ∨ x = 1) : xs.sum ≤ 11 / 10 ↔ xs.Pairwise fun x y => x = 0 ∨ y = 0 := by
  induction xs with
  | nil => norm_num
  | cons x xs ih =>
    have hb' : ∀ y ∈ xs, y = 0 ∨ y = 1 := fun y hy => hb y (List.mem_cons_of_mem _ hy)
    have hnn : ∀ y ∈ xs, (0 : ℚ) ≤ y := fun y hy => by rcases hb' y hy with h | h <;> rw [h] <;> norm_num
    have hs : 0 ≤ xs.sum := List.sum_nonneg hnn
    rw [List.sum_cons, List.pairwise_cons]
    rcases hb x List.mem_cons_self with rfl | rfl
    · simp only [zero_add, true_or, implies_true, true_and]
      exact ih hb'
    · constructor
      · intro h
        have hz : ∀ y ∈ xs, y = 0 := by
          intro y hy
          rcases hb' y hy with h0 | h1
          · exact h0
          · have := List.single_le_sum hnn y hy
            rw [h1] at this; linarith
        refine ⟨fun y hy => Or.inr (hz y hy), ?_⟩
        exact (ih hb').1 (by linarith)
      · rintro ⟨h1, _⟩
        have hz : ∀ y ∈ xs, y = 0 := fun y hy => (h1 y hy).resolve_left one_ne_zero
        rw [List.sum_eq_zero hz]; norm_num

theorem onOf_ok {flows : List (FlowData × FlowOut)} {l : String} {x : Var} (h : onOf flows l = .ok x) :
    ∃ p ∈ flows, p.1.label = l ∧ ∃ oo, p.2.onOff = some oo ∧ oo.on = x := by
  unfold onOf at h
  split at h
  · rename_i p hp
    refine ⟨p, List.mem_of_find?_eq_some hp, by simpa using List.find?_some hp, ?_⟩
    split at h
    · rename_i oo ho
      cases h
      exact ⟨oo, ho, rfl⟩
    · cases h
  · cases h

theorem prevent_iff {n : Nat} {el : String} {ons : List Var} {tree : MTree} (h : preventSimultaneous el ons = .ok tree)
    (hlen : ∀ x ∈ ons, x.length = n) (σ : Assignment) :
    tree.Solves σ ↔ ∀ t < n, (ons.map fun x => σ x.label t).sum ≤ 11 / 10 := by
  unfold preventSimultaneous at h
  split at h
  · cases h
  · rename_i h2
    split at h
    · simp only [Except.ok.injEq] at h
      subst h
      obtain ⟨x, hx⟩ := List.exists_mem_of_ne_nil ons (by intro h; simp [h] at h2)
      have : (mkIneq (el ++ "__" ++ "PreventSimultaneousUsage") "prevent_simultaneous_use" (ons.map (fun x => sAll x (.s 1)) ++ [.const (.s (11 / 10))])).Ok σ ↔
          ∀ t < n, (ons.map fun x => σ x.label t).sum ≤ 11 / 10 := by
        rw [ok_ineq (n := n) (by
          intro op ho
          simp only [List.mem_append, List.mem_map, List.mem_cons, List.not_mem_nil, or_false] at ho
          rcases ho with ⟨y, hy, rfl⟩ | rfl
          · exact good_sAll (hlen y hy) (fits_s _ _)
          · exact good_const (fits_s _ _)) ⟨_, List.mem_append_left _ (List.mem_map.2 ⟨x, hx, rfl⟩), len_sAll' (hlen x hx) (fits_s _ _)⟩]
        refine forall₂_congr fun t ht => ?_
        rw [opsLhs_append, opsRhs_append', lhs_map_sAll hlen ht, rhs_map_sAll]
        simp
      simp only [MTree.Solves, MTree.SolvesAll, List.forall_mem_cons, List.not_mem_nil, false_imp_iff, implies_true, and_true, true_and]
      exact this
    · cases h

/-- A component that prevents simultaneous use: its flows and on/off model are solved and never two of the flows are used. -/
theorem comp_prevent {sys : Sys} (hv : sys.Valid) {c : CompData} {o : CompOut} (hf : ∀ f ∈ c.inputs ++ c.outputs, f.Fits sys.n)
    (h : compModel sys c = .ok o) (hp : c.prevent ≠ []) (σ : Assignment) :
    o.tree.Solves σ ↔ (∀ p ∈ o.flows, p.2.tree.Solves σ) ∧ (∀ oo, o.on = some oo → oo.tree.Solves σ) ∧
      ∀ t < sys.n, c.prevent.Pairwise fun a b => σ (rateL c.label a) t = 0 ∨ σ (rateL c.label b) t = 0 := by
  rw [← comp_solves h σ]
  refine and_congr_right fun hfl => and_congr_right fun _ => ?_
  obtain ⟨_, _, _, prev, hprev, _⟩ := comp_inv h
  rw [hprev]
  simp only [Except.ok.injEq, exists_eq_left']
  unfold compPrevent at hprev
  rw [if_neg (by simpa using hp)] at hprev
  peel hprev with ons, hons
  peel hprev with tree, htree
  simp only [except_pure, Except.ok.injEq] at hprev
  subst hprev
  rw [mapM_ok] at hons
  -- the on variable of each prevented flow
  have hon : List.Forall₂ (fun a x => x.length = sys.n ∧ ∀ t < sys.n, (σ x.label t = 0 ∧ σ (rateL c.label a) t = 0) ∨
      (σ x.label t = 1 ∧ σ (rateL c.label a) t ≠ 0)) c.prevent ons := by
    refine forall₂_imp' hons ?_
    intro a ha x hx
    obtain ⟨p, hpm, hpl, oo, hoo, rfl⟩ := onOf_ok hx
    obtain ⟨f, hfm, hpf, hflm⟩ := comp_flow_mem h p hpm
    have hfit := fillOnOff_fits (c := c) (hf f hfm)
    have hl : f.label = a := by rw [← fillOnOff_label c f, ← hpf, hpl]
    obtain ⟨q', hq'⟩ := fillOnOff_onOff c f (Or.inr (by rw [hl]; exact ha))
    obtain ⟨oo', h1, h2, h3, h4⟩ := flow_state hv hfit hflm hq' (hfl p hpm)
    rw [hoo] at h1
    cases h1
    refine ⟨(onOff_on_length h2).1, fun t ht => ?_⟩
    obtain ⟨hrl, _⟩ := flowRate_ok (flow_inv hflm).1
    have hrl : p.2.flowRate.label = rateL c.label a := by rw [hrl, ← hl]; rfl
    rw [← hrl]
    have heps := hv.heps
    rcases h4 t ht with hz | ⟨h1, h2, _⟩
    · exact Or.inl hz
    · exact Or.inr ⟨h1, by intro h0; rw [h0] at h2; linarith⟩
  rw [show MTree.SolvesAll σ [tree] ↔ tree.Solves σ by simp [MTree.SolvesAll]]
  rw [prevent_iff htree (fun x hx => by obtain ⟨_, _, hl, _⟩ := forall₂_mem_right hon hx; exact hl)]
  refine forall₂_congr fun t ht => ?_
  rw [binSum_le (by
    intro y hy
    obtain ⟨x, hx, rfl⟩ := List.mem_map.1 hy
    obtain ⟨_, _, _, hst⟩ := forall₂_mem_right hon hx
    rcases hst t ht with h | h
    · exact Or.inl h.1
    · exact Or.inr h.1), List.pairwise_map]
  clear hons htree hp
  generalize c.prevent = ps at hon
  induction hon with
  | nil => simp
  | cons hab hrest ih =>
    rename_i a x as xs
    rw [List.pairwise_cons, List.pairwise_cons, ih]
    refine and_congr_left fun _ => ?_
    have key : ∀ (a : String) (x : Var), ((σ x.label t = 0 ∧ σ (rateL c.label a) t = 0) ∨ (σ x.label t = 1 ∧ σ (rateL c.label a) t ≠ 0)) →
        (σ x.label t = 0 ↔ σ (rateL c.label a) t = 0) := by
      rintro a x (⟨h1, h2⟩ | ⟨h1, h2⟩)
      · simp [h1, h2]
      · simp [h1, h2]
    constructor
    · intro hh b hb
      obtain ⟨y, hy, _, hst⟩ := forall₂_mem_left hrest hb
      have := hh y hy
      rwa [key a x (hab.2 t ht), key b y (hst t ht)] at this
    · intro hh y hy
      obtain ⟨b, hb, _, hst⟩ := forall₂_mem_right hrest hy
      have := hh b hb
      rwa [key a x (hab.2 t ht), key b y (hst t ht)]

end Flix
