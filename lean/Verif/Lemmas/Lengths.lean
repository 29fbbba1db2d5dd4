import Verif.Lemmas.Closed
import Verif.Lemmas.OnOffSem

/-!
# Lengths of the variables of a component
-/

namespace Flix

variable {sys : Sys}

/-- A single number, or at least one value for every time step; binary variables are never fixed. -/
def Wide (n : Nat) (x : Var) : Prop := (x.length = 1 ∨ n ≤ x.length) ∧ (x.isBinary = true → x.fixedValue = none)

theorem binary_values {σ : Assignment} {x : Var} (h : x.Ok σ) (hb : x.isBinary = true) (hf : x.fixedValue = none) :
    ∀ i < x.length, σ x.label i = 0 ∨ σ x.label i = 1 := fun i hi =>
  ((var_iff hf (var_fits h).1 (var_fits h).2).1 h i hi).2.2 hb

theorem mkVar_length {p label n b fv lb ub prev x} (h : mkVar p label n b fv lb ub prev = .ok x) : x.length = n := by
  rw [(mkVar_ok h).1]

theorem mkVar_real {p label n fv lb ub prev x} (h : mkVar p label n false fv lb ub prev = .ok x) : x.isBinary = false := by
  rw [(mkVar_ok h).1]

theorem mkVar_unfixed {p label n b lb ub prev x} (h : mkVar p label n b none lb ub prev = .ok x) : x.fixedValue = none := by
  rw [(mkVar_ok h).1]

theorem getDuration_length {p l : String} {b : Var} {lo hi : Option Num} {r : Var × List ConReq} (h : getDuration sys p l b lo hi = .ok r) :
    r.1.length = sys.n ∧ r.1.isBinary = false := by
  unfold getDuration at h
  simp only at h
  peel h with prev, hp
  peel h with dur, hd
  peel h with dt0, ht
  peel h with c3, h3
  simp only [except_pure, Except.ok.injEq] at h
  subst h
  exact ⟨mkVar_length hd, mkVar_real hd⟩

theorem onOff_wide {el : String} {params : OnOffParams} {defining : List (Var × Num × Num)} {o : OnOffOut}
    (h : onOffModel sys el params defining = .ok o) : o.tree.Vars (Wide sys.n) := by
  obtain ⟨prevOn, cOn, off, dOn, dOff, swOn, swOff, nr, cSw, _, hon, htot, hc, hoff, hdOn, hdOff, rfl, rfl, rfl, hsw, _, _, _, _, _, _, hvars, hcons,
    sh1, sh2, hsh1, hsh2, hsh⟩ := onOff_inv h
  rw [OnOffOut.tree, vars_node, hvars]
  refine ⟨?_, by simp⟩
  intro x hx
  simp only [List.mem_append, List.mem_cons, List.not_mem_nil, or_false, Option.mem_toList] at hx
  rcases hx with (((((rfl | rfl) | hx) | hx) | hx) | rfl | rfl | rfl)
  · exact ⟨.inr (by rw [hon]), fun _ => by rw [hon]⟩
  · exact ⟨.inl (by rw [htot]), fun _ => by rw [htot]⟩
  · unfold offOpt at hoff
    split at hoff
    · obtain ⟨q, hq, rfl⟩ := map_ok.1 hoff
      unfold offPart at hq
      simp only [mkVar_free, ok_bind, except_pure, Except.ok.injEq] at hq
      subst hq
      simp at hx
      subst hx
      exact ⟨.inr le_rfl, fun _ => rfl⟩
    · simp only [Except.ok.injEq] at hoff; subst hoff; simp at hx
  · unfold durationOnOpt at hdOn
    split at hdOn
    · obtain ⟨q, hq, rfl⟩ := map_ok.1 hdOn
      simp at hx
      subst hx
      exact ⟨.inr (getDuration_length hq).1.ge, fun hb => by rw [(getDuration_length hq).2] at hb; cases hb⟩
    · simp only [Except.ok.injEq] at hdOn; subst hdOn; simp at hx
  · unfold durationOffOpt at hdOff
    split at hdOff
    · split at hdOff
      · obtain ⟨q, hq, rfl⟩ := map_ok.1 hdOff
        simp at hx
        subst hx
        exact ⟨.inr (getDuration_length hq).1.ge, fun hb => by rw [(getDuration_length hq).2] at hb; cases hb⟩
      · cases hdOff
    · simp only [Except.ok.injEq] at hdOff; subst hdOff; simp at hx
  · exact ⟨.inr le_rfl, fun _ => rfl⟩
  · exact ⟨.inr le_rfl, fun _ => rfl⟩
  · exact ⟨.inl rfl, fun _ => rfl⟩

theorem multiple_wide {n : Nat} {el : String} {L : Nat} {points : List (Var × List (Num × Num))} {out : Outside} {tree : MTree}
    (h : multipleSegments el L points out = .ok tree) (hL : L = 1 ∨ n ≤ L) : tree.Vars (Wide n) := by
  obtain ⟨nr, _, _, vs, ops, hout, rfl⟩ := multiple_inv h
  rw [vars_node]
  constructor
  · intro x hx
    cases out with
    | no => simp only [outsidePart, Except.ok.injEq, Prod.mk.injEq] at hout; obtain ⟨rfl, _⟩ := hout; simp at hx
    | create =>
      simp only [outsidePart] at hout
      peel hout with y, hy
      simp only [except_pure, Except.ok.injEq, Prod.mk.injEq] at hout
      obtain ⟨rfl, rfl⟩ := hout
      simp at hx
      subst hx
      exact ⟨by rw [mkVar_length hy]; exact hL, fun _ => mkVar_unfixed hy⟩
    | use x => simp only [outsidePart, Except.ok.injEq, Prod.mk.injEq] at hout; obtain ⟨rfl, _⟩ := hout; simp at hx
  · intro s hs
    obtain ⟨i, hi, rfl⟩ := List.mem_map.1 hs
    rw [segTree, vars_node]
    refine ⟨?_, by simp⟩
    simp only [List.mem_cons, List.not_mem_nil, or_false, forall_eq_or_imp, forall_eq]
    exact ⟨⟨hL, fun _ => rfl⟩, ⟨hL, fun _ => rfl⟩, hL, fun _ => rfl⟩

theorem segShares_wide {n : Nat} {el : String} {x : Var} {xs : List (ℚ × ℚ)} {shares : List (String × List (ℚ × ℚ))} {out : Outside}
    {o : Out} (h : segmentedShares el x xs shares out = .ok o) : o.tree.Vars (Wide n) := by
  obtain ⟨_, segs, hs, ht, _⟩ := segmentedShares_inv h
  rw [ht, vars_node]
  constructor
  · intro x hx
    obtain ⟨e, _, rfl⟩ := List.mem_map.1 hx
    exact ⟨.inl rfl, fun _ => rfl⟩
  · simpa using multiple_wide (n := n) hs (.inl rfl)

theorem invest_wide {n : Nat} {cfg : Cfg} {el : String} {q : InvestParams} {x : Var} {relMin relMax : Num} {profile : Option Num}
    {on : Option Var} {o : InvestOut} (h : investModel cfg el q x relMin relMax profile on = .ok o) : o.tree.Vars (Wide n) := by
  obtain ⟨s1, s2, s3, s4, hsize, hinv, hvars, hcons, h1, h2, h3, h4, hsh⟩ := invest_inv h
  rw [InvestOut.tree, vars_node, hvars]
  constructor
  · intro y hy
    rcases List.mem_cons.1 hy with rfl | hy
    · unfold sizeVar at hsize
      split at hsize <;> exact ⟨.inl (mkVar_length hsize), fun hb => by rw [mkVar_real hsize] at hb; cases hb⟩
    · rw [Option.mem_toList] at hy
      unfold investedVar at hinv
      split at hinv
      · obtain ⟨z, hz, hz'⟩ := map_ok.1 hinv
        rw [← hz'] at hy
        cases hy
        exact ⟨.inl (mkVar_length hz), fun _ => mkVar_unfixed hz⟩
      · simp only [Except.ok.injEq] at hinv
        rw [← hinv] at hy
        cases hy
  · unfold investSegments at h4
    split at h4
    · simp only [Except.ok.injEq, Prod.mk.injEq] at h4
      rw [← h4.1]; simp
    · peel h4 with so, hso
      simp only [except_pure, Except.ok.injEq, Prod.mk.injEq] at h4
      rw [← h4.1]
      simpa using segShares_wide (n := n) hso

theorem flow_wide {el : String} {f : FlowData} {o : FlowOut} (h : flowModel sys el f = .ok o) : o.tree.Vars (Wide sys.n) := by
  obtain ⟨hr, hoo, hinv, hsum, htree, _⟩ := flow_inv h
  rw [htree, vars_node]
  constructor
  · simp only [List.mem_cons, List.not_mem_nil, or_false, forall_eq_or_imp, forall_eq]
    refine ⟨⟨.inr ?_, fun hb => by rw [(flowRate_ok hr).2.2.2.1] at hb; cases hb⟩, .inl (by rw [hsum]), fun _ => by rw [hsum]⟩
    rw [(flowRate_ok hr).2.1]
  · intro s hs
    rcases List.mem_append.1 hs with hs | hs
    · unfold flowOnOff at hoo
      split at hoo
      · simp only [Except.ok.injEq] at hoo; rw [← hoo] at hs; simp at hs
      · obtain ⟨q, hq, hq'⟩ := map_ok.1 hoo
        rw [← hq'] at hs
        simp at hs; subst hs
        exact onOff_wide hq
    · unfold flowInvest at hinv
      split at hinv
      · simp only [Except.ok.injEq] at hinv; rw [← hinv] at hs; simp at hs
      · obtain ⟨q, hq, hq'⟩ := map_ok.1 hinv
        rw [← hq'] at hs
        simp at hs; subst hs
        exact invest_wide hq

theorem comp_wide {c : CompData} {o : CompOut} (h : compModel sys c = .ok o) : o.vars = [] ∧ ∀ s ∈ o.subs, s.Vars (Wide sys.n) := by
  obtain ⟨h1, h2, h3, prev, h4, hvars, hcons, hsubs, hshares⟩ := comp_inv h
  refine ⟨hvars, ?_⟩
  rw [hsubs]
  intro s hs
  simp only [List.mem_append, List.mem_map] at hs
  rcases hs with (⟨q, hq, rfl⟩ | hs) | hs
  · obtain ⟨f, _, _, hf⟩ := comp_flow_mem h q hq
    exact flow_wide hf
  · unfold compOnOff at h3
    split at h3
    · simp only [Except.ok.injEq] at h3; rw [← h3] at hs; simp at hs
    · obtain ⟨q, hq, hq'⟩ := map_ok.1 h3
      rw [← hq'] at hs
      simp at hs; subst hs
      exact onOff_wide hq
  · unfold compPrevent at h4
    split at h4
    · simp only [Except.ok.injEq] at h4; subst h4; simp at hs
    · peel h4 with ons, hons
      peel h4 with t, ht
      simp only [except_pure, Except.ok.injEq] at h4
      subst h4
      simp at hs
      subst hs
      unfold preventSimultaneous at ht
      split at ht
      · cases ht
      · split at ht
        · simp only [Except.ok.injEq] at ht
          subst ht
          rw [vars_node]
          simp
        · cases ht

/-- All variables of a component are single numbers or cover the horizon; the binary ones are not fixed. -/
theorem model_wide {c : Comp} {o : CompOut} (h : c.model sys = .ok o) : o.tree.Vars (Wide sys.n) := by
  cases c with
  | plain c =>
    obtain ⟨a, b⟩ := comp_wide (c := c) h
    rw [CompOut.tree, vars_node, a]
    exact ⟨by simp, b⟩
  | converter c =>
    change converterModel sys c = .ok o at h
    unfold converterModel at h
    peel h with o0, h0
    obtain ⟨a, b⟩ := comp_wide h0
    split at h
    · simp only [except_pure, Except.ok.injEq] at h
      subst h
      rw [CompOut.tree, vars_node]
      simp only [a]
      exact ⟨by simp, b⟩
    · peel h with pts, h1
      peel h with tree, h2
      simp only [except_pure, Except.ok.injEq] at h
      subst h
      rw [CompOut.tree, vars_node]
      simp only [a]
      refine ⟨by simp, fun s hs => ?_⟩
      rcases List.mem_append.1 hs with hs | hs
      · exact b s hs
      · simp at hs; subst hs
        exact multiple_wide h2 (.inr le_rfl)
  | storage st =>
    obtain ⟨so, hso, rfl⟩ := map_ok.1 (show (·.comp) <$> storageModel sys st = .ok o from h)
    clear h
    rename' hso => h
    unfold storageModel at h
    peel h with o0, h0
    peel h with ab, hab
    obtain ⟨a, b⟩ := ab
    simp only at h
    peel h with c, hc
    peel h with nd, hnd
    peel h with cCharge, hcc
    peel h with inv, hinv
    peel h with cIF, hif
    simp only [except_pure, Except.ok.injEq] at h
    subst h
    obtain ⟨e, hsub⟩ := comp_wide h0
    rw [CompOut.tree, vars_node]
    simp only [e]
    constructor
    · simp only [List.nil_append, List.mem_cons, List.not_mem_nil, or_false, forall_eq_or_imp, forall_eq]
      refine ⟨⟨.inr ?_, fun hb => by rw [mkVar_real hc] at hb; cases hb⟩, .inr ?_, fun hb => by rw [mkVar_real hnd] at hb; cases hb⟩
      · rw [mkVar_length hc]; omega
      · rw [mkVar_length hnd]
    · intro t ht
      rcases List.mem_append.1 ht with ht | ht
      · exact hsub t ht
      · unfold storageInvest at hinv
        split at hinv
        · simp only [Except.ok.injEq] at hinv; rw [← hinv] at ht; simp at ht
        · obtain ⟨q, hq, hq'⟩ := map_ok.1 hinv
          rw [← hq'] at ht
          simp at ht; subst ht
          exact invest_wide hq
  | transmission t =>
    obtain ⟨tr, hto, rfl⟩ := map_ok.1 (show (·.comp) <$> transmissionModel sys t = .ok o from h)
    clear h
    rename' hto => h
    unfold transmissionModel at h
    peel h with o0, h0
    peel h with q, hq
    obtain ⟨i1, i2, o1, o2⟩ := q
    simp only at h
    peel h with c1, h1
    peel h with c2, h2
    simp only [except_pure, Except.ok.injEq] at h
    subst h
    obtain ⟨a, b⟩ := comp_wide h0
    rw [CompOut.tree, vars_node]
    simp only [a]
    exact ⟨by simp, b⟩

end Flix
