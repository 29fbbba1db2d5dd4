import Verif.Spec.Closed
import Verif.Lemmas.SystemSem

/-!
# All variables of constraints and shares are known

`P` is any property of variables; if it holds for the variables a piece of modelling code creates and for those it is given,
it holds for all variables its constraints and shares talk about.
-/

namespace Flix

def Op.Refs (P : Var → Prop) : Op → Prop
  | .summand x _ _ _ => P x
  | .const _ => True

def ConReq.Refs (P : Var → Prop) (r : ConReq) : Prop := ∀ op ∈ r.ops, op.Refs P

def ShareCall.Refs (P : Var → Prop) (c : ShareCall) : Prop := ∀ x, c.var = some x → P x

theorem refs_iff {P : Var → Prop} {r : ConReq} : r.Refs P ↔ ∀ x, r.Mentions x → P x := by
  constructor
  · rintro h x ⟨op, hop, f, i, a, rfl⟩
    exact h _ hop
  · intro h op hop
    cases op with
    | summand x f i a => exact h x ⟨_, hop, f, i, a, rfl⟩
    | const k => trivial

@[simp] theorem refs_sAll {P : Var → Prop} {x : Var} {f : Num} : (sAll x f).Refs P ↔ P x := Iff.rfl
@[simp] theorem refs_sIdx {P : Var → Prop} {x : Var} {f : Num} {i : List Nat} : (sIdx x f i).Refs P ↔ P x := Iff.rfl
@[simp] theorem refs_sSum {P : Var → Prop} {x : Var} {f : Num} : (sSum x f).Refs P ↔ P x := Iff.rfl
@[simp] theorem refs_const {P : Var → Prop} {k : Num} : (Op.const k).Refs P ↔ True := Iff.rfl
@[simp] theorem refs_summand {P : Var → Prop} {x : Var} {f : Num} {i : Option (List Nat)} {a : Bool} :
    (Op.summand x f i a).Refs P ↔ P x := Iff.rfl
@[simp] theorem refs_mkEq {P : Var → Prop} {p l : String} {ops : List Op} : (mkEq p l ops).Refs P ↔ ∀ op ∈ ops, op.Refs P := Iff.rfl
@[simp] theorem refs_mkIneq {P : Var → Prop} {p l : String} {ops : List Op} : (mkIneq p l ops).Refs P ↔ ∀ op ∈ ops, op.Refs P := Iff.rfl

/-- All constraints in the tree. -/
def MTree.Refs (P : Var → Prop) (t : MTree) : Prop := ∀ m ∈ t.nodes, ∀ r ∈ m.cons, r.Refs P

/-- All variables in the tree. -/
def MTree.Vars (P : Var → Prop) (t : MTree) : Prop := ∀ m ∈ t.nodes, ∀ x ∈ m.vars, P x

theorem refs_node {P : Var → Prop} {vs : List Var} {cs : List ConReq} {ss : List MTree} :
    (MTree.node vs cs ss).Refs P ↔ (∀ r ∈ cs, r.Refs P) ∧ ∀ s ∈ ss, s.Refs P := by
  simp only [MTree.Refs, within_nodes]
  constructor
  · intro h
    exact ⟨h _ (.refl _), fun s hs m hm => h m (.sub hs hm)⟩
  · rintro ⟨h1, h2⟩ m hm
    cases hm with
    | refl => exact h1
    | sub hs hw => exact h2 _ hs m hw

theorem vars_node {P : Var → Prop} {vs : List Var} {cs : List ConReq} {ss : List MTree} :
    (MTree.node vs cs ss).Vars P ↔ (∀ x ∈ vs, P x) ∧ ∀ s ∈ ss, s.Vars P := by
  simp only [MTree.Vars, within_nodes]
  constructor
  · intro h
    exact ⟨h _ (.refl _), fun s hs m hm => h m (.sub hs hm)⟩
  · rintro ⟨h1, h2⟩ m hm
    cases hm with
    | refl => exact h1
    | sub hs hw => exact h2 _ hs m hw

theorem sharesTo_refs {P : Var → Prop} {tg : Target} {el name : String} {vals : EffDict} {f : Num} {var : Option Var} {r : List ShareCall}
    (h : sharesTo tg el name vals f var = .ok r) (hP : ∀ x, var = some x → P x) : ∀ c ∈ r, c.Refs P := by
  intro c hc
  unfold sharesTo at h
  obtain ⟨q, _, hq⟩ := forall₂_mem_right (mapM_ok.1 h) hc
  obtain ⟨e, v⟩ := q
  simp only at hq
  peel hq with g, hg
  simp only [except_pure, Except.ok.injEq] at hq
  subst hq
  exact hP

/-! ## On/off -/

theorem minDuration_refs {P : Var → Prop} {sys : Sys} {p lp : String} {dur b : Var} {prev : ℚ} {m : Option Num} {cs : List ConReq}
    (h : minDurationCons sys p lp dur b prev m = .ok cs) (h1 : P dur) (h2 : P b) : ∀ r ∈ cs, r.Refs P := by
  cases m with
  | none => simp only [minDurationCons, Except.ok.injEq] at h; subst h; simp
  | some m =>
    simp only [minDurationCons] at h
    peel h with m0, hm0
    simp only [except_pure, Except.ok.injEq] at h
    subst h
    intro r hr
    rcases List.mem_cons.1 hr with rfl | hr
    · simp [h1, h2]
    · split at hr
      · simp at hr; subst hr; simp [h2]
      · simp at hr

theorem getDuration_refs {P : Var → Prop} {sys : Sys} {p l : String} {b : Var} {lo hi : Option Num} {r : Var × List ConReq}
    (h : getDuration sys p l b lo hi = .ok r) (h1 : P r.1) (h2 : P b) : ∀ c ∈ r.2, c.Refs P := by
  unfold getDuration at h
  simp only at h
  peel h with prev, hp
  peel h with dur, hd
  peel h with dt0, ht
  peel h with c3, h3
  simp only [except_pure, Except.ok.injEq] at h
  subst h
  simp only at h1
  intro c hc
  simp only [List.mem_append, List.mem_cons, List.not_mem_nil, or_false] at hc
  rcases hc with ((rfl | rfl | rfl) | hc) | rfl
  · simp [h1, h2]
  · simp [h1]
  · simp [h1, h2]
  · exact minDuration_refs h3 h1 h2 c hc
  · simp [h1, h2]

theorem onConstraints_refs {P : Var → Prop} {sys : Sys} {p : String} {on : Var} {defining : List (Var × Num × Num)} {cs : List ConReq}
    (h : onConstraints sys p on defining = .ok cs) (h1 : P on) (h2 : ∀ d ∈ defining, P d.1) : ∀ r ∈ cs, r.Refs P := by
  unfold onConstraints at h
  split at h
  · cases h
  · simp only [Except.ok.injEq] at h
    subst h
    simp only [List.mem_cons, List.not_mem_nil, or_false, forall_eq] at h2
    simp [h1, h2]
  · peel h with am, ham
    simp only [Except.ok.injEq] at h
    subst h
    simp only [List.mem_cons, List.not_mem_nil, or_false, forall_eq_or_imp, forall_eq, refs_mkIneq, List.mem_append, List.mem_map]
    constructor <;>
    · rintro op (⟨d, hd, rfl⟩ | rfl)
      · exact h2 d hd
      · exact h1

theorem switch_refs {P : Var → Prop} {sys : Sys} {p : String} {on a b nr : Var} {cs : List ConReq}
    (h : switchConstraints sys p on a b nr = .ok cs) (h1 : P on) (h2 : P a) (h3 : P b) (h4 : P nr) : ∀ r ∈ cs, r.Refs P := by
  unfold switchConstraints at h
  simp only at h
  peel h with l, hl
  simp only [except_pure, Except.ok.injEq] at h
  subst h
  simp [h1, h2, h3, h4]

theorem onOff_refs {P : Var → Prop} {sys : Sys} {el : String} {params : OnOffParams} {defining : List (Var × Num × Num)} {o : OnOffOut}
    (h : onOffModel sys el params defining = .ok o) (hv : ∀ x ∈ o.vars, P x) (hd : ∀ d ∈ defining, P d.1) :
    (∀ r ∈ o.cons, r.Refs P) ∧ ∀ c ∈ o.shares, c.Refs P := by
  obtain ⟨prevOn, cOn, off, dOn, dOff, swOn, swOff, nr, cSw, _, _, _, hc, hoff, hdOn, hdOff, _, _, _, hsw, _, _, _, _, _, _, hvars, hcons,
    sh1, sh2, hsh1, hsh2, hsh⟩ := onOff_inv h
  rw [hvars] at hv
  simp only [List.mem_append, List.mem_cons, List.not_mem_nil, or_false] at hv
  have v1 : P o.on := hv _ (by simp)
  have v2 : P o.totalOnHours := hv _ (by simp)
  have v3 : P swOn := hv _ (by simp)
  have v4 : P swOff := hv _ (by simp)
  have v5 : P nr := hv _ (by simp)
  constructor
  · rw [hcons]
    intro r hr
    simp only [List.mem_append, List.mem_cons, List.not_mem_nil, or_false] at hr
    rcases hr with ((((rfl | hr) | hr) | hr) | hr) | hr
    · simp [v1, v2]
    · refine onConstraints_refs hc v1 ?_ r hr
      intro d hd'
      simp only [raised, List.mem_map] at hd'
      obtain ⟨d', h', rfl⟩ := hd'
      exact hd d' h'
    · unfold offOpt at hoff
      split at hoff
      · obtain ⟨q, hq, rfl⟩ := map_ok.1 hoff
        have vq : P q.1 := hv _ (by simp)
        unfold offPart at hq
        simp only [mkVar_free, ok_bind, except_pure, Except.ok.injEq] at hq
        subst hq
        simp at hr
        subst hr
        simp at vq
        simp [v1, vq]
      · simp only [Except.ok.injEq] at hoff; subst hoff; simp at hr
    · unfold durationOnOpt at hdOn
      split at hdOn
      · obtain ⟨q, hq, rfl⟩ := map_ok.1 hdOn
        have vq : P q.1 := hv _ (by simp)
        exact getDuration_refs hq vq v1 r (by simpa using hr)
      · simp only [Except.ok.injEq] at hdOn; subst hdOn; simp at hr
    · unfold durationOffOpt at hdOff
      split at hdOff
      · cases ho : off with
        | none => rw [ho] at hdOff; simp at hdOff
        | some q0 =>
          rw [ho] at hdOff
          simp only [Option.map_some] at hdOff
          obtain ⟨q, hq, rfl⟩ := map_ok.1 hdOff
          have vq : P q.1 := hv _ (by simp)
          have vo : P q0.1 := hv _ (by simp [ho])
          exact getDuration_refs hq vq vo r (by simpa using hr)
      · simp only [Except.ok.injEq] at hdOff; subst hdOff; simp at hr
    · exact switch_refs hsw v1 v3 v4 v5 r hr
  · rw [hsh]
    intro c hc'
    rcases List.mem_append.1 hc' with hc' | hc'
    · exact sharesTo_refs hsh1 (by rintro x ⟨⟩; exact v3) c hc'
    · exact sharesTo_refs hsh2 (by rintro x ⟨⟩; exact v1) c hc'

theorem onOffTree_refs {P : Var → Prop} {sys : Sys} {el : String} {params : OnOffParams} {defining : List (Var × Num × Num)} {o : OnOffOut}
    (h : onOffModel sys el params defining = .ok o) (hv : o.tree.Vars P) (hd : ∀ d ∈ defining, P d.1) :
    o.tree.Refs P ∧ (∀ c ∈ o.shares, c.Refs P) ∧ P o.on := by
  rw [OnOffOut.tree, vars_node] at hv
  obtain ⟨h1, h2⟩ := onOff_refs h hv.1 hd
  refine ⟨by rw [OnOffOut.tree, refs_node]; exact ⟨h1, by simp⟩, h2, hv.1 _ ?_⟩
  obtain ⟨prevOn, cOn, off, dOn, dOff, swOn, swOff, nr, cSw, _, _, _, hc, hoff, hdOn, hdOff, _, _, _, hsw, _, _, _, _, _, _, hvars, _⟩ := onOff_inv h
  rw [hvars]; simp

/-! ## Segments -/

theorem multiple_refs {P : Var → Prop} {el : String} {L : Nat} {points : List (Var × List (Num × Num))} {out : Outside} {tree : MTree}
    (h : multipleSegments el L points out = .ok tree) (hv : tree.Vars P) (hp : ∀ q ∈ points, P q.1) (ho : ∀ x, out = .use x → P x) :
    tree.Refs P := by
  obtain ⟨nr, _, _, vs, ops, hout, rfl⟩ := multiple_inv h
  rw [vars_node] at hv
  obtain ⟨hv1, hv2⟩ := hv
  have hs : ∀ i < nr, P (segOf el L i).inSegment ∧ P (segOf el L i).lambda0 ∧ P (segOf el L i).lambda1 := by
    intro i hi
    have := hv2 (segTree el L i) (List.mem_map.2 ⟨i, List.mem_range.2 hi, rfl⟩)
    rw [segTree, vars_node] at this
    exact ⟨this.1 _ (by simp), this.1 _ (by simp), this.1 _ (by simp)⟩
  have hops : ∀ op ∈ ops, op.Refs P := by
    cases out with
    | no => simp only [outsidePart, Except.ok.injEq, Prod.mk.injEq] at hout; obtain ⟨_, rfl⟩ := hout; simp
    | create =>
      simp only [outsidePart] at hout
      peel hout with x, hx
      simp only [except_pure, Except.ok.injEq, Prod.mk.injEq] at hout
      obtain ⟨rfl, rfl⟩ := hout
      simpa using hv1 x (by simp)
    | use x =>
      simp only [outsidePart, Except.ok.injEq, Prod.mk.injEq] at hout; obtain ⟨_, rfl⟩ := hout; simpa using ho x rfl
  rw [refs_node]
  constructor
  · intro r hr
    rcases List.mem_append.1 hr with hr | hr
    · obtain ⟨q, hq, rfl⟩ := List.mem_map.1 hr
      simp only [refs_mkEq, List.mem_cons, forall_eq_or_imp, refs_sAll]
      refine ⟨hp q hq, ?_⟩
      intro op hop
      unfold lambdaOps at hop
      rw [List.mem_flatten] at hop
      obtain ⟨l, hl, hop⟩ := hop
      rw [← List.map_uncurry_zip_eq_zipWith] at hl
      obtain ⟨⟨s, w⟩, hsw, rfl⟩ := List.mem_map.1 hl
      have hs' := (List.of_mem_zip hsw).1
      obtain ⟨i, hi, rfl⟩ := List.mem_map.1 hs'
      obtain ⟨_, k1, k2⟩ := hs i (List.mem_range.1 hi)
      simp only [Function.uncurry, List.mem_cons, List.not_mem_nil, or_false] at hop
      rcases hop with rfl | rfl
      · exact k1
      · exact k2
    · simp only [List.mem_cons, List.not_mem_nil, or_false] at hr
      subst hr
      simp only [refs_mkEq, List.mem_append, List.mem_map, List.mem_range]
      rintro op (⟨i, hi, rfl⟩ | hop)
      · exact (hs i hi).1
      · exact hops op hop
  · intro s hs'
    obtain ⟨i, hi, rfl⟩ := List.mem_map.1 hs'
    obtain ⟨k0, k1, k2⟩ := hs i (List.mem_range.1 hi)
    rw [segTree, refs_node]
    simp [k0, k1, k2]

theorem segShares_refs {P : Var → Prop} {el : String} {x : Var} {xs : List (ℚ × ℚ)} {shares : List (String × List (ℚ × ℚ))} {out : Outside}
    {o : Out} (h : segmentedShares el x xs shares out = .ok o) (hv : o.tree.Vars P) (hx : P x) (ho : ∀ x, out = .use x → P x) :
    o.tree.Refs P ∧ ∀ c ∈ o.shares, c.Refs P := by
  obtain ⟨_, segs, hs, ht, hsh⟩ := segmentedShares_inv h
  rw [ht, vars_node] at hv
  have hvs : ∀ e ∈ shares, P (segShareVar el e.1) := fun e he => hv.1 _ (List.mem_map.2 ⟨e, he, rfl⟩)
  constructor
  · rw [ht, refs_node]
    refine ⟨by simp, ?_⟩
    intro s hs'
    simp at hs'
    subst hs'
    refine multiple_refs hs (hv.2 _ (by simp)) ?_ ho
    intro q hq
    unfold segSharePoints at hq
    rcases List.mem_append.1 hq with hq | hq
    · obtain ⟨e, he, rfl⟩ := List.mem_map.1 hq
      exact hvs e he
    · simp at hq; subst hq; exact hx
  · rw [hsh]
    intro c hc y hy
    obtain ⟨e, he, rfl⟩ := List.mem_map.1 hc
    simp only [segCall, Option.some.injEq] at hy
    subst hy
    exact hvs e he

/-! ## Investments -/

theorem invest_refs {P : Var → Prop} {cfg : Cfg} {el : String} {q : InvestParams} {x : Var} {relMin relMax : Num} {profile : Option Num}
    {on : Option Var} {o : InvestOut} (h : investModel cfg el q x relMin relMax profile on = .ok o) (hv : o.tree.Vars P) (hx : P x)
    (hon : ∀ y, on = some y → P y) : o.tree.Refs P ∧ (∀ c ∈ o.shares, c.Refs P) ∧ P o.size := by
  obtain ⟨s1, s2, s3, s4, hsize, hinv, hvars, hcons, h1, h2, h3, h4, hsh⟩ := invest_inv h
  rw [InvestOut.tree, vars_node, hvars] at hv
  obtain ⟨hv1, hv2⟩ := hv
  have vs : P o.size := hv1 _ (by simp)
  have vi : ∀ y, o.isInvested = some y → P y := fun y hy => hv1 _ (by simp [hy])
  have hseg : (∀ s ∈ o.subs, s.Refs P) ∧ ∀ c ∈ s4, c.Refs P := by
    unfold investSegments at h4
    split at h4
    · simp only [Except.ok.injEq, Prod.mk.injEq] at h4
      obtain ⟨hh, rfl⟩ := h4
      rw [← hh]; simp
    · peel h4 with so, hso
      simp only [except_pure, Except.ok.injEq, Prod.mk.injEq] at h4
      obtain ⟨hh, rfl⟩ := h4
      have := segShares_refs (P := P) hso (hv2 _ (by rw [← hh]; simp)) vs (by
        intro y hy
        cases hi : o.isInvested with
        | none => rw [hi] at hy; cases hy
        | some z => rw [hi] at hy; cases hy; exact vi _ hi)
      rw [← hh]
      exact ⟨by simpa using this.1, this.2⟩
  refine ⟨?_, ?_, vs⟩
  · rw [InvestOut.tree, refs_node, hcons]
    refine ⟨?_, hseg.1⟩
    intro r hr
    rcases List.mem_append.1 hr with hr | hr
    · cases hi : o.isInvested with
      | none => rw [hi] at hr; simp at hr
      | some y =>
        rw [hi] at hr
        have := vi y hi
        simp only [optionalCons] at hr
        split at hr <;> simp only [List.mem_cons, List.not_mem_nil, or_false] at hr
        · subst hr; simp [vs, this]
        · rcases hr with rfl | rfl <;> simp [vs, this]
    · unfold definingCons at hr
      cases profile with
      | some f => simp at hr; subst hr; simp [hx, vs]
      | none =>
        cases on with
        | none =>
          simp at hr
          rcases hr with rfl | rfl <;> simp [hx, vs]
        | some y =>
          have := hon y rfl
          simp at hr
          rcases hr with rfl | rfl <;> simp [hx, vs, this]
  · rw [hsh]
    intro c hc
    simp only [List.mem_append] at hc
    rcases hc with ((hc | hc) | hc) | hc
    · exact sharesTo_refs h1 vi c hc
    · unfold divestShares at h2
      split at h2
      · peel h2 with a, ha
        peel h2 with b, hb
        simp only [except_pure, Except.ok.injEq] at h2
        subst h2
        rcases List.mem_append.1 hc with hc | hc
        · exact sharesTo_refs ha (by simp) c hc
        · exact sharesTo_refs hb vi c hc
      · simp only [Except.ok.injEq] at h2; subst h2; simp at hc
    · exact sharesTo_refs h3 (by rintro y ⟨⟩; exact vs) c hc
    · exact hseg.2 c hc

/-! ## Flows and components -/

theorem toList_vars {P : Var → Prop} {α} {f : α → MTree} {a : Option α} : (∀ s ∈ (a.map f).toList, s.Vars P) ↔ ∀ x, a = some x → (f x).Vars P := by
  cases a <;> simp

theorem flow_refs {P : Var → Prop} {sys : Sys} {el : String} {f : FlowData} {o : FlowOut} (h : flowModel sys el f = .ok o) (hv : o.tree.Vars P) :
    o.tree.Refs P ∧ (∀ c ∈ o.shares, c.Refs P) ∧ P o.flowRate ∧ (∀ oo, o.onOff = some oo → P oo.on) ∧
      ∀ i, o.invest = some i → P i.size := by
  obtain ⟨_, hoo, hinv, _, htree, sh, hsh, hshares⟩ := flow_inv h
  rw [htree, vars_node] at hv
  obtain ⟨hv1, hv2⟩ := hv
  have vr : P o.flowRate := hv1 _ (by simp)
  have vsum : P o.sumFlowHours := hv1 _ (by simp)
  have ho : ∀ oo, o.onOff = some oo → oo.tree.Refs P ∧ (∀ c ∈ oo.shares, c.Refs P) ∧ P oo.on := by
    intro oo hh
    unfold flowOnOff at hoo
    split at hoo
    · simp only [Except.ok.injEq] at hoo; rw [← hoo] at hh; cases hh
    · obtain ⟨q, hq, hq'⟩ := map_ok.1 hoo
      rw [hh] at hq'
      cases hq'
      exact onOffTree_refs hq (hv2 _ (by simp [hh])) (by simpa using vr)
  have hi : ∀ i, o.invest = some i → i.tree.Refs P ∧ (∀ c ∈ i.shares, c.Refs P) ∧ P i.size := by
    intro i hh
    unfold flowInvest at hinv
    split at hinv
    · simp only [Except.ok.injEq] at hinv; rw [← hinv] at hh; cases hh
    · obtain ⟨q, hq, hq'⟩ := map_ok.1 hinv
      rw [hh] at hq'
      cases hq'
      refine invest_refs hq (hv2 _ (by simp [hh])) vr ?_
      intro y hy
      cases hoo' : o.onOff with
      | none => rw [hoo'] at hy; simp at hy
      | some oo => rw [hoo'] at hy; simp at hy; subst hy; exact (ho oo hoo').2.2
  refine ⟨?_, ?_, vr, fun oo hh => (ho oo hh).2.2, fun i hh => (hi i hh).2.2⟩
  · rw [htree, refs_node]
    constructor
    · intro r hr
      rcases List.mem_cons.1 hr with rfl | hr
      · simp [vr, vsum]
      · unfold loadFactorCons at hr
        rcases List.mem_append.1 hr with hr | hr
        · cases hm : f.loadFactorMax with
          | none => rw [hm] at hr; simp at hr
          | some lf =>
            rw [hm] at hr
            simp only [List.mem_cons, List.not_mem_nil, or_false] at hr
            subst hr
            cases hii : o.invest with
            | none => simp [vsum]
            | some i => simp [vsum, (hi i hii).2.2]
        · cases hm : f.loadFactorMin with
          | none => rw [hm] at hr; simp at hr
          | some lf =>
            rw [hm] at hr
            simp only [List.mem_cons, List.not_mem_nil, or_false] at hr
            subst hr
            cases hii : o.invest with
            | none => simp [vsum]
            | some i => simp [vsum, (hi i hii).2.2]
    · intro s hs
      rcases List.mem_append.1 hs with hs | hs
      · cases hoo' : o.onOff with
        | none => rw [hoo'] at hs; simp at hs
        | some oo => rw [hoo'] at hs; simp at hs; subst hs; exact (ho oo hoo').1
      · cases hii : o.invest with
        | none => rw [hii] at hs; simp at hs
        | some i => rw [hii] at hs; simp at hs; subst hs; exact (hi i hii).1
  · rw [hshares]
    intro c hc
    simp only [List.mem_append] at hc
    rcases hc with (hc | hc) | hc
    · cases hoo' : o.onOff with
      | none => rw [hoo'] at hc; simp at hc
      | some oo => rw [hoo'] at hc; simp at hc; exact (ho oo hoo').2.1 c hc
    · cases hii : o.invest with
      | none => rw [hii] at hc; simp at hc
      | some i => rw [hii] at hc; simp at hc; exact (hi i hii).2.1 c hc
    · exact sharesTo_refs hsh (by rintro y ⟨⟩; exact vr) c hc

/-- What the flows of a component provide. -/
def FlowRefs (P : Var → Prop) (o : FlowOut) : Prop :=
  P o.flowRate ∧ (∀ oo, o.onOff = some oo → P oo.on) ∧ ∀ i, o.invest = some i → P i.size

theorem onOf_refs {P : Var → Prop} {flows : List (FlowData × FlowOut)} {l : String} {x : Var} (h : onOf flows l = .ok x)
    (hf : ∀ q ∈ flows, FlowRefs P q.2) : P x := by
  unfold onOf at h
  split at h
  · rename_i q hq
    have := hf q (List.mem_of_find?_eq_some hq)
    split at h
    · rename_i oo hoo
      cases h
      exact this.2.1 _ hoo
    · cases h
  · cases h

theorem comp_refs {P : Var → Prop} {sys : Sys} {c : CompData} {o : CompOut} (h : compModel sys c = .ok o) (hv : o.tree.Vars P) :
    (∀ r ∈ o.cons, r.Refs P) ∧ (∀ s ∈ o.subs, s.Refs P) ∧ (∀ c ∈ o.shares, c.Refs P) ∧ (∀ q ∈ o.flows, FlowRefs P q.2) ∧
      ∀ oo, o.on = some oo → P oo.on := by
  obtain ⟨h1, h2, h3, prev, h4, hvars, hcons, hsubs, hshares⟩ := comp_inv h
  rw [CompOut.tree, vars_node, hsubs] at hv
  obtain ⟨_, hv2⟩ := hv
  have hfl : ∀ q ∈ o.flows, q.2.tree.Refs P ∧ (∀ c ∈ q.2.shares, c.Refs P) ∧ FlowRefs P q.2 := by
    intro q hq
    have hvq : q.2.tree.Vars P := hv2 _ (by
      rw [List.append_assoc]; exact List.mem_append_left _ (List.mem_map.2 ⟨q, hq, rfl⟩))
    have : ∃ el f, flowModel sys el f = .ok q.2 := by
      unfold CompOut.flows at hq
      rcases List.mem_append.1 hq with hq | hq
      · obtain ⟨f, _, _, hf⟩ := forall₂_mem_right h1 hq; exact ⟨_, _, hf⟩
      · obtain ⟨f, _, _, hf⟩ := forall₂_mem_right h2 hq; exact ⟨_, _, hf⟩
    obtain ⟨el, f, hf⟩ := this
    obtain ⟨a, b, c, d, e⟩ := flow_refs hf hvq
    exact ⟨a, b, c, d, e⟩
  have hon : ∀ oo, o.on = some oo → oo.tree.Refs P ∧ (∀ c ∈ oo.shares, c.Refs P) ∧ P oo.on := by
    intro oo hh
    unfold compOnOff at h3
    split at h3
    · simp only [Except.ok.injEq] at h3; rw [← h3] at hh; cases hh
    · obtain ⟨q, hq, hq'⟩ := map_ok.1 h3
      rw [hh] at hq'
      cases hq'
      refine onOffTree_refs hq (hv2 _ (by simp [hh])) ?_
      intro d hd
      obtain ⟨q', hq', rfl⟩ := List.mem_map.1 hd
      exact (hfl q' hq').2.2.1
  refine ⟨by rw [hcons]; simp, ?_, ?_, fun q hq => (hfl q hq).2.2, fun oo hh => (hon oo hh).2.2⟩
  · rw [hsubs]
    intro s hs
    simp only [List.mem_append, List.mem_map] at hs
    rcases hs with (⟨q, hq, rfl⟩ | hs) | hs
    · exact (hfl q hq).1
    · cases hoo : o.on with
      | none => rw [hoo] at hs; simp at hs
      | some oo => rw [hoo] at hs; simp at hs; subst hs; exact (hon oo hoo).1
    · unfold compPrevent at h4
      split at h4
      · simp only [Except.ok.injEq] at h4; subst h4; simp at hs
      · peel h4 with ons, hons
        peel h4 with t, ht
        simp only [except_pure, Except.ok.injEq] at h4
        subst h4
        simp at hs
        subst hs
        unfold preventSimultaneous at ht
        split at ht
        · cases ht
        · split at ht
          · simp only [Except.ok.injEq] at ht
            subst ht
            rw [refs_node]
            refine ⟨?_, by simp⟩
            simp only [List.mem_cons, List.not_mem_nil, or_false, forall_eq, refs_mkIneq, List.mem_append, List.mem_map]
            rintro op (⟨x, hx, rfl⟩ | rfl)
            · obtain ⟨l, _, hl⟩ := forall₂_mem_right (mapM_ok.1 hons) hx
              exact onOf_refs hl fun q hq => (hfl q hq).2.2
            · trivial
          · cases ht
  · rw [hshares]
    intro cc hc
    rcases List.mem_append.1 hc with hc | hc
    · rw [List.mem_flatten] at hc
      obtain ⟨l, hl, hc⟩ := hc
      obtain ⟨q, hq, rfl⟩ := List.mem_map.1 hl
      exact (hfl q hq).2.1 cc hc
    · cases hoo : o.on with
      | none => rw [hoo] at hc; simp at hc
      | some oo => rw [hoo] at hc; simp at hc; exact (hon oo hoo).2.1 cc hc

theorem converter_refs {P : Var → Prop} {sys : Sys} {c : ConvData} {o : CompOut} (h : converterModel sys c = .ok o) (hv : o.tree.Vars P) :
    o.tree.Refs P ∧ (∀ c ∈ o.shares, c.Refs P) ∧ (∀ q ∈ o.flows, FlowRefs P q.2) := by
  unfold converterModel at h
  peel h with o0, h0
  split at h
  · simp only [except_pure, Except.ok.injEq] at h
    subst h
    obtain ⟨a, b, c', d, e⟩ := comp_refs h0 (by rw [CompOut.tree, vars_node] at hv ⊢; exact hv)
    refine ⟨?_, c', d⟩
    rw [CompOut.tree, refs_node]
    refine ⟨?_, b⟩
    intro r hr
    rcases List.mem_append.1 hr with hr | hr
    · exact a r hr
    · rw [List.mem_mapIdx] at hr
      obtain ⟨i, hi, rfl⟩ := hr
      simp only [refs_mkEq]
      intro op hop
      unfold conversionOps at hop
      simp only [List.mem_append, List.mem_filterMap, List.mem_cons, List.not_mem_nil, or_false] at hop
      rcases hop with (⟨q, hq, hop⟩ | ⟨q, hq, hop⟩) | rfl
      · obtain ⟨f, _, rfl⟩ := Option.map_eq_some_iff.1 hop
        exact (d q (List.mem_append_left _ hq)).1
      · obtain ⟨f, _, rfl⟩ := Option.map_eq_some_iff.1 hop
        exact (d q (List.mem_append_right _ hq)).1
      · trivial
  · peel h with pts, h1
    peel h with t, h2
    simp only [except_pure, Except.ok.injEq] at h
    subst h
    rw [CompOut.tree, vars_node] at hv
    obtain ⟨hv1, hv2⟩ := hv
    obtain ⟨a, b, c', d, e⟩ := comp_refs (P := P) h0 (by
      rw [CompOut.tree, vars_node]; exact ⟨hv1, fun s hs => hv2 s (List.mem_append_left _ hs)⟩)
    refine ⟨?_, c', d⟩
    rw [CompOut.tree, refs_node]
    refine ⟨a, ?_⟩
    intro s hs
    rcases List.mem_append.1 hs with hs | hs
    · exact b s hs
    · simp only [List.mem_cons, List.not_mem_nil, or_false] at hs
      subst hs
      refine multiple_refs h2 (hv2 _ (by simp)) ?_ ?_
      · intro q hq
        unfold segmentPoints at h1
        obtain ⟨q', hq', hh⟩ := forall₂_mem_right (mapM_ok.1 h1) hq
        split at hh
        · cases hh; exact (d q' hq').1
        · cases hh
      · intro x hx
        cases hoo : o0.on with
        | none => rw [hoo] at hx; cases hx
        | some oo => rw [hoo] at hx; cases hx; exact e oo hoo

theorem storage_refs {P : Var → Prop} {sys : Sys} {s : StorageData} {o : StorageOut} (h : storageModel sys s = .ok o) (hv : o.comp.tree.Vars P) :
    o.comp.tree.Refs P ∧ (∀ c ∈ o.comp.shares, c.Refs P) ∧ (∀ q ∈ o.comp.flows, FlowRefs P q.2) := by
  unfold storageModel at h
  peel h with o0, h0
  peel h with ab, hab
  obtain ⟨a, b⟩ := ab
  simp only at h
  peel h with c, hc
  peel h with nd, hnd
  peel h with cCharge, hcc
  peel h with inv, hinv
  peel h with cIF, hif
  simp only [except_pure, Except.ok.injEq] at h
  subst h
  rw [CompOut.tree, vars_node] at hv
  obtain ⟨hv1, hv2⟩ := hv
  have vc : P c := hv1 _ (by simp)
  have vn : P nd := hv1 _ (by simp)
  obtain ⟨k1, k2, k3, k4, _⟩ := comp_refs (P := P) h0 (by
    rw [CompOut.tree, vars_node]
    exact ⟨fun x hx => hv1 x (List.mem_append_left _ hx), fun s hs => hv2 s (List.mem_append_left _ hs)⟩)
  have hfl : P a.flowRate ∧ P b.flowRate := by
    unfold storageFlows at hab
    split at hab
    · rename_i x a' y b' e1 e2
      simp only [Except.ok.injEq, Prod.mk.injEq] at hab
      obtain ⟨rfl, rfl⟩ := hab
      exact ⟨(k4 (x, a') (by simp [CompOut.flows, e1])).1, (k4 (y, b') (by simp [CompOut.flows, e2])).1⟩
    · cases hab
  have hin : ∀ i, inv = some i → i.tree.Refs P ∧ (∀ c ∈ i.shares, c.Refs P) ∧ P i.size := by
    intro i hh
    unfold storageInvest at hinv
    split at hinv
    · simp only [Except.ok.injEq] at hinv; rw [← hinv] at hh; cases hh
    · obtain ⟨q, hq, hq'⟩ := map_ok.1 hinv
      rw [hh] at hq'
      cases hq'
      exact invest_refs hq (hv2 _ (by simp [hh])) vc (by simp)
  have hfin : ∀ r ∈ finalCons sys s c, r.Refs P := by
    intro r hr
    unfold finalCons at hr
    rcases List.mem_append.1 hr with hr | hr
    · cases hm : s.maxFinal <;> rw [hm] at hr <;> simp at hr
      subst hr; simp [vc]
    · cases hm : s.minFinal <;> rw [hm] at hr <;> simp at hr
      subst hr; simp [vc]
  refine ⟨?_, ?_, k4⟩
  · rw [CompOut.tree, refs_node]
    constructor
    · intro r hr
      simp only [List.mem_append, List.mem_cons, List.not_mem_nil, or_false] at hr
      rcases hr with (hr | rfl | rfl) | hr
      · exact k1 r hr
      · simp [vn, hfl.1, hfl.2]
      · unfold chargeCon at hcc
        simp only at hcc
        peel hcc with l, _
        peel hcc with f1, _
        peel hcc with i1, _
        peel hcc with f2, _
        simp only [except_pure, Except.ok.injEq] at hcc
        subst hcc
        simp [vc, hfl.1, hfl.2]
      · unfold initialFinalCons at hif
        split at hif
        · simp only [Except.ok.injEq] at hif; subst hif; simp at hr
        · simp only [Except.ok.injEq] at hif; subst hif
          rcases List.mem_cons.1 hr with rfl | hr
          · simp [vc]
          · exact hfin r hr
        · split at hif
          · cases hif
          · simp only [Except.ok.injEq] at hif; subst hif
            rcases List.mem_cons.1 hr with rfl | hr
            · simp [vc]
            · exact hfin r hr
        · cases hif
    · intro t ht
      rcases List.mem_append.1 ht with ht | ht
      · exact k2 t ht
      · cases hii : inv with
        | none => rw [hii] at ht; simp at ht
        | some i => rw [hii] at ht; simp at ht; subst ht; exact (hin i hii).1
  · intro cc hcc'
    rcases List.mem_append.1 hcc' with hcc' | hcc'
    · exact k3 cc hcc'
    · cases hii : inv with
      | none => rw [hii] at hcc'; simp at hcc'
      | some i => rw [hii] at hcc'; simp at hcc'; exact (hin i hii).2.1 cc hcc'

theorem transCon_refs {P : Var → Prop} {t : TransData} {name : String} {i o : FlowOut} {r : ConReq} (h : transCon t name i o = .ok r)
    (hi : FlowRefs P i) (ho : FlowRefs P o) : r.Refs P := by
  unfold transCon at h
  peel h with extra, he
  simp only [except_pure, Except.ok.injEq] at h
  subst h
  simp only [refs_mkEq, List.mem_append, List.mem_cons, List.not_mem_nil, or_false]
  rintro op ((rfl | rfl) | hop)
  · exact hi.1
  · exact ho.1
  · unfold absLossOps at he
    split at he
    · simp only [Except.ok.injEq] at he; subst he; simp at hop
    · peel he with on, hon
      simp only [except_pure, Except.ok.injEq] at he
      subst he
      simp only [List.mem_cons, List.not_mem_nil, or_false] at hop
      subst hop
      unfold FlowOut.onVar at hon
      split at hon
      · rename_i oo hoo
        cases hon
        exact hi.2.1 _ hoo
      · cases hon

theorem trans_refs {P : Var → Prop} {sys : Sys} {t : TransData} {o : TransOut} (h : transmissionModel sys t = .ok o) (hv : o.comp.tree.Vars P) :
    o.comp.tree.Refs P ∧ (∀ c ∈ o.comp.shares, c.Refs P) ∧ (∀ q ∈ o.comp.flows, FlowRefs P q.2) := by
  unfold transmissionModel at h
  peel h with o0, h0
  peel h with q, hq
  obtain ⟨i1, i2, o1, o2⟩ := q
  simp only at h
  peel h with c1, h1
  peel h with c2, h2
  simp only [except_pure, Except.ok.injEq] at h
  subst h
  obtain ⟨k1, k2, k3, k4, _⟩ := comp_refs (P := P) h0 (by rw [CompOut.tree, vars_node] at hv ⊢; exact hv)
  have hfl : FlowRefs P i1 ∧ FlowRefs P o1 ∧ (∀ x, i2 = some x → FlowRefs P x) ∧ ∀ x, o2 = some x → FlowRefs P x := by
    unfold transFlows at hq
    split at hq
    · rename_i a as b bs e1 e2
      simp only [Except.ok.injEq, Prod.mk.injEq] at hq
      obtain ⟨rfl, rfl, rfl, rfl⟩ := hq
      refine ⟨k4 a (by simp [CompOut.flows, e1]), k4 b (by simp [CompOut.flows, e2]), ?_, ?_⟩
      · intro x hx
        obtain ⟨y, hy, rfl⟩ := Option.map_eq_some_iff.1 hx
        exact k4 y (by simp [CompOut.flows, e1, List.mem_of_mem_head? hy])
      · intro x hx
        obtain ⟨y, hy, rfl⟩ := Option.map_eq_some_iff.1 hx
        exact k4 y (by simp [CompOut.flows, e2, List.mem_of_mem_head? hy])
    · cases hq
  obtain ⟨f1, f2, f3, f4⟩ := hfl
  refine ⟨?_, k3, k4⟩
  rw [CompOut.tree, refs_node]
  refine ⟨?_, k2⟩
  intro r hr
  simp only [List.mem_append, List.mem_cons, List.not_mem_nil, or_false] at hr
  rcases hr with (hr | rfl) | hr
  · exact k1 r hr
  · exact transCon_refs h1 f1 f2
  · unfold transSecond at h2
    split at h2
    · simp only [Except.ok.injEq] at h2; subst h2; simp at hr
    · split at h2
      · cases h2
      · rename_i x2 _ y2
        peel h2 with c, hc
        have hcr := transCon_refs hc (f3 _ rfl) (f4 _ rfl)
        split at h2
        · split at h2
          · rename_i a b ha hb
            simp only [except_pure, Except.ok.injEq] at h2
            subst h2
            simp only [List.mem_cons, List.not_mem_nil, or_false] at hr
            rcases hr with rfl | rfl
            · exact hcr
            · simp [f1.2.2 a ha, (f3 _ rfl).2.2 b hb]
          · cases h2
        · simp only [except_pure, Except.ok.injEq] at h2
          subst h2
          simp only [List.mem_cons, List.not_mem_nil, or_false] at hr
          subst hr
          exact hcr

theorem model_refs {P : Var → Prop} {sys : Sys} {c : Comp} {o : CompOut} (h : c.model sys = .ok o) (hv : o.tree.Vars P) :
    o.tree.Refs P ∧ (∀ c ∈ o.shares, c.Refs P) ∧ (∀ q ∈ o.flows, FlowRefs P q.2) := by
  cases c with
  | plain c =>
    obtain ⟨a, b, c, d, _⟩ := comp_refs (P := P) h hv
    exact ⟨by rw [CompOut.tree, refs_node]; exact ⟨a, b⟩, c, d⟩
  | converter c => exact converter_refs h hv
  | storage s =>
    obtain ⟨so, hso, rfl⟩ := map_ok.1 (show (·.comp) <$> storageModel sys s = .ok o from h)
    exact storage_refs hso hv
  | transmission t =>
    obtain ⟨tr, hto, rfl⟩ := map_ok.1 (show (·.comp) <$> transmissionModel sys t = .ok o from h)
    exact trans_refs hto hv

/-! ## Buses -/

theorem bus_refs {P : Var → Prop} {sys : Sys} {b : BusData} {ins outs : List Var} {o : BusOut} (h : busModel sys b ins outs = .ok o)
    (hv : o.tree.Vars P) (h1 : ∀ x ∈ ins, P x) (h2 : ∀ x ∈ outs, P x) : o.tree.Refs P ∧ ∀ c ∈ o.shares, c.Refs P := by
  unfold busModel at h
  split at h
  · simp only [Except.ok.injEq] at h
    subst h
    simp only [refs_node, List.mem_cons, List.not_mem_nil, or_false, forall_eq, refs_mkEq, List.mem_append, List.mem_map,
      false_implies, implies_true, and_true]
    rintro op (⟨x, hx, rfl⟩ | ⟨x, hx, rfl⟩)
    · exact h1 x hx
    · exact h2 x hx
  · peel h with f, hf
    peel h with ein, he
    peel h with eout, heo
    simp only [except_pure, Except.ok.injEq] at h
    subst h
    simp only [vars_node] at hv
    have v1 : P ein := hv.1 _ (by simp)
    have v2 : P eout := hv.1 _ (by simp)
    constructor
    · simp only [refs_node, List.mem_cons, List.not_mem_nil, or_false, forall_eq, refs_mkEq, List.mem_append, List.mem_map,
        false_implies, implies_true, and_true]
      rintro op ((⟨x, hx, rfl⟩ | ⟨x, hx, rfl⟩) | rfl | rfl)
      · exact h1 x hx
      · exact h2 x hx
      · exact v2
      · exact v1
    · simp only [List.mem_cons, List.not_mem_nil, or_false, forall_eq_or_imp, forall_eq]
      constructor <;> rintro x ⟨⟩
      · exact v1
      · exact v2

/-! ## Effects -/

theorem samTree_refs {P : Var → Prop} {d : SamData} {vs : SamVars} {calls : List Share} {tree : MTree} (h : samTree d vs calls = .ok tree)
    (hv : tree.Vars P) (hc : ∀ c ∈ calls, ∀ x, c.var = some x → P x) : tree.Refs P ∧ P vs.sum ∧ ∀ ts, vs.sumTS = some ts → P ts := by
  unfold samTree at h
  simp only at h
  peel h with shares, hsh
  have hs : ∀ q ∈ shares, ∃ c ∈ calls, q = (c, shareV d.el c, shareT d.el c) := by
    intro q hq
    obtain ⟨c, hc', hh⟩ := forall₂_mem_right (mapM_ok.1 hsh) hq
    peel hh with r, hr
    simp only [except_pure, Except.ok.injEq] at hh
    have := singleShare_eq hr
    subst this
    exact ⟨c, hc', hh.symm⟩
  split at h
  · cases h
  · have key : ∀ subs : List MTree, subs = shares.map (·.2.2) → (∀ s ∈ subs, s.Vars P) →
        (∀ q ∈ shares, P q.2.1) ∧ ∀ s ∈ subs, s.Refs P := by
      rintro _ rfl hvs
      have hvq : ∀ q ∈ shares, P q.2.1 := by
        intro q hq
        obtain ⟨c, _, rfl⟩ := hs q hq
        have := hvs _ (List.mem_map.2 ⟨_, hq, rfl⟩)
        simp only [shareT, vars_node] at this
        exact this.1 _ (by simp)
      refine ⟨hvq, ?_⟩
      intro s hs'
      obtain ⟨q, hq, rfl⟩ := List.mem_map.1 hs'
      have h1 := hvq q hq
      obtain ⟨c, hc', rfl⟩ := hs q hq
      simp only [shareT, refs_node, List.mem_cons, List.not_mem_nil, or_false, forall_eq, refs_mkEq, forall_eq_or_imp, refs_sAll,
        false_implies, implies_true, and_true]
      refine ⟨h1, ?_⟩
      cases hcv : c.var with
      | none => trivial
      | some x => exact hc c hc' x hcv
    have hsum : ∀ (f : Share × Var × MTree → Bool), (∀ q ∈ shares, P q.2.1) →
        ∀ op ∈ shares.filterMap (fun q => if f q then some (sAll q.2.1 (.s 1)) else none), op.Refs P := by
      intro f hq op hop
      obtain ⟨q, hq', hh⟩ := List.mem_filterMap.1 hop
      split at hh
      · cases hh; exact hq q hq'
      · cases hh
    have hsum' : ∀ (f : Share × Var × MTree → Bool), (∀ q ∈ shares, P q.2.1) →
        ∀ op ∈ shares.filterMap (fun q => if f q then none else some (sAll q.2.1 (.s 1))), op.Refs P := by
      intro f hq op hop
      obtain ⟨q, hq', hh⟩ := List.mem_filterMap.1 hop
      split at hh
      · cases hh
      · cases hh; exact hq q hq'
    split at h
    · rename_i hts
      simp only [Except.ok.injEq] at h
      subst h
      simp only [vars_node] at hv
      obtain ⟨ka, kb⟩ := key _ rfl hv.2
      have vsum := hv.1 vs.sum (by simp)
      refine ⟨?_, vsum, by simp [hts]⟩
      rw [refs_node]
      refine ⟨?_, kb⟩
      simp only [List.mem_cons, List.not_mem_nil, or_false, forall_eq, refs_mkEq, forall_eq_or_imp, refs_sAll]
      exact ⟨vsum, hsum (fun q => toSum d.isTS q.1) ka⟩
    · rename_i ts hts
      simp only [Except.ok.injEq] at h
      subst h
      simp only [vars_node] at hv
      obtain ⟨ka, kb⟩ := key _ rfl hv.2
      have vsum := hv.1 vs.sum (by simp)
      have vts := hv.1 ts (by simp)
      refine ⟨?_, vsum, by rw [hts]; rintro _ ⟨⟩; exact vts⟩
      rw [refs_node]
      refine ⟨?_, kb⟩
      simp only [List.mem_cons, List.not_mem_nil, or_false, forall_eq, refs_mkEq, forall_eq_or_imp, refs_sAll, refs_sSum]
      exact ⟨⟨vsum, vts, hsum (fun q => toSum d.isTS q.1) ka⟩, vts, hsum' (fun q => toSum d.isTS q.1) ka⟩

/-- The variables of a share allocation are in its model. -/
theorem samTree_vars {P : Var → Prop} {d : SamData} {vs : SamVars} {calls : List Share} {tree : MTree} (h : samTree d vs calls = .ok tree)
    (hv : tree.Vars P) : P vs.sum ∧ ∀ ts, vs.sumTS = some ts → P ts := by
  unfold samTree at h
  simp only at h
  peel h with shares, hsh
  split at h
  · cases h
  · split at h
    · rename_i hts
      simp only [Except.ok.injEq] at h
      subst h
      simp only [vars_node] at hv
      exact ⟨hv.1 vs.sum (by simp), by simp [hts]⟩
    · rename_i ts hts
      simp only [Except.ok.injEq] at h
      subst h
      simp only [vars_node] at hv
      exact ⟨hv.1 vs.sum (by simp), by rw [hts]; rintro _ ⟨⟩; exact hv.1 ts (by simp)⟩

/-- The calls of the elements are the only variables the effects take from outside. -/
theorem collection_refs {P : Var → Prop} {sys : Sys} {es : List EffectData} {calls : List ShareCall} {o : CollOut}
    (h : collectionModel sys es calls = .ok o) (hv : o.tree.Vars P) (hc : ∀ c ∈ calls, c.Refs P) :
    o.tree.Refs P ∧ ∀ op ∈ o.objective, op.Refs P := by
  obtain ⟨between, addressed, trees, pt, h1, h2, h3, h4, h5, h6, h7, ht⟩ := collection_inv h
  rw [ht, vars_node] at hv
  obtain ⟨_, hv2⟩ := hv
  have hpt := samTree_vars h7 (hv2 pt (by simp))
  have hev : ∀ ev ∈ o.effects, (P ev.operation.sum ∧ ∀ ts, ev.operation.sumTS = some ts → P ts) ∧ P ev.invest.sum := by
    intro ev hev
    obtain ⟨t, ht', hh⟩ := forall₂_mem_left h6 hev
    have hvt := hv2 t (List.mem_append_left _ ht')
    unfold effectTree at hh
    peel hh with i, hi
    peel hh with op, hop
    peel hh with a, ha
    simp only [except_pure, Except.ok.injEq] at hh
    subst hh
    rw [vars_node] at hvt
    exact ⟨samTree_vars hop (hvt.2 _ (by simp)), (samTree_vars hi (hvt.2 _ (by simp))).1⟩
  have hall : ∀ a ∈ between.flatten ++ addressed, ∀ x, a.share.var = some x → P x := by
    intro a ha x hx
    rcases List.mem_append.1 ha with ha | ha
    · obtain ⟨l, hl, ha⟩ := List.mem_flatten.1 ha
      obtain ⟨ev, hev', hb⟩ := forall₂_mem_right h3 hl
      rw [betweenOf_ok hb] at ha
      rcases List.mem_append.1 ha with ha | ha
      · obtain ⟨q, _, rfl⟩ := List.mem_map.1 ha
        exact (hev ev hev').1.2 x hx
      · obtain ⟨q, _, rfl⟩ := List.mem_map.1 ha
        simp only [invShare, Option.some.injEq] at hx
        subst hx
        exact (hev ev hev').2
    · obtain ⟨c, hc', hh⟩ := forall₂_mem_right h5 ha
      rw [(address_ok hh).1] at hx
      exact hc c hc' x hx
  have hfor : ∀ tg l, ∀ c ∈ sharesFor tg l (between.flatten ++ addressed), ∀ x, c.var = some x → P x := by
    intro tg l c hc' x hx
    obtain ⟨a, ha, hh⟩ := List.mem_filterMap.1 hc'
    split at hh
    · cases hh; exact hall a ha x hx
    · cases hh
  constructor
  · rw [ht, refs_node]
    refine ⟨by simp, ?_⟩
    intro s hs
    rcases List.mem_append.1 hs with hs | hs
    · obtain ⟨ev, hev', hh⟩ := forall₂_mem_right h6 hs
      have hvt := hv2 s (List.mem_append_left _ hs)
      have he := hev ev hev'
      unfold effectTree at hh
      peel hh with i, hi
      peel hh with op, hop
      peel hh with a, ha
      simp only [except_pure, Except.ok.injEq] at hh
      subst hh
      rw [vars_node] at hvt
      rw [refs_node]
      refine ⟨by simp, ?_⟩
      simp only [List.mem_cons, List.not_mem_nil, or_false, forall_eq_or_imp, forall_eq]
      refine ⟨(samTree_refs hi (hvt.2 _ (by simp)) (hfor _ _)).1, (samTree_refs hop (hvt.2 _ (by simp)) (hfor _ _)).1,
        (samTree_refs ha (hvt.2 _ (by simp)) ?_).1⟩
      simp only [List.mem_cons, List.not_mem_nil, or_false, forall_eq_or_imp, forall_eq, Option.some.injEq]
      exact ⟨by rintro _ rfl; exact he.1.1, by rintro _ rfl; exact he.2⟩
    · simp at hs
      subst hs
      exact (samTree_refs h7 (hv2 _ (by simp)) (hfor _ _)).1
  · unfold objectiveOps at h4
    split at h4
    · rename_i ob hob
      simp only [Except.ok.injEq] at h4
      rw [← h4]
      have := hev ob (List.mem_of_find?_eq_some hob)
      simp [this.1.1, this.2, hpt.1]
    · cases h4

end Flix
