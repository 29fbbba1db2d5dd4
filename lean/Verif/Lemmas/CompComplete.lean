import Verif.Lemmas.FlowComplete
import Verif.Lemmas.Prevent
import Verif.Props.Account
import Verif.Props.FlowInvest

/-! # Every admissible plan of a component extends to a solution of the component's model -/

namespace Flix

/-- Values for the variables of different models can be put together. -/
theorem glue_pairs {l : List (MTree × Assignment)} (hn : (l.flatMap fun p => p.1.labels).Nodup) (σ : Assignment) :
    ∃ τ : Assignment, (∀ p ∈ l, ∀ s ∈ p.1.labels, τ s = p.2 s) ∧ ∀ s, (∀ p ∈ l, s ∉ p.1.labels) → τ s = σ s := by
  induction l with
  | nil => exact ⟨σ, by simp, fun _ _ => rfl⟩
  | cons p l ih =>
    rw [List.flatMap_cons, List.nodup_append] at hn
    obtain ⟨τ, h1, h2⟩ := ih hn.2.1
    refine ⟨fun s => if s ∈ p.1.labels then p.2 s else τ s, ?_, ?_⟩
    · intro u hu s hs
      rcases List.mem_cons.1 hu with rfl | hu
      · simp [hs]
      · have : s ∉ p.1.labels := fun hc => hn.2.2 _ hc s (List.mem_flatMap.2 ⟨u, hu, hs⟩) rfl
        simp only [this, if_false]
        exact h1 u hu s hs
    · intro s hs
      simp only [hs p (by simp), if_false]
      exact h2 s fun q hq => hs q (by simp [hq])

/-- Nobody but the flow itself is named after the rate of a flow. -/
theorem rate_not_oo (c f : String) : rateL c f ∉ ooLabels c := by
  intro h
  obtain ⟨s, hs, he⟩ := List.mem_map.1 h
  have e := congrArg (fun z : String => z.toList.getLast?) he
  have hr : (rateL c f).toList.getLast? = some 'e' := by
    unfold rateL
    rw [String.toList_append, List.getLast?_append]
    rfl
  simp only [hr, String.toList_append] at e
  simp only [ooNames, List.mem_cons, List.not_mem_nil, or_false] at hs
  rcases hs with rfl | rfl | rfl | rfl | rfl | rfl | rfl | rfl <;> simp at e

theorem onRel_of {n : Nat} {eps : ℚ} {σ : Assignment} {on : Var} {ds : List (Var × Num × Num)} (heps : 0 < eps)
    (h : ∀ t < n, (σ on.label t = 0 ∧ ∀ d ∈ ds, σ d.1.label t = 0) ∨
      (σ on.label t = 1 ∧ eps ≤ (ds.map fun d => σ d.1.label t).sum ∧ ∀ d ∈ ds, σ d.1.label t ≤ d.2.2.at t ∧ (σ d.1.label t = 0 ∨ d.2.1.at t ≤ σ d.1.label t))) :
    OnRel n eps σ on ds := by
  have zero : ∀ t, (∀ d ∈ ds, σ d.1.label t = 0) → (ds.map fun d => σ d.1.label t).sum = 0 := by
    intro t h0
    refine List.sum_eq_zero fun x hx => ?_
    obtain ⟨d, hd, rfl⟩ := List.mem_map.1 hx
    exact h0 d hd
  have upper : ∀ t, (∀ d ∈ ds, σ d.1.label t ≤ d.2.2.at t) → (ds.map fun d => σ d.1.label t).sum ≤ (ds.map fun d => d.2.2.at t).sum := by
    intro t h0
    exact List.sum_le_sum h0
  have many : ∀ t < n, eps * σ on.label t ≤ (ds.map fun d => σ d.1.label t).sum ∧
      (ds.map fun d => σ d.1.label t).sum ≤ (ds.map fun d => d.2.2.at t).sum * σ on.label t := by
    intro t ht
    rcases h t ht with ⟨h1, h2⟩ | ⟨h1, h2, h3⟩
    · rw [zero t h2, h1]; simp
    · rw [h1, mul_one, mul_one]; exact ⟨h2, upper t fun d hd => (h3 d hd).1⟩
  unfold OnRel
  split
  · rename_i x lb ub
    intro t ht
    rcases h t ht with ⟨h1, h2⟩ | ⟨h1, h2, h3⟩
    · have := h2 _ (List.mem_singleton.2 rfl)
      simp only at this
      rw [this, h1]; simp
    · obtain ⟨u1, u2⟩ := h3 _ (List.mem_singleton.2 rfl)
      simp only [List.map_cons, List.map_nil, List.sum_cons, List.sum_nil, add_zero] at h2 u1 u2
      rw [h1, mul_one, mul_one]
      refine ⟨max_le h2 ?_, u1⟩
      rcases u2 with u2 | u2
      · rw [u2] at h2; linarith
      · exact u2
  · exact many

/-- A flow as it is modelled: components with a state of their own and flows that exclude each other need the state of the flow. -/
def CompData.declared (c : CompData) (f : FlowData) : FlowData :=
  { f with onOff := f.onOff <|> if c.onOff.isSome ∨ f.label ∈ c.prevent then some {} else none }

theorem declared_eq (c : CompData) (f : FlowData) : fillOnOff c f = c.declared f := by
  unfold fillOnOff CompData.declared
  cases ho : f.onOff with
  | some q =>
    rw [if_neg (by simp [ho])]
    cases f
    simp only at ho
    subst ho
    rfl
  | none =>
    by_cases hc : c.onOff.isSome = true ∨ f.label ∈ c.prevent
    · rw [if_pos (by simpa using hc), if_pos hc]; rfl
    · rw [if_neg (by simpa using hc), if_neg hc]
      cases f
      simp only at ho
      subst ho
      rfl

/-- A plan for a component: for each flow (by label) and the state of the component. -/
structure CompPlan where
  flow : String → FlowPlan
  on : Nat → ℚ

/-- The plan respects everything declared for the component and its flows. -/
structure CompPlan.Ok (sys : Sys) (c : CompData) (p : CompPlan) : Prop where
  flows : ∀ f ∈ c.inputs ++ c.outputs, (p.flow f.label).Ok sys (c.declared f)
  onOff : ∀ q, c.onOff = some q → q.Fits sys.n ∧ q.NonnegLimits sys.n ∧
    ∃ hist last, prevOnOfList sys.cfg.eps ((c.inputs ++ c.outputs).filterMap (·.previousFlowRate)) = .ok hist ∧ hist.getLast? = some last ∧
      ScheduleOk sys q hist last p.on
  state : c.onOff ≠ none → ∀ t < sys.n, (p.on t = 0 ∧ ∀ f ∈ c.inputs ++ c.outputs, (p.flow f.label).r t = 0) ∨
    (p.on t = 1 ∧ sys.cfg.eps ≤ ((c.inputs ++ c.outputs).map fun f => (p.flow f.label).r t).sum)
  caps : c.onOff ≠ none → ∀ f ∈ c.inputs ++ c.outputs, ∀ t < sys.n, 0 ≤ (f.absBounds sys.cfg).2.at t
  exclusive : ∀ t < sys.n, c.prevent.Pairwise fun a b => (p.flow a).r t = 0 ∨ (p.flow b).r t = 0

/-- The label of the state of an element. -/
def stateL (el : String) : String := el ++ "__OnOff" ++ "_" ++ "on"

/-- Values take over a plan. -/
structure CompPlan.Realized (c : CompData) (p : CompPlan) (τ : Assignment) : Prop where
  rate : ∀ f ∈ c.inputs ++ c.outputs, τ (rateL c.label f.label) = (p.flow f.label).r
  size : ∀ f ∈ c.inputs ++ c.outputs, ∀ q, f.size = .invest q → τ (sizeL (flowFull c.label f.label)) 0 = (p.flow f.label).s
  flowOn : ∀ f ∈ c.inputs ++ c.outputs, (c.declared f).onOff ≠ none → τ (stateL (flowFull c.label f.label)) = (p.flow f.label).b
  on : c.onOff ≠ none → τ (stateL c.label) = p.on
  built : ∀ f ∈ c.inputs ++ c.outputs, ∀ q, f.size = .invest q → q.optional = true → τ (investedL (flowFull c.label f.label)) 0 = (p.flow f.label).d
  shares : ∀ f ∈ c.inputs ++ c.outputs, ∀ q, f.size = .invest q → ∀ e ∈ q.segEffects, τ (segShareL (flowFull c.label f.label) e) 0 = (p.flow f.label).val e

/-- The decision and the effects in segments are variables of the investment model. -/
theorem invest_decision_labels {cfg : Cfg} {el : String} {q : InvestParams} {x : Var} {relMin relMax : Num} {profile : Option Num}
    {on : Option Var} {o : InvestOut} (h : investModel cfg el q x relMin relMax profile on = .ok o) :
    (q.optional = true → ∃ i, o.isInvested = some i ∧ i.label = investedL el ∧ o.tree.HasVar i) ∧
      ∀ e ∈ q.segEffects, o.tree.HasVar (segShareVar el e) := by
  obtain ⟨s1, s2, s3, s4, _, hi, hv, _, _, _, _, hseg, _⟩ := invest_inv h
  refine ⟨fun hq => ?_, fun e he => ?_⟩
  · unfold investedVar at hi
    rw [if_pos hq] at hi
    obtain ⟨i, h1, h2⟩ := map_ok.1 hi
    exact ⟨i, h2.symm, by rw [(mkVar_ok h1).1]; rfl, o.tree, .refl _, by simp [InvestOut.tree, MTree.vars, hv, ← h2]⟩
  · rcases invest_segments_inv hseg with ⟨h0, _⟩ | ⟨xs, es, o', h0, h1, h2, _⟩
    · simp [InvestParams.segEffects, h0] at he
    · simp only [InvestParams.segEffects, h0] at he
      obtain ⟨e', he', rfl⟩ := List.mem_map.1 he
      obtain ⟨_, segs, _, ht, _⟩ := segmentedShares_inv h1
      refine ⟨o'.tree, .sub (s := o'.tree) ?_ (.refl _), ?_⟩
      · rw [h2]; simp
      · rw [ht]
        exact List.mem_map.2 ⟨e', he', rfl⟩

theorem flow_has_sub {sys : Sys} {el : String} {f : FlowData} {o : FlowOut} (h : flowModel sys el f = .ok o) {i : InvestOut}
    (hi : o.invest = some i) {x : Var} (hx : i.tree.HasVar x) : o.tree.HasVar x := by
  obtain ⟨m, hm, hxm⟩ := hx
  refine ⟨m, ?_, hxm⟩
  rw [(flow_inv h).2.2.2.2.1, hi]
  exact .sub (by simp) hm

theorem comp_complete {sys : Sys} (hv : sys.Valid) {c : CompData} {o : CompOut} (hfit : ∀ f ∈ c.inputs ++ c.outputs, f.Fits sys.n)
    (h : compModel sys c = .ok o) (hpd : sys.prevDt.Nonneg) (hnd : o.tree.labels.Nodup) {p : CompPlan} (hp : p.Ok sys c) (σ : Assignment) :
    ∃ τ : Assignment, o.tree.Solves τ ∧ p.Realized c τ ∧ ∀ l ∉ o.tree.labels, τ l = σ l := by
  obtain ⟨r1, r2, hon, prev, hprev, e1, e2, e3, _⟩ := comp_inv h
  have hall := List.rel_append r1 r2
  change List.Forall₂ _ (c.inputs ++ c.outputs) o.flows at hall
  -- labels
  have hlab : o.tree.labels = (o.flows.map (·.2.tree)).flatMap MTree.labels ++ ((o.on.map OnOffOut.tree).toList.flatMap MTree.labels ++ prev.flatMap MTree.labels) := by
    rw [CompOut.tree, labels_node, e1, e3]
    simp [List.flatMap_append]
  rw [hlab, List.nodup_append] at hnd
  -- each flow alone
  have each : ∀ q ∈ o.flows, ∃ τ : Assignment, ∃ f ∈ c.inputs ++ c.outputs, q.1 = c.declared f ∧ flowModel sys (flowFull c.label f.label) (c.declared f) = .ok q.2 ∧
      q.2.tree.Solves τ ∧ τ q.2.flowRate.label = (p.flow f.label).r ∧
      (∀ i, q.2.invest = some i → τ i.size.label 0 = (p.flow f.label).s ∧ ∀ iv, i.isInvested = some iv → τ iv.label 0 = (p.flow f.label).d) ∧
      (∀ oo, q.2.onOff = some oo → τ oo.on.label = (p.flow f.label).b) ∧
      ∀ r, f.size = .invest r → ∀ e ∈ r.segEffects, τ (segShareL (flowFull c.label f.label) e) 0 = (p.flow f.label).val e := by
    intro q hq
    obtain ⟨f, hf, h1, h2⟩ := forall₂_mem_right hall hq
    rw [declared_eq] at h1 h2
    obtain ⟨τ, t1, t2, _, t3, t4, t5⟩ := flow_complete hv (declared_eq c f ▸ fillOnOff_fits (hfit f hf)) h2 hpd (hp.flows f hf) σ
    exact ⟨τ, f, hf, h1, h2, t1, t2, t3, t4, t5⟩
  choose! ρ hρ using each
  obtain ⟨τ1, g1, g2⟩ := glue_pairs (l := o.flows.map fun q => (q.2.tree, ρ q)) (by rw [List.flatMap_map] at hnd ⊢; exact hnd.1) σ
  have hrefs : ∀ q ∈ o.flows, q.2.tree.Refs q.2.tree.HasVar := by
    intro q hq
    obtain ⟨f, _, _, h2, _⟩ := hρ q hq
    exact (flow_refs h2 (vars_hasVar _)).1
  have hsame : ∀ q ∈ o.flows, ∀ x, q.2.tree.HasVar x → τ1 x.label = ρ q x.label := fun q hq x hx =>
    g1 _ (List.mem_map_of_mem hq) _ (hasVar_labels hx)
  have hflow : ∀ q ∈ o.flows, q.2.tree.Solves τ1 := by
    intro q hq
    obtain ⟨f, hf, _, h2, h3, _⟩ := hρ q hq
    exact solves_congr (vars_hasVar _) (hrefs q hq) (fun x hx => (hsame q hq x hx).symm) h3
  have hout1 : ∀ l ∉ o.tree.labels, τ1 l = σ l := by
    intro l hl
    refine g2 l fun u hu => ?_
    obtain ⟨q, hq, rfl⟩ := List.mem_map.1 hu
    exact fun hm => hl (by rw [hlab]; exact List.mem_append_left _ (List.mem_flatMap.2 ⟨_, List.mem_map_of_mem hq, hm⟩))
  have hrateVar : ∀ q ∈ o.flows, q.2.tree.HasVar q.2.flowRate := by
    intro q hq
    obtain ⟨f, _, _, h2, _⟩ := hρ q hq
    refine ⟨q.2.tree, (within_nodes _ _).1 ?_, ?_⟩ <;> rw [(flow_inv h2).2.2.2.2.1] <;> simp [MTree.nodes, MTree.vars]
  -- the values of a flow
  have hvals : ∀ τ : Assignment, (∀ q ∈ o.flows, ∀ x, q.2.tree.HasVar x → τ x.label = τ1 x.label) → ∀ f ∈ c.inputs ++ c.outputs,
      τ (rateL c.label f.label) = (p.flow f.label).r ∧ (∀ r, f.size = .invest r → τ (sizeL (flowFull c.label f.label)) 0 = (p.flow f.label).s) ∧
      ((c.declared f).onOff ≠ none → τ (stateL (flowFull c.label f.label)) = (p.flow f.label).b) ∧
      (∀ r, f.size = .invest r → (r.optional = true → τ (investedL (flowFull c.label f.label)) 0 = (p.flow f.label).d) ∧
        ∀ e ∈ r.segEffects, τ (segShareL (flowFull c.label f.label) e) 0 = (p.flow f.label).val e) := by
    intro τ hτ f hf
    obtain ⟨q, hq, k1, k2⟩ := forall₂_mem_left hall hf
    rw [declared_eq] at k1 k2
    obtain ⟨f', hf', h1, h2, _, h4, h5, h6, h7⟩ := hρ q hq
    have hl : f'.label = f.label := by
      have := congrArg FlowData.label (h1.symm.trans k1)
      simpa [CompData.declared] using this
    have hown : ∀ x, q.2.tree.HasVar x → τ x.label = ρ q x.label := fun x hx => (hτ q hq x hx).trans (hsame q hq x hx)
    obtain ⟨w1, w2, w3, _, w5, _⟩ := flow_inv k2
    obtain ⟨_, _, v1, v2, v3⟩ := flow_refs k2 (vars_hasVar q.2.tree)
    refine ⟨?_, ?_, ?_, ?_⟩
    · have := hown _ v1
      rw [h4, (flowRate_ok w1).1, hl] at this
      exact this
    · intro r hr
      obtain ⟨i, hi, him⟩ := flow_has_invest k2 (q := r) hr
      obtain ⟨_, _, _, _, hs, _⟩ := invest_inv him
      have hil : i.size.label = sizeL (flowFull c.label f.label) := (sizeVar_iff hs).1
      have := (h5 i hi).1
      rw [← hown i.size (v3 i hi), hil, hl] at this
      exact this
    · intro ho
      cases hoo : q.2.onOff with
      | none => rw [hoo] at w2; exact absurd (flowOnOff_none w2) ho
      | some oo =>
        have := h6 oo hoo
        rw [hoo] at w2
        obtain ⟨qq, _, hm⟩ := flowOnOff_some w2
        have hll : oo.on.label = stateL (flowFull c.label f.label) := (onOff_on_length hm).2.1
        rw [← hown oo.on (v2 oo hoo), hll, hl] at this
        exact this
    · intro r hr
      obtain ⟨i, hi, him⟩ := flow_has_invest k2 (q := r) hr
      obtain ⟨l1, l2⟩ := invest_decision_labels him
      refine ⟨fun hopt => ?_, fun e he => ?_⟩
      · obtain ⟨iv, j1, j2, j3⟩ := l1 hopt
        have := (h5 i hi).2 iv j1
        rw [← hown iv (flow_has_sub k2 hi j3), j2, hl] at this
        exact this
      · have hr' : f'.size = .invest r := by
          have := congrArg FlowData.size (h1.symm.trans k1)
          simp only [CompData.declared] at this
          rw [this, hr]
        have := h7 r hr' e he
        rw [hl] at this
        rw [← this]
        exact congrFun (hown (segShareVar (flowFull c.label f.label) e) (flow_has_sub k2 hi (l2 e he))) 0
  -- the state of the component
  have hstate : ∃ τ : Assignment, (∀ q ∈ o.flows, ∀ x, q.2.tree.HasVar x → τ x.label = τ1 x.label) ∧ (∀ oo, o.on = some oo → oo.tree.Solves τ) ∧
      (c.onOff ≠ none → τ (stateL c.label) = p.on) ∧ ∀ l ∉ o.tree.labels, τ l = σ l := by
    unfold compOnOff at hon
    cases hq : c.onOff with
    | none =>
      rw [hq] at hon
      simp only [Except.ok.injEq] at hon
      exact ⟨τ1, fun _ _ _ _ => rfl, by simp [← hon], by simp, hout1⟩
    | some q =>
      rw [hq] at hon
      simp only at hon
      obtain ⟨oo, hoo, hoe⟩ := map_ok.1 hon
      obtain ⟨hqf, hnn, hist, last, hh, hlast, hsch⟩ := hp.onOff q hq
      have hds : ∀ d ∈ o.flows.map (fun q => (q.2.flowRate, q.1.absBounds sys.cfg)), d.1.length = sys.n ∧ d.2.1.Fits sys.n ∧ d.2.2.Fits sys.n := by
        intro d hd
        obtain ⟨u, hu, rfl⟩ := List.mem_map.1 hd
        obtain ⟨f, hf, h1, h2, _⟩ := hρ u hu
        obtain ⟨_, hlen, _⟩ := flowRate_ok (flow_inv h2).1
        refine ⟨hlen, ?_⟩
        rw [h1]
        exact (declared_eq c f ▸ fillOnOff_fits (hfit f hf) : (c.declared f).Fits sys.n).absBounds sys.cfg
      obtain ⟨h2n, _⟩ := onOff_iff hv hqf hds hoo
      have hprevs : previousOnValues sys.cfg.eps ((o.flows.map fun q => (q.2.flowRate, q.1.absBounds sys.cfg)).map (·.1)) = .ok hist := by
        unfold previousOnValues
        rw [previous_map (by
          intro d hd
          obtain ⟨d', hd', rfl⟩ := List.mem_map.1 hd
          rw [(hds d' hd').1]; omega), ok_bind, ← hh]
        congr 1
        have : (o.flows.map fun q => q.2.flowRate.previous) = (c.inputs ++ c.outputs).map (·.previousFlowRate) := by
          have hall' := hall
          generalize c.inputs ++ c.outputs = fs at hall'
          generalize o.flows = qs at hall'
          clear * - hall' h2n
          induction hall' with
          | nil => rfl
          | cons hd _ ih =>
            rename_i f q fs qs _
            rw [List.map_cons, List.map_cons, ih, (flowRate_ok (flow_inv hd.2).1).2.2.2.2.1, if_pos (by omega), declared_eq]
            rfl
        rw [List.map_map, List.map_map, show (((fun x : Var => x.previous) ∘ (fun x : Var × Num × Num => x.1)) ∘ fun q : FlowData × FlowOut => (q.2.flowRate, q.1.absBounds sys.cfg)) = fun q => q.2.flowRate.previous from rfl,
          this, List.filterMap_map]
        rfl
      have hdis : ∀ d ∈ o.flows.map (fun q => (q.2.flowRate, q.1.absBounds sys.cfg)), d.1.label ∉ ooLabels c.label := by
        intro d hd
        obtain ⟨u, hu, rfl⟩ := List.mem_map.1 hd
        obtain ⟨f, hf, h1, h2, _⟩ := hρ u hu
        rw [(flowRate_ok (flow_inv h2).1).1]
        exact rate_not_oo _ _
      have honl : oo.on.label = stateL c.label := (onOff_on_length hoo).2.1
      have hset : ∀ d ∈ o.flows.map (fun q => (q.2.flowRate, q.1.absBounds sys.cfg)), (τ1.set oo.on.label p.on) d.1.label = τ1 d.1.label := by
        intro d hd
        funext t
        refine set_other _ _ _ fun he => hdis d hd ?_
        rw [he, (onOff_on_length hoo).2.1]
        simp [ooLabels, ooNames]
      have hrates : (o.flows.map (fun q => (q.2.flowRate, q.1.absBounds sys.cfg))).map (fun d => τ1 d.1.label) = (c.inputs ++ c.outputs).map fun f => (p.flow f.label).r := by
        rw [List.map_map]
        have hv1 := hvals τ1 (fun _ _ _ _ => rfl)
        have hall' := hall
        generalize c.inputs ++ c.outputs = fs at hall' hv1
        generalize o.flows = qs at hall'
        clear * - hall' hv1
        induction hall' with
        | nil => rfl
        | cons hd _ ih =>
          rename_i f q fs qs _
          rw [List.map_cons, List.map_cons, ih fun f hf => hv1 f (by simp [hf])]
          congr 1
          have := (hv1 f (by simp)).1
          simp only [Function.comp, (flowRate_ok (flow_inv hd.2).1).1]
          exact this
      obtain ⟨τ2, t1, t2, t3⟩ := onOff_complete hv hqf hds hoo hpd hnn hprevs hlast hsch (σ := τ1) hdis (onRel_of hv.heps (by
        intro t ht
        have hon1 : (τ1.set oo.on.label p.on) oo.on.label t = p.on t := set_same ..
        have hsum : ((o.flows.map (fun q => (q.2.flowRate, q.1.absBounds sys.cfg))).map fun d => (τ1.set oo.on.label p.on) d.1.label t).sum =
            ((c.inputs ++ c.outputs).map fun f => (p.flow f.label).r t).sum := by
          have := congrArg (List.map fun r : Nat → ℚ => r t) hrates
          rw [List.map_map (l := List.map _ o.flows), List.map_map (l := c.inputs ++ c.outputs)] at this
          rw [List.map_congr_left fun d hd => congrFun (hset d hd) t]
          exact congrArg List.sum this
        rw [hon1, hsum]
        have hd1 : ∀ d ∈ o.flows.map (fun q => (q.2.flowRate, q.1.absBounds sys.cfg)), ∃ f ∈ c.inputs ++ c.outputs, d.2 = f.absBounds sys.cfg ∧
            (τ1.set oo.on.label p.on) d.1.label t = (p.flow f.label).r t := by
          intro d hd
          rw [hset d hd]
          obtain ⟨u, hu, rfl⟩ := List.mem_map.1 hd
          obtain ⟨f, hf, h1, h2, _⟩ := hρ u hu
          refine ⟨f, hf, by rw [h1]; rw [← declared_eq, fillOnOff_absBounds], ?_⟩
          have := (hvals τ1 (fun _ _ _ _ => rfl) f hf).1
          simp only [(flowRate_ok (flow_inv h2).1).1]
          exact congrFun this t
        have hne : c.onOff ≠ none := by rw [hq]; simp
        rcases hp.state hne t ht with ⟨s1, s2⟩ | ⟨s1, s2⟩
        · refine .inl ⟨s1, fun d hd => ?_⟩
          obtain ⟨f, hf, _, e⟩ := hd1 d hd
          rw [e, s2 f hf]
        · refine .inr ⟨s1, s2, fun d hd => ?_⟩
          obtain ⟨f, hf, e', e⟩ := hd1 d hd
          rw [e, e']
          have hfo : (c.declared f).onOff ≠ none := by
            rw [← declared_eq]
            obtain ⟨q', hq'⟩ := fillOnOff_onOff c f (.inl hne)
            rw [hq']; simp
          obtain ⟨a1, a2, a3⟩ := (hp.flows f hf).onRel hfo t ht
          rw [show (c.declared f).absBounds sys.cfg = f.absBounds sys.cfg by rw [← declared_eq, fillOnOff_absBounds]] at a2 a3
          obtain ⟨q', hq'⟩ := Option.ne_none_iff_exists'.1 hfo
          obtain ⟨_, _, _, hs'⟩ := (hp.flows f hf).onOff q' hq'
          have hcap := hp.caps hne f hf t ht
          rcases hs'.bin t ht with b | b <;> rw [b] at a2 a3
          · simp only [mul_zero] at a2 a3
            exact ⟨by linarith, .inl (le_antisymm a3 a1)⟩
          · simp only [mul_one] at a2 a3
            exact ⟨a3, .inr (le_trans (le_max_right _ _) a2)⟩))
      have hsubt : ∀ l ∈ oo.tree.labels, l ∈ ((o.on.map OnOffOut.tree).toList.flatMap MTree.labels ++ prev.flatMap MTree.labels) := by
        intro l hl
        rw [← hoe]
        simp [hl]
      have hfl : ∀ q ∈ o.flows, ∀ x, q.2.tree.HasVar x → x.label ∉ oo.tree.labels := by
        intro q hq x hx hm
        exact hnd.2.2 _ (List.mem_flatMap.2 ⟨_, List.mem_map_of_mem hq, hasVar_labels hx⟩) _ (hsubt _ hm) rfl
      refine ⟨fun l => if l ∈ oo.tree.labels then τ2 l else τ1 l, ?_, ?_, ?_, ?_⟩
      · intro q hq x hx
        simp [hfl q hq x hx]
      · intro oo' hoo'
        rw [← hoe] at hoo'
        cases hoo'
        have hr := onOffTree_refs (P := fun x => oo.tree.HasVar x ∨ ∃ q ∈ o.flows, x = q.2.flowRate) hoo (fun m hm x hx => .inl (vars_hasVar _ m hm x hx))
          (fun d hd => by obtain ⟨q, hq, rfl⟩ := List.mem_map.1 hd; exact .inr ⟨q, hq, rfl⟩)
        refine solves_congr (fun m hm x hx => .inl (vars_hasVar _ m hm x hx)) hr.1 ?_ t3
        rintro x (hx | ⟨q, hq, rfl⟩)
        · simp [hasVar_labels hx]
        · simp only [hfl q hq _ (hrateVar q hq), if_false]
          exact t1 _ (hdis _ (List.mem_map_of_mem hq))
      · intro _
        have hv2 := (onOffTree_refs (P := fun x => oo.tree.HasVar x ∨ ∃ q ∈ o.flows, x = q.2.flowRate) hoo (fun m hm x hx => .inl (vars_hasVar _ m hm x hx))
          (fun d hd => by obtain ⟨q, hq, rfl⟩ := List.mem_map.1 hd; exact .inr ⟨q, hq, rfl⟩)).2.2
        have hm : stateL c.label ∈ oo.tree.labels := by
          rw [← honl]
          rcases hv2 with hv2 | ⟨q, hq, hv2⟩
          · exact hasVar_labels hv2
          · refine absurd ?_ (hdis _ (List.mem_map_of_mem hq))
            simp only [← hv2, (onOff_on_length hoo).2.1]
            simp [ooLabels, ooNames]
        simp only [hm, if_true]
        rw [← honl]
        exact t2
      · intro l hl
        have : l ∉ oo.tree.labels := fun hm => hl (by rw [hlab]; exact List.mem_append_right _ (hsubt _ hm))
        simp only [this, if_false]
        exact hout1 l hl
  obtain ⟨τ, c1, c2, c3, c4⟩ := hstate
  have hv' := hvals τ c1
  refine ⟨τ, ?_, ⟨fun f hf => (hv' f hf).1, fun f hf => (hv' f hf).2.1, fun f hf => (hv' f hf).2.2.1, c3,
    fun f hf q hq => ((hv' f hf).2.2.2 q hq).1, fun f hf q hq => ((hv' f hf).2.2.2 q hq).2⟩, c4⟩
  have hfl' : ∀ q ∈ o.flows, q.2.tree.Solves τ := fun q hq =>
    solves_congr (vars_hasVar _) (hrefs q hq) (fun x hx => (c1 q hq x hx).symm) (hflow q hq)
  by_cases hpe : c.prevent = []
  · refine (comp_solves h τ).1 ⟨hfl', c2, prev, hprev, ?_⟩
    unfold compPrevent at hprev
    rw [hpe] at hprev
    simp only [List.isEmpty_nil, if_true, Except.ok.injEq] at hprev
    rw [← hprev]
    trivial
  · refine (comp_prevent hv hfit h hpe τ).2 ⟨hfl', c2, fun t ht => ?_⟩
    have hx := hp.exclusive t ht
    have hmem : ∀ a ∈ c.prevent, ∃ f ∈ c.inputs ++ c.outputs, f.label = a := by
      intro a ha
      unfold compPrevent at hprev
      rw [if_neg (by simpa using hpe)] at hprev
      peel hprev with ons, ho
      obtain ⟨x, _, hx⟩ := forall₂_mem_left (mapM_ok.1 ho) ha
      unfold onOf at hx
      split at hx
      · rename_i q hq
        obtain ⟨f, hf, hf', _⟩ := hρ q (List.mem_of_find?_eq_some hq)
        have := List.find?_some hq
        rw [hf'] at this
        exact ⟨f, hf, by simpa [CompData.declared] using this⟩
      · cases hx
    refine hx.imp_of_mem fun {a b} ha hb hab => ?_
    obtain ⟨f, hf, rfl⟩ := hmem a ha
    obtain ⟨g, hg, rfl⟩ := hmem b hb
    rw [(hv' f hf).1, (hv' g hg).1]
    exact hab

end Flix
