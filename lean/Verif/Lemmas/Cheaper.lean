import Verif.Lemmas.LooserPhysical
import Verif.Lemmas.Signs

/-! # Lower prices lower all contributions -/

namespace Flix

variable {sys : Sys} {σ : Assignment}

theorem effVal_cheaper {n : Nat} {es es' : List EffectData} (h : List.Forall₂ (EffectData.Looser n) es es') {d d' : EffDict} (hd : LowerPrices n d d') (l : String) {t : Nat} (ht : t < n) :
    effVal es' d' l t ≤ effVal es d l t := by
  unfold effVal
  simp only [names_looser h]
  induction hd with
  | nil => exact le_rfl
  | cons a _ ih =>
    rw [List.filter_cons, List.filter_cons, a.1]
    split
    · rw [List.map_cons, List.map_cons, List.sum_cons, List.sum_cons]
      exact add_le_add (a.2 t ht) ih
    · exact ih

theorem onOffOperation_cheaper {n : Nat} {es es' : List EffectData} (h : List.Forall₂ (EffectData.Looser n) es es') {q q' : Option OnOffParams} (hq : LooserStates n q q')
    (hp : ∀ r r', q = some r → q' = some r' → r.Priced (LowerPrices n) r') {dt : Nat → ℚ} (el l : String) {t : Nat} (ht : t < n) (hdt : 0 ≤ dt t)
    (hs : q ≠ none → ∀ t < n, 0 ≤ σ (el ++ "__OnOff" ++ "_" ++ "switchOn") t ∧ 0 ≤ σ (el ++ "__OnOff" ++ "_" ++ "on") t) : onOffOperation dt σ es' el q' l t ≤ onOffOperation dt σ es el q l t := by
  rcases hq.split with ⟨e1, e2⟩ | ⟨r, r', e1, e2, _⟩
  · rw [e1, e2]; exact le_rfl
  · have p := hp r r' e1 e2
    obtain ⟨s1, s2⟩ := hs (by rw [e1]; simp) t ht
    rw [e1, e2]
    simp only [onOffOperation]
    exact add_le_add (mul_le_mul_of_nonneg_right (effVal_cheaper h p.starts l ht) s1) (mul_le_mul_of_nonneg_right (mul_le_mul_of_nonneg_right (effVal_cheaper h p.hours l ht) hdt) s2)

theorem investCost_cheaper {n : Nat} {big : ℚ} {es es' : List EffectData} (h : List.Forall₂ (EffectData.Looser n) es es') {q q' : InvestParams} (hq : q.Looser big q')
    (hp : q.Priced (LowerPrices n) q') (hn : 0 < n) (el l : String) (hs : 0 ≤ σ (el ++ "__" ++ "Investment" ++ "_" ++ "size") 0 ∧ 0 ≤ decision σ el q ∧ decision σ el q ≤ 1) :
    investCost σ es' el q' l ≤ investCost σ es el q l := by
  have ed : decision σ el q' = decision σ el q := by unfold decision; rw [hq.optional]
  have eg : segmentedCost σ el q' l = segmentedCost σ el q l := by unfold segmentedCost; rw [hq.segments]
  unfold investCost
  rw [ed, eg]
  refine add_le_add (add_le_add (add_le_add ?_ ?_) ?_) le_rfl
  · exact mul_le_mul_of_nonneg_right (effVal_cheaper h hp.fix l hn) hs.2.1
  · exact mul_le_mul_of_nonneg_right (effVal_cheaper h hp.divest l hn) (by linarith [hs.2.2])
  · exact mul_le_mul_of_nonneg_right (effVal_cheaper h hp.specific l hn) hs.1

theorem flow_cheaper {n : Nat} {big : ℚ} {es es' : List EffectData} (h : List.Forall₂ (EffectData.Looser n) es es') {f f' : FlowData} (hf : f.Looser big n f') (hp : f.Priced (LowerPrices n) f')
    (hn : 0 < n) {dt : Nat → ℚ} (hdt : ∀ t < n, 0 ≤ dt t) (c l : String) (hs : FlowSigns n σ c f) :
    (∀ t < n, flowOperation dt σ es' c f' l t ≤ flowOperation dt σ es c f l t) ∧ flowInvestment σ es' c f' l ≤ flowInvestment σ es c f l := by
  refine ⟨fun t ht => ?_, ?_⟩
  · unfold flowOperation
    rw [hf.label]
    exact add_le_add (mul_le_mul_of_nonneg_right (mul_le_mul_of_nonneg_right (effVal_cheaper h hp.effects l ht) (hdt t ht)) (hs.rate t ht))
      (onOffOperation_cheaper h hf.states hp.states _ l ht (hdt t ht) hs.states)
  · rcases hf.size with ⟨S, S', e1, e2, _⟩ | ⟨q, q', e1, e2, e3⟩
    · have z : ∀ (es : List EffectData) (g : FlowData) (X : ℚ), g.size.given big = some X → flowInvestment σ es c g l = 0 := by
        intro es g X hg
        unfold flowInvestment
        cases hs : g.size with
        | invest q => rw [hs] at hg; cases hg
        | unset => rfl
        | num x => rfl
      rw [z es' f' S' e2, z es f S e1]
    · unfold flowInvestment
      rw [e1, e2, hf.label]
      exact investCost_cheaper h e3 (hp.size q q' e1 e2) hn _ _ (hs.size q e1)

theorem sum_cheaper {α : Type} {R : α → α → Prop} {l l' : List α} (h : List.Forall₂ R l l') {g g' : α → ℚ} (hg : ∀ a ∈ l, ∀ a', R a a' → g' a' ≤ g a) : (l'.map g').sum ≤ (l.map g).sum := by
  induction h with
  | nil => exact le_rfl
  | cons a _ ih =>
    rw [List.map_cons, List.map_cons, List.sum_cons, List.sum_cons]
    exact add_le_add (hg _ List.mem_cons_self _ a) (ih fun b hb => hg b (List.mem_cons_of_mem _ hb))

theorem comp_cheaper {n : Nat} {big : ℚ} {es es' : List EffectData} (h : List.Forall₂ (EffectData.Looser n) es es') {c c' : Comp} (hc : c.Looser big n c') (hp : c.Priced (LowerPrices n) c')
    (hn : 0 < n) {dt : Nat → ℚ} (hdt : ∀ t < n, 0 ≤ dt t) (l : String) (hs : CompSigns n σ c) :
    (∀ t < n, c'.operation dt σ es' l t ≤ c.operation dt σ es l t) ∧ c'.investment σ es' l ≤ c.investment σ es l := by
  obtain ⟨e1, e2, e3, e4⟩ := comp_shape hc
  have fl0 : List.Forall₂ (FlowData.Looser big n) c.flows c'.flows := List.rel_append e2 e3
  have fl := forall₂_both fl0 hp.flows
  unfold Comp.operation Comp.investment
  refine ⟨fun t ht => ?_, ?_⟩
  · rw [e1]
    exact add_le_add (sum_cheaper fl fun f hf f' k => (flow_cheaper h k.1 k.2 hn hdt _ l (hs.flows f hf)).1 t ht) (onOffOperation_cheaper h e4 hp.states _ l ht (hdt t ht) hs.states)
  · rw [e1]
    refine add_le_add (sum_cheaper fl fun f hf f' k => (flow_cheaper h k.1 k.2 hn hdt _ l (hs.flows f hf)).2) ?_
    cases c <;> cases c' <;> simp only [Comp.Looser] at hc
    · exact le_rfl
    · exact le_rfl
    · simp only [capacityInvestment]
      rcases hc.capacity with ⟨S, S', k1, k2, _⟩ | ⟨q, q', k1, k2, k3⟩
      · rw [k1, k2]
      · rw [k1, k2, hc.label]
        exact investCost_cheaper h k3 (hp.capacity _ _ q q' rfl rfl k1 k2) hn _ _ (hs.capacity _ q rfl k1)
    · exact le_rfl

theorem forall₂_mems {α β : Type} {R : α → β → Prop} {l : List α} {l' : List β} (h : List.Forall₂ R l l') : List.Forall₂ (fun a b => R a b ∧ b ∈ l') l l' := by
  induction h with
  | nil => exact .nil
  | cons a _ ih => exact .cons ⟨a, List.mem_cons_self⟩ (ih.imp fun _ _ h => ⟨h.1, List.mem_cons_of_mem _ h.2⟩)

/-- Lower prices and lower factors give lower totals. -/
theorem ranked_cheaper {n : Nat} {t : Nat} (ht : t < n) {es es' : List EffectData} (hl : List.Forall₂ (fun e e' : EffectData => e'.label = e.label) es es') {shares : EffectData → List (String × Num)}
    {rank : String → Nat} (hr : Ranked es' shares rank) {d d' x y : String → ℚ} (hd : ∀ e ∈ es, d' e.label ≤ d e.label)
    (hsh : List.Forall₂ (fun e e' => LowerShares n (shares e) (shares e') ∧ (shares e' = shares e ∨ 0 ≤ x e.label)) es es')
    (hx : ∀ e ∈ es, x e.label = d e.label + (es.map fun o => (((shares o).filter fun q => q.1 = e.label).map fun q => q.2.at t * x o.label).sum).sum)
    (hy : ∀ e ∈ es', y e.label = d' e.label + (es'.map fun o => (((shares o).filter fun q => q.1 = e.label).map fun q => q.2.at t * y o.label).sum).sum) :
    ∀ e ∈ es, y e.label ≤ x e.label := by
  obtain ⟨N, hN⟩ : ∃ N, ∀ e ∈ es', rank e.label ≤ N := by
    clear hr hy hsh hl
    induction es' with
    | nil => exact ⟨0, by simp⟩
    | cons e es ih =>
      obtain ⟨N, hN⟩ := ih
      refine ⟨max N (rank e.label), ?_⟩
      intro e' he'
      rcases List.mem_cons.1 he' with rfl | he'
      · exact le_max_right _ _
      · exact le_trans (hN e' he') (le_max_left _ _)
  have key : ∀ k, ∀ e ∈ es, N - rank e.label < k → y e.label ≤ x e.label := by
    intro k
    induction k with
    | zero => intro e _ h; omega
    | succ k ih =>
      intro e he hk
      obtain ⟨e', he', el⟩ := forall₂_mem_left hl he
      have hy' := hy e' he'
      rw [el] at hy'
      rw [hx e he, hy']
      refine add_le_add (hd e he) ?_
      refine sum_cheaper (forall₂_mems (forall₂_both hl hsh)) fun o ho o' k => ?_
      obtain ⟨⟨ol, low, same⟩, ho'⟩ := k
      have step : ∀ q' ∈ shares o', q'.1 = e.label → y o.label ≤ x o.label := by
        intro q' hq' hl'
        have := hr o' ho' q' hq'
        rw [hl', ol] at this
        have h2 := hN o' ho'
        rw [ol] at h2
        exact ih o ho (by omega)
      rw [ol]
      have : ∀ {a a' : List (String × Num)}, (∀ q' ∈ a', q'.1 = e.label → y o.label ≤ x o.label) → LowerShares n a a' → (a' = a ∨ 0 ≤ x o.label) →
          ((a'.filter fun q => q.1 = e.label).map fun q => q.2.at t * y o.label).sum ≤ ((a.filter fun q => q.1 = e.label).map fun q => q.2.at t * x o.label).sum := by
        intro a a' st hlow hsame
        induction hlow with
        | nil => exact le_rfl
        | cons b _ ih2 =>
          rename_i p p' u u' _
          have rest := ih2 (fun q' hq' => st q' (List.mem_cons_of_mem _ hq')) (hsame.imp (fun h => (List.cons.inj h).2) id)
          rw [List.filter_cons, List.filter_cons, b.1]
          split
          · rename_i hc
            have hc : p.1 = e.label := of_decide_eq_true hc
            rw [List.map_cons, List.map_cons, List.sum_cons, List.sum_cons]
            refine add_le_add ?_ rest
            obtain ⟨b1, b2⟩ := b.2 t ht
            have yx := st p' List.mem_cons_self (by rw [b.1, hc])
            rcases hsame with e | e
            · have := (List.cons.inj e).1
              rw [this] at b1 ⊢
              exact mul_le_mul_of_nonneg_left yx b1
            · exact le_trans (mul_le_mul_of_nonneg_left yx b1) (mul_le_mul_of_nonneg_right b2 e)
          · exact rest
      exact this step low same
  exact fun e he => key _ e he (Nat.lt_succ_self _)

end Flix
