import Mathlib.Tactic.LinearCombination
import Verif.Spec.Units
import Verif.Lemmas.LooserPhysical

/-! # Effects in other units: contributions, totals and limits -/

namespace Flix

variable {sys : Sys} {σ : Assignment} {n : Nat} {u : String → ℚ}

theorem units_find {p : EffectData → Bool} (hp : ∀ e e' : EffectData, e.InUnits n u e' → p e' = p e) {es es' : List EffectData} (h : List.Forall₂ (EffectData.InUnits n u) es es') :
    (es.find? p = none ∧ es'.find? p = none) ∨ ∃ e e', es.find? p = some e ∧ es'.find? p = some e' ∧ e.InUnits n u e' := by
  induction h with
  | nil => exact .inl ⟨rfl, rfl⟩
  | cons a _ ih =>
    rename_i e e' _ _ _
    rw [List.find?_cons, List.find?_cons, hp e e' a]
    cases p e with
    | true => exact .inr ⟨e, e', rfl, rfl, a⟩
    | false => exact ih

theorem names_units {es es' : List EffectData} (h : List.Forall₂ (EffectData.InUnits n u) es es') (l : String) (k : Option String) : names es' l k = names es l k := by
  cases k with
  | some e => rfl
  | none =>
    unfold names
    rcases units_find (p := (·.isStandard)) (fun e e' h => h.standard) h with ⟨e1, e2⟩ | ⟨e, e', e1, e2, e3⟩
    · rw [e1, e2]
    · rw [e1, e2]; simp only [e3.label]

theorem effVal_units {es es' : List EffectData} (h : List.Forall₂ (EffectData.InUnits n u) es es') {d d' : EffDict} (hd : PricesInUnits n u es d d') (l : String) {t : Nat} (ht : t < n) :
    effVal es' d' l t = u l * effVal es d l t := by
  unfold effVal
  simp only [names_units h]
  induction hd with
  | nil => simp
  | cons a _ ih =>
    rw [List.filter_cons, List.filter_cons, a.1]
    split
    · rename_i hl
      rw [List.map_cons, List.map_cons, List.sum_cons, List.sum_cons, a.2 l hl t ht, ih, mul_add]
    · exact ih

theorem onOffOperation_units {es es' : List EffectData} (h : List.Forall₂ (EffectData.InUnits n u) es es') {q q' : Option OnOffParams} (hq : LooserStates n q q')
    (hp : ∀ r r', q = some r → q' = some r' → r.Priced (PricesInUnits n u es) r') {dt : Nat → ℚ} (el l : String) {t : Nat} (ht : t < n) :
    onOffOperation dt σ es' el q' l t = u l * onOffOperation dt σ es el q l t := by
  rcases hq.split with ⟨e1, e2⟩ | ⟨r, r', e1, e2, _⟩
  · rw [e1, e2]; simp [onOffOperation]
  · have p := hp r r' e1 e2
    rw [e1, e2]
    simp only [onOffOperation]
    rw [effVal_units h p.starts l ht, effVal_units h p.hours l ht]
    ring

theorem segmentedCost_units {q : InvestParams} (hk : q.KeepsPieces u) (el l : String) : segmentedCost σ el q l = u l * segmentedCost σ el q l := by
  unfold segmentedCost
  cases hq : q.effectsInSegments with
  | none => simp
  | some x =>
    obtain ⟨x, es⟩ := x
    simp only
    by_cases hl : u l = 1
    · rw [hl, one_mul]
    · have : (es.filter fun p => p.1 = l) = [] := by
        rw [List.filter_eq_nil_iff]
        intro p hp hpl
        have := hk x es hq p hp
        rw [of_decide_eq_true hpl] at this
        exact hl this
      rw [this]
      simp

theorem investCost_units {big : ℚ} {es es' : List EffectData} (h : List.Forall₂ (EffectData.InUnits n u) es es') {q q' : InvestParams} (hq : q.Looser big q')
    (hp : q.Priced (PricesInUnits n u es) q') (hk : q.KeepsPieces u) (hn : 0 < n) (el l : String) : investCost σ es' el q' l = u l * investCost σ es el q l := by
  have ed : decision σ el q' = decision σ el q := by unfold decision; rw [hq.optional]
  have eg : segmentedCost σ el q' l = segmentedCost σ el q l := by unfold segmentedCost; rw [hq.segments]
  unfold investCost
  rw [ed, eg, effVal_units h hp.fix l hn, effVal_units h hp.divest l hn, effVal_units h hp.specific l hn]
  have := segmentedCost_units (σ := σ) hk el l
  linear_combination this

theorem flow_units {big : ℚ} {es es' : List EffectData} (h : List.Forall₂ (EffectData.InUnits n u) es es') {f f' : FlowData} (hf : f.Looser big n f')
    (hp : f.Priced (PricesInUnits n u es) f') (hk : ∀ q, f.size = .invest q → q.KeepsPieces u) (hn : 0 < n) {dt : Nat → ℚ} (c l : String) :
    (∀ t < n, flowOperation dt σ es' c f' l t = u l * flowOperation dt σ es c f l t) ∧ flowInvestment σ es' c f' l = u l * flowInvestment σ es c f l := by
  refine ⟨fun t ht => ?_, ?_⟩
  · unfold flowOperation
    rw [hf.label, effVal_units h hp.effects l ht, onOffOperation_units h hf.states hp.states _ l ht]
    ring
  · rcases hf.size with ⟨S, S', e1, e2, _⟩ | ⟨q, q', e1, e2, e3⟩
    · have z : ∀ (es : List EffectData) (g : FlowData) (X : ℚ), g.size.given big = some X → flowInvestment σ es c g l = 0 := by
        intro es g X hg
        unfold flowInvestment
        cases hs : g.size with
        | invest q => rw [hs] at hg; cases hg
        | unset => rfl
        | num x => rfl
      rw [z es' f' S' e2, z es f S e1, mul_zero]
    · unfold flowInvestment
      rw [e1, e2, hf.label]
      exact investCost_units h e3 (hp.size q q' e1 e2) (hk q e1) hn _ _

theorem sum_units {α : Type} {R : α → α → Prop} {l l' : List α} (h : List.Forall₂ R l l') {g g' : α → ℚ} {k : ℚ} (hg : ∀ a ∈ l, ∀ a', R a a' → g' a' = k * g a) :
    (l'.map g').sum = k * (l.map g).sum := by
  induction h with
  | nil => simp
  | cons a _ ih =>
    rw [List.map_cons, List.map_cons, List.sum_cons, List.sum_cons, hg _ List.mem_cons_self _ a, ih fun b hb => hg b (List.mem_cons_of_mem _ hb), mul_add]

theorem comp_units {big : ℚ} {es es' : List EffectData} (h : List.Forall₂ (EffectData.InUnits n u) es es') {c c' : Comp} (hc : c.Looser big n c')
    (hp : c.Priced (PricesInUnits n u es) c') (hk : c.KeepsPieces u) (hn : 0 < n) {dt : Nat → ℚ} (l : String) :
    (∀ t < n, c'.operation dt σ es' l t = u l * c.operation dt σ es l t) ∧ c'.investment σ es' l = u l * c.investment σ es l := by
  obtain ⟨e1, e2, e3, e4⟩ := comp_shape hc
  have fl0 : List.Forall₂ (FlowData.Looser big n) c.flows c'.flows := List.rel_append e2 e3
  have fl := forall₂_both fl0 hp.flows
  unfold Comp.operation Comp.investment
  refine ⟨fun t ht => ?_, ?_⟩
  · rw [e1, mul_add, onOffOperation_units h e4 hp.states _ l ht]
    exact congrArg (· + _) (sum_units fl fun f hf f' k => (flow_units h k.1 k.2 (hk.1 f hf) hn _ l).1 t ht)
  · rw [e1, mul_add]
    refine congrArg₂ (· + ·) (sum_units fl fun f hf f' k => (flow_units (dt := dt) h k.1 k.2 (hk.1 f hf) hn _ l).2) ?_
    cases c <;> cases c' <;> simp only [Comp.Looser] at hc
    · exact (mul_zero _).symm
    · exact (mul_zero _).symm
    · simp only [capacityInvestment]
      rcases hc.capacity with ⟨S, S', k1, k2, _⟩ | ⟨q, q', k1, k2, k3⟩
      · rw [k1, k2]; exact (mul_zero _).symm
      · rw [k1, k2, hc.label]
        exact investCost_units h k3 (hp.capacity _ _ q q' rfl rfl k1 k2) (hk.2 _ q rfl k1) hn _ _
    · exact (mul_zero _).symm

theorem shares_units {es es' : List EffectData} (h : List.Forall₂ (EffectData.InUnits n u) es es') (shares : EffectData → List (String × Num))
    (hsh : ∀ e e' : EffectData, e.InUnits n u e' → SharesInUnits n u e.label (shares e) (shares e')) {x : String → ℚ} (l : String) {t : Nat} (ht : t < n) :
    (es'.map fun o => (((shares o).filter fun q => q.1 = l).map fun q => q.2.at t * (u o.label * x o.label)).sum).sum =
      u l * (es.map fun o => (((shares o).filter fun q => q.1 = l).map fun q => q.2.at t * x o.label).sum).sum := by
  refine sum_units h fun o _ o' ho => ?_
  have hs := hsh o o' ho
  rw [ho.label]
  generalize shares o = a at hs
  generalize shares o' = a' at hs
  induction hs with
  | nil => simp
  | cons b _ ih =>
    rename_i p p' _ _ _
    rw [List.filter_cons, List.filter_cons, b.1]
    split
    · rename_i hl
      have hl : p.1 = l := of_decide_eq_true hl
      have := b.2 t ht
      rw [hl] at this
      rw [List.map_cons, List.map_cons, List.sum_cons, List.sum_cons, ih]
      linear_combination x o.label * this
    · exact ih

/-- Totals in the new units. -/
def Totals.inUnits (u : String → ℚ) (T : Totals) : Totals := ⟨fun l t => u l * T.op l t, fun l => u l * T.inv l⟩

theorem opSum_units (T : Totals) (n : Nat) (l : String) : (T.inUnits u).opSum n l = u l * T.opSum n l := by
  unfold Totals.opSum Totals.inUnits
  rw [Finset.mul_sum]

theorem balanced_units {es es' : List EffectData} (h : List.Forall₂ (EffectData.InUnits n u) es es') (hn : 0 < n) {T : Totals} {op op' : String → Nat → ℚ} {inv inv' : String → ℚ}
    (ho : ∀ l, ∀ t < n, op' l t = u l * op l t) (hi : ∀ l, inv' l = u l * inv l) (hb : T.Balanced es n op inv) : (T.inUnits u).Balanced es' n op' inv' := by
  intro e' he'
  obtain ⟨e, he, k⟩ := forall₂_mem_right h he'
  obtain ⟨b1, b2⟩ := hb e he
  rw [k.label]
  refine ⟨fun t ht => ?_, ?_⟩
  · have := shares_units h (·.shareOperation) (fun _ _ k => k.operation) (x := fun l => T.op l t) e.label ht
    simp only [Totals.inUnits]
    rw [this, ho _ t ht, b1 t ht]
    ring
  · have := shares_units h (·.shareInvest) (fun _ _ k => k.invest) (x := fun l => T.inv l) e.label hn
    simp only [Totals.inUnits]
    rw [this, hi, b2]
    ring

theorem SeriesInUnits.some_right {k : ℚ} {a b : Option Num} {m' : Num} (h : SeriesInUnits n k a b) (e : b = some m') : ∃ m, a = some m ∧ ∀ t < n, m'.at t = k * m.at t := by
  subst e
  cases a with
  | none => exact h.elim
  | some m => exact ⟨m, rfl, h⟩

theorem LimitInUnits.some_right {k m' : ℚ} {a b : Option ℚ} (h : LimitInUnits k a b) (e : b = some m') : ∃ m, a = some m ∧ m' = k * m := by
  unfold LimitInUnits at h
  rw [h] at e
  obtain ⟨m, e1, e2⟩ := Option.map_eq_some_iff.1 e
  exact ⟨m, e1, e2.symm⟩

theorem allowed_units {T : Totals} {e e' : EffectData} (k : e.InUnits sys.n u e') (hu : 0 < u e.label) (h : T.Allowed sys e) : (T.inUnits u).Allowed sys e' := by
  have mono : ∀ {a b : ℚ}, a ≤ b → u e.label * a ≤ u e.label * b := fun h => mul_le_mul_of_nonneg_left h hu.le
  refine ⟨fun m hm => ?_, fun m hm => ?_, fun m hm => ?_, fun m hm => ?_, fun m hm => ?_, fun m hm => ?_, fun m hm t ht => ?_, fun m hm t ht => ?_⟩ <;>
    simp only [opSum_units, k.label]
  · obtain ⟨m, a, rfl⟩ := k.minOperation.some_right hm; exact mono (h.minOperation m a)
  · obtain ⟨m, a, rfl⟩ := k.maxOperation.some_right hm; exact mono (h.maxOperation m a)
  · obtain ⟨m, a, rfl⟩ := k.minInvest.some_right hm; exact mono (h.minInvest m a)
  · obtain ⟨m, a, rfl⟩ := k.maxInvest.some_right hm; exact mono (h.maxInvest m a)
  · obtain ⟨m, a, rfl⟩ := k.minTotal.some_right hm
    have := mono (h.minTotal m a)
    simp only [Totals.inUnits]
    linarith
  · obtain ⟨m, a, rfl⟩ := k.maxTotal.some_right hm
    have := mono (h.maxTotal m a)
    simp only [Totals.inUnits]
    linarith
  · obtain ⟨m, a, b⟩ := k.minPerHour.some_right hm
    rw [b t ht, mul_assoc]
    exact mono (h.minPerHour m a t ht)
  · obtain ⟨m, a, b⟩ := k.maxPerHour.some_right hm
    rw [b t ht, mul_assoc]
    exact mono (h.maxPerHour m a t ht)

end Flix
