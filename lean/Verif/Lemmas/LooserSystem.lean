import Verif.Lemmas.LooserComp
import Verif.Props.Idle

/-! # Looser declarations of whole flow systems -/

namespace Flix

variable {sys : Sys} {σ : Assignment}

theorem forall₂_both {α β : Type} {R S : α → β → Prop} {l : List α} {l' : List β} (h : List.Forall₂ R l l') (h' : List.Forall₂ S l l') :
    List.Forall₂ (fun a b => R a b ∧ S a b) l l' := by
  induction h with
  | nil => exact .nil
  | cons a _ ih =>
    cases h' with
    | cons b bs => exact .cons ⟨a, b⟩ (ih bs)

theorem looser_find {n : Nat} {p : EffectData → Bool} (hp : ∀ e e' : EffectData, e.Looser n e' → p e' = p e) {es es' : List EffectData} (h : List.Forall₂ (EffectData.Looser n) es es') :
    (es.find? p = none ∧ es'.find? p = none) ∨ ∃ e e', es.find? p = some e ∧ es'.find? p = some e' ∧ e.Looser n e' := by
  induction h with
  | nil => exact .inl ⟨rfl, rfl⟩
  | cons a _ ih =>
    rename_i e e' _ _ _
    rw [List.find?_cons, List.find?_cons, hp e e' a]
    cases p e with
    | true => exact .inr ⟨e, e', rfl, rfl, a⟩
    | false => exact ih

theorem names_looser {n : Nat} {es es' : List EffectData} (h : List.Forall₂ (EffectData.Looser n) es es') (l : String) (k : Option String) : names es' l k = names es l k := by
  cases k with
  | some e => rfl
  | none =>
    unfold names
    rcases looser_find (p := (·.isStandard)) (fun e e' h => h.standard) h with ⟨e1, e2⟩ | ⟨e, e', e1, e2, e3⟩
    · rw [e1, e2]
    · rw [e1, e2]; simp only [e3.label]

theorem effVal_looser {n : Nat} {es es' : List EffectData} (h : List.Forall₂ (EffectData.Looser n) es es') (d : EffDict) (l : String) (t : Nat) : effVal es' d l t = effVal es d l t := by
  unfold effVal
  simp only [names_looser h]

theorem onOffOperation_looser {n : Nat} {es es' : List EffectData} (h : List.Forall₂ (EffectData.Looser n) es es') {q q' : Option OnOffParams} (hq : LooserStates n q q')
    (hp : ∀ r r', q = some r → q' = some r' → r.Priced Eq r') (dt : Nat → ℚ) (el l : String) (t : Nat) :
    onOffOperation dt σ es' el q' l t = onOffOperation dt σ es el q l t := by
  rcases hq.split with ⟨e1, e2⟩ | ⟨r, r', e1, e2, e3⟩
  · rw [e1, e2]; rfl
  · have p := hp r r' e1 e2
    rw [e1, e2]
    simp only [onOffOperation, effVal_looser h, ← p.starts, ← p.hours]

theorem investCost_looser {n : Nat} {big : ℚ} {es es' : List EffectData} (h : List.Forall₂ (EffectData.Looser n) es es') {q q' : InvestParams} (hq : q.Looser big q') (hp : q.Priced Eq q') (el l : String) :
    investCost σ es' el q' l = investCost σ es el q l := by
  simp only [investCost, effVal_looser h, decision, segmentedCost, ← hp.fix, ← hp.divest, ← hp.specific, hq.optional, hq.segments]

theorem flowOperation_looser {n : Nat} {big : ℚ} {es es' : List EffectData} (h : List.Forall₂ (EffectData.Looser n) es es') {f f' : FlowData} (hf : f.Looser big n f') (hp : f.Priced Eq f')
    (dt : Nat → ℚ) (c l : String) (t : Nat) :
    flowOperation dt σ es' c f' l t = flowOperation dt σ es c f l t := by
  simp only [flowOperation, effVal_looser h, ← hp.effects, hf.label, onOffOperation_looser h hf.states hp.states]

theorem flowInvestment_looser {n : Nat} {big : ℚ} {es es' : List EffectData} (h : List.Forall₂ (EffectData.Looser n) es es') {f f' : FlowData} (hf : f.Looser big n f') (hp : f.Priced Eq f') (c l : String) :
    flowInvestment σ es' c f' l = flowInvestment σ es c f l := by
  rcases hf.size with ⟨S, S', e1, e2, _⟩ | ⟨q, q', e1, e2, e3⟩
  · have z : ∀ (es : List EffectData) (g : FlowData) (X : ℚ), g.size.given big = some X → flowInvestment σ es c g l = 0 := by
      intro es g X hg
      unfold flowInvestment
      cases hs : g.size with
      | invest q => rw [hs] at hg; cases hg
      | unset => rfl
      | num x => rfl
    rw [z es' f' S' e2, z es f S e1]
  · unfold flowInvestment
    rw [e1, e2, hf.label]
    exact investCost_looser h e3 (hp.size q q' e1 e2) _ _

theorem sum_looser {α : Type} {R : α → α → Prop} {l l' : List α} (h : List.Forall₂ R l l') {g g' : α → ℚ} (hg : ∀ a a', R a a' → g' a' = g a) : (l'.map g').sum = (l.map g).sum := by
  induction h with
  | nil => rfl
  | cons a _ ih => rw [List.map_cons, List.map_cons, List.sum_cons, List.sum_cons, ih, hg _ _ a]

/-- What looser components have in common. -/
theorem comp_shape {big : ℚ} {n : Nat} {c c' : Comp} (h : c.Looser big n c') : c'.label = c.label ∧ List.Forall₂ (FlowData.Looser big n) c.inputs c'.inputs ∧
    List.Forall₂ (FlowData.Looser big n) c.outputs c'.outputs ∧ LooserStates n c.onOff c'.onOff := by
  have opt : ∀ {a b : Option FlowData}, LooserOption big n a b → List.Forall₂ (FlowData.Looser big n) a.toList b.toList := by
    intro a b hab
    rcases hab.split with ⟨e1, e2⟩ | ⟨f, f', e1, e2, e3⟩ <;> rw [e1, e2]
    · exact .nil
    · exact .cons e3 .nil
  cases c <;> cases c' <;> simp only [Comp.Looser] at h
  · exact ⟨h.label, h.inputs, h.outputs, h.states⟩
  · exact ⟨h.1.label, h.1.inputs, h.1.outputs, h.1.states⟩
  · exact ⟨h.label, .cons h.charging .nil, .cons h.discharging .nil, trivial⟩
  · exact ⟨h.label, .cons h.in1 (opt h.in2), .cons h.out1 (opt h.out2), h.states⟩

theorem comp_contrib_looser {n : Nat} {big : ℚ} {es es' : List EffectData} (h : List.Forall₂ (EffectData.Looser n) es es') {c c' : Comp} (hc : c.Looser big n c') (hp : c.Priced Eq c') (dt : Nat → ℚ) (l : String) :
    (∀ t, c'.operation dt σ es' l t = c.operation dt σ es l t) ∧ c'.investment σ es' l = c.investment σ es l := by
  obtain ⟨e1, e2, e3, e4⟩ := comp_shape hc
  have fl0 : List.Forall₂ (FlowData.Looser big n) c.flows c'.flows := List.rel_append e2 e3
  have fl := forall₂_both fl0 hp.flows
  unfold Comp.operation Comp.investment
  refine ⟨fun t => ?_, ?_⟩
  · rw [onOffOperation_looser h e4 hp.states, e1, sum_looser fl fun f f' hf => flowOperation_looser h hf.1 hf.2 dt c.label l t]
  · rw [e1, sum_looser fl fun f f' hf => flowInvestment_looser h hf.1 hf.2 c.label l]
    congr 1
    cases c <;> cases c' <;> simp only [Comp.Looser] at hc
    · rfl
    · rfl
    · simp only [capacityInvestment]
      rcases hc.capacity with ⟨S, S', k1, k2, _⟩ | ⟨q, q', k1, k2, k3⟩
      · rw [k1, k2]
      · rw [k1, k2, hc.label]
        exact investCost_looser h k3 (hp.capacity _ _ q q' rfl rfl k1 k2) _ _
    · rfl

theorem contribs_looser {n : Nat} {big : ℚ} {s s' : System} (h : s.Looser big n s') (hp : s.SamePrices s') (l : String) :
    (∀ t, s'.opOf sys σ l t = s.opOf sys σ l t) ∧ s'.invOf σ l = s.invOf σ l :=
  have hc := forall₂_both h.comps hp.comps
  ⟨fun t => sum_looser hc fun _ _ k => (comp_contrib_looser h.effects k.1 k.2 _ l).1 t, sum_looser hc fun _ _ k => (comp_contrib_looser h.effects k.1 k.2 sys.width l).2⟩

theorem System.Looser.freer {n : Nat} {big : ℚ} {s s' : System} (h : s.Looser big n s') : s.Freer big n s' := by
  refine ⟨h.comps, h.buses.imp fun b b' hb => ⟨hb.label, fun hne => ?_⟩⟩
  obtain ⟨p, hp⟩ := Option.ne_none_iff_exists'.1 hne
  obtain ⟨p', hp', _⟩ := hb.penalty p hp
  rw [hp']
  simp

theorem fed_looser {n : Nat} {big : ℚ} {s s' : System} (h : s.Freer big n s') (b : String) (t : Nat) : fedInto σ s' b t = fedInto σ s b t ∧ takenFrom σ s' b t = takenFrom σ s b t := by
  have each : ∀ (cl : String) {fs fs' : List FlowData}, List.Forall₂ (FlowData.Looser big n) fs fs' →
      ((fs'.filter fun f => f.bus = b).map fun f => σ (cl ++ "__" ++ f.label ++ "_" ++ "flow_rate") t).sum = ((fs.filter fun f => f.bus = b).map fun f => σ (cl ++ "__" ++ f.label ++ "_" ++ "flow_rate") t).sum := by
    intro cl fs fs' hf
    induction hf with
    | nil => rfl
    | cons a _ ih =>
      rename_i f f' _ _ _
      rw [List.filter_cons, List.filter_cons, a.bus]
      split
      · rw [List.map_cons, List.map_cons, List.sum_cons, List.sum_cons, ih, a.label]
      · exact ih
  constructor
  · refine sum_looser h.comps fun c c' hc => ?_
    obtain ⟨e1, e2, e3, _⟩ := comp_shape hc
    rw [e1]
    exact each _ e3
  · refine sum_looser h.comps fun c c' hc => ?_
    obtain ⟨e1, e2, e3, _⟩ := comp_shape hc
    rw [e1]
    exact each _ e2

theorem balanced_looser {n : Nat} {es es' : List EffectData} (h : List.Forall₂ (EffectData.Looser n) es es')
    (hp : List.Forall₂ (EffectData.Priced Eq) es es') {T : Totals} {N : Nat} {op op' : String → Nat → ℚ} {inv inv' : String → ℚ}
    (ho : ∀ e ∈ es, (∀ t < N, op' e.label t = op e.label t) ∧ inv' e.label = inv e.label) (hb : T.Balanced es N op inv) : T.Balanced es' N op' inv' := by
  intro e' he'
  obtain ⟨e, he, k⟩ := forall₂_mem_right h he'
  obtain ⟨b1, b2⟩ := hb e he
  rw [k.label]
  refine ⟨fun t ht => ?_, ?_⟩
  · rw [b1 t ht, (ho e he).1 t ht]
    congr 1
    exact (sum_looser (forall₂_both h hp) fun a a' ha => by rw [← ha.2.operation, ha.1.label]).symm
  · rw [b2, (ho e he).2]
    congr 1
    exact (sum_looser (forall₂_both h hp) fun a a' ha => by rw [← ha.2.invest, ha.1.label]).symm

theorem LooserMinTS.keep {n : Nat} {a b : Option Num} (h : LooserMinTS n a b) {w x : Nat → ℚ} (hw : ∀ t < n, 0 ≤ w t) (hx : ∀ m, a = some m → ∀ t < n, m.at t * w t ≤ x t) :
    ∀ m, b = some m → ∀ t < n, m.at t * w t ≤ x t := by
  intro m' hm' t ht
  obtain ⟨m, e, k⟩ := h m' hm'
  exact le_trans (mul_le_mul_of_nonneg_right (k t ht) (hw t ht)) (hx m e t ht)

theorem LooserMaxTS.keep {n : Nat} {a b : Option Num} (h : LooserMaxTS n a b) {w x : Nat → ℚ} (hw : ∀ t < n, 0 ≤ w t) (hx : ∀ m, a = some m → ∀ t < n, x t ≤ m.at t * w t) :
    ∀ m, b = some m → ∀ t < n, x t ≤ m.at t * w t := by
  intro m' hm' t ht
  obtain ⟨m, e, k⟩ := h m' hm'
  exact le_trans (hx m e t ht) (mul_le_mul_of_nonneg_right (k t ht) (hw t ht))

theorem allowed_looser (hw : ∀ t < sys.n, 0 ≤ sys.dt.getD t 0) {e e' : EffectData} (h : e.Looser sys.n e') {T : Totals} (ha : T.Allowed sys e) : T.Allowed sys e' := by
  refine ⟨?_, ?_, ?_, ?_, ?_, ?_, ?_, ?_⟩ <;> rw [h.label]
  · exact h.minOperation.keep ha.minOperation
  · exact h.maxOperation.keep ha.maxOperation
  · exact h.minInvest.keep ha.minInvest
  · exact h.maxInvest.keep ha.maxInvest
  · exact h.minTotal.keep ha.minTotal
  · exact h.maxTotal.keep ha.maxTotal
  · exact h.minPerHour.keep hw ha.minPerHour
  · exact h.maxPerHour.keep hw ha.maxPerHour

end Flix
