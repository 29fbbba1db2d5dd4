import Verif.Lemmas.Larger

/-!
# What stays when effects are counted in another unit
-/

namespace Flix

variable {sys : Sys} {s : System} {k : ℚ} {n : Nat} {big : ℚ}

/-! ## Neither restricts more than the other -/

theorem looserMin_refl (a : Option ℚ) : LooserMin a a := fun m h => ⟨m, h, le_rfl⟩
theorem looserMax_refl (a : Option ℚ) : LooserMax a a := fun m h => ⟨m, h, le_rfl⟩
theorem looserMinTS_refl (a : Option Num) : LooserMinTS n a a := fun m h => ⟨m, h, fun _ _ => le_rfl⟩
theorem looserMaxTS_refl (a : Option Num) : LooserMaxTS n a a := fun m h => ⟨m, h, fun _ _ => le_rfl⟩

theorem states_times (o : Option OnOffParams) : LooserStates n o (o.map (OnOffParams.times k)) ∧ LooserStates n (o.map (OnOffParams.times k)) o := by
  cases o with
  | none => exact ⟨trivial, trivial⟩
  | some q =>
    constructor <;> exact ⟨looserMin_refl _, looserMax_refl _, looserMinTS_refl _, looserMaxTS_refl _, looserMinTS_refl _, looserMaxTS_refl _, looserMax_refl _⟩

theorem invest_costly (q : InvestParams) : q.Looser big (q.costly k) ∧ (q.costly k).Looser big q :=
  ⟨⟨rfl, rfl, rfl, le_rfl, le_rfl⟩, ⟨rfl, rfl, rfl, le_rfl, le_rfl⟩⟩

theorem size_costly (f : FlowData) : LooserSize big n f (f.costly k) ∧ LooserSize big n (f.costly k) f := by
  have given : ∀ S, f.size.given big = some S → (f.costly k).size.given big = some S := by
    intro S h
    show (f.size.costly k).given big = some S
    cases hs : f.size with
    | unset => rw [hs] at h; exact h
    | num x => rw [hs] at h; exact h
    | invest q => rw [hs] at h; cases h
  cases hg : f.size.given big with
  | some S =>
    have same : ∀ {a : Option ℚ} {P : ℚ → ℚ → Prop}, (∀ x, P x x) → ∀ m m', a = some m → a = some m' → P m m' := by
      intro a P hP m m' h h'
      rw [h] at h'
      cases h'
      exact hP m
    exact ⟨.inl ⟨S, S, hg, given S hg, fun t _ => ⟨le_rfl, le_rfl⟩, same fun _ => le_rfl, same fun _ => le_rfl⟩,
      .inl ⟨S, S, given S hg, hg, fun t _ => ⟨le_rfl, le_rfl⟩, same fun _ => le_rfl, same fun _ => le_rfl⟩⟩
  | none =>
    cases hs : f.size with
    | unset => rw [hs] at hg; cases hg
    | num x => rw [hs] at hg; cases hg
    | invest q =>
      have hs' : (f.costly k).size = .invest (q.costly k) := by show f.size.costly k = _; rw [hs]; rfl
      exact ⟨.inr ⟨q, _, hs, hs', (invest_costly q).1⟩, .inr ⟨_, q, hs', hs, (invest_costly q).2⟩⟩

theorem flow_costly (f : FlowData) : f.Looser big n (f.costly k) ∧ (f.costly k).Looser big n f :=
  ⟨⟨rfl, rfl, rfl, .inr rfl, fun _ _ => le_rfl, fun _ _ => le_rfl, (states_times _).1, looserMin_refl _, looserMax_refl _, looserMin_refl _, looserMax_refl _, (size_costly f).1⟩,
   ⟨rfl, rfl, rfl, .inr rfl, fun _ _ => le_rfl, fun _ _ => le_rfl, (states_times _).2, looserMin_refl _, looserMax_refl _, looserMin_refl _, looserMax_refl _, (size_costly f).2⟩⟩

theorem forall₂_map {α β : Type} {R : α → β → Prop} {g : α → β} (h : ∀ a, R a (g a)) (l : List α) : List.Forall₂ R l (l.map g) := by
  induction l with
  | nil => exact .nil
  | cons a l ih => exact .cons (h a) ih

theorem forall₂_map_left {α β : Type} {R : β → α → Prop} {g : α → β} (h : ∀ a, R (g a) a) (l : List α) : List.Forall₂ R (l.map g) l := by
  induction l with
  | nil => exact .nil
  | cons a l ih => exact .cons (h a) ih

theorem compData_costly (c : CompData) : c.Looser big n (c.costly k) ∧ (c.costly k).Looser big n c :=
  ⟨⟨rfl, forall₂_map (fun f => (flow_costly f).1) _, forall₂_map (fun f => (flow_costly f).1) _, (states_times _).1, rfl⟩,
   ⟨rfl, forall₂_map_left (fun f => (flow_costly f).2) _, forall₂_map_left (fun f => (flow_costly f).2) _, (states_times _).2, rfl⟩⟩

theorem option_costly (o : Option FlowData) : LooserOption big n o (o.map (FlowData.costly k)) ∧ LooserOption big n (o.map (FlowData.costly k)) o := by
  cases o with
  | none => exact ⟨trivial, trivial⟩
  | some f => exact flow_costly f

theorem storage_costly (t : StorageData) : t.Looser big n (t.costly k) ∧ (t.costly k).Looser big n t := by
  have cap : LooserCapacity big n t (t.costly k) ∧ LooserCapacity big n (t.costly k) t := by
    cases hs : t.capacity with
    | num x =>
      have hs' : (t.costly k).capacity = .num x := by show t.capacity.costly k = _; rw [hs]; rfl
      exact ⟨.inl ⟨x, x, hs, hs', fun _ _ => ⟨le_rfl, le_rfl⟩⟩, .inl ⟨x, x, hs', hs, fun _ _ => ⟨le_rfl, le_rfl⟩⟩⟩
    | invest q =>
      have hs' : (t.costly k).capacity = .invest (q.costly k) := by show t.capacity.costly k = _; rw [hs]; rfl
      exact ⟨.inr ⟨q, _, hs, hs', (invest_costly q).1⟩, .inr ⟨_, q, hs', hs, (invest_costly q).2⟩⟩
  exact ⟨⟨rfl, (flow_costly _).1, (flow_costly _).1, fun _ _ => le_rfl, fun _ _ => le_rfl, cap.1, rfl, looserMin_refl _, looserMax_refl _, rfl, rfl, rfl, rfl⟩,
    ⟨rfl, (flow_costly _).2, (flow_costly _).2, fun _ _ => le_rfl, fun _ _ => le_rfl, cap.2, rfl, looserMin_refl _, looserMax_refl _, rfl, rfl, rfl, rfl⟩⟩

theorem comp_costly (c : Comp) : c.Looser big n (c.costly k) ∧ (c.costly k).Looser big n c := by
  cases c with
  | plain d => exact compData_costly d
  | converter d => exact ⟨⟨(compData_costly _).1, rfl, rfl⟩, ⟨(compData_costly _).2, rfl, rfl⟩⟩
  | storage t => exact storage_costly t
  | transmission t =>
    exact ⟨⟨rfl, (flow_costly _).1, (flow_costly _).1, (option_costly _).1, (option_costly _).1, rfl, rfl, (states_times _).1, rfl⟩,
      ⟨rfl, (flow_costly _).2, (flow_costly _).2, (option_costly _).2, (option_costly _).2, rfl, rfl, (states_times _).2, rfl⟩⟩

/-! ## Shapes -/

theorem comp_costly_shape (c : Comp) : (c.costly k).label = c.label ∧ (c.costly k).inputs = c.inputs.map (FlowData.costly k) ∧
    (c.costly k).outputs = c.outputs.map (FlowData.costly k) ∧ (c.costly k).onOff = c.onOff.map (OnOffParams.times k) := by
  cases c with
  | plain d => exact ⟨rfl, rfl, rfl, rfl⟩
  | converter d => exact ⟨rfl, rfl, rfl, rfl⟩
  | storage t => exact ⟨rfl, rfl, rfl, rfl⟩
  | transmission t =>
    refine ⟨rfl, ?_, ?_, rfl⟩
    · simp only [Comp.costly, TransData.costly, Comp.inputs, List.map_cons]
      cases t.in2 <;> rfl
    · simp only [Comp.costly, TransData.costly, Comp.outputs, List.map_cons]
      cases t.out2 <;> rfl

theorem comp_costly_flows (c : Comp) : (c.costly k).flows = c.flows.map (FlowData.costly k) := by
  unfold Comp.flows
  rw [(comp_costly_shape c).2.1, (comp_costly_shape c).2.2.1, List.map_append]

theorem size_of_costly {f : FlowData} {q' : InvestParams} (h : (f.costly k).size = .invest q') : ∃ q, f.size = .invest q ∧ q' = q.costly k := by
  change f.size.costly k = _ at h
  cases hs : f.size with
  | unset => rw [hs] at h; cases h
  | num x => rw [hs] at h; cases h
  | invest q => rw [hs] at h; cases h; exact ⟨q, rfl, rfl⟩

theorem capacity_of_costly {t : StorageData} {q' : InvestParams} (h : (t.costly k).capacity = .invest q') : ∃ q, t.capacity = .invest q ∧ q' = q.costly k := by
  change t.capacity.costly k = _ at h
  cases hs : t.capacity with
  | num x => rw [hs] at h; cases h
  | invest q => rw [hs] at h; cases h; exact ⟨q, rfl, rfl⟩

theorem storage_of_costly {c : Comp} {t' : StorageData} (h : c.costly k = .storage t') : ∃ t, c = .storage t ∧ t' = t.costly k := by
  cases c <;> cases h
  exact ⟨_, rfl, rfl⟩

/-! ## Prices -/

theorem num_at_mul (a : Num) (t : Nat) : (a.map (k * ·)).at t = k * a.at t := by
  cases a with
  | s x => rfl
  | v xs =>
    match xs with
    | [] => simp [Num.map, Num.at]
    | [x] => simp [Num.map, Num.at]
    | x :: y :: xs =>
      simp only [Num.map, Num.at, List.map_cons]
      rw [← List.map_cons (f := (k * ·)), ← List.map_cons (f := (k * ·)), List.getD_eq_getElem?_getD, List.getD_eq_getElem?_getD, List.getElem?_map]
      cases (x :: y :: xs)[t]? <;> simp

theorem prices_times (es : List EffectData) (d : EffDict) : PricesInUnits n (fun _ => k) es d (EffDict.times k d) :=
  forall₂_map (fun p => ⟨rfl, fun _ _ t _ => num_at_mul p.2 t⟩) d

theorem states_priced (es : List EffectData) {o : Option OnOffParams} : ∀ q q', o = some q → o.map (OnOffParams.times k) = some q' → q.Priced (PricesInUnits n (fun _ => k) es) q' := by
  intro q q' h h'
  subst h
  cases h'
  exact ⟨prices_times _ _, prices_times _ _⟩

theorem invest_priced (es : List EffectData) (q : InvestParams) : q.Priced (PricesInUnits n (fun _ => k) es) (q.costly k) := ⟨prices_times _ _, prices_times _ _, prices_times _ _⟩

theorem comp_priced (es : List EffectData) (c : Comp) : c.Priced (PricesInUnits n (fun _ => k) es) (c.costly k) := by
  refine ⟨?_, ?_, ?_⟩
  · rw [comp_costly_flows]
    refine forall₂_map (fun f => ⟨prices_times _ _, states_priced es, fun q q' h h' => ?_⟩) _
    obtain ⟨q₂, h₂, rfl⟩ := size_of_costly h'
    rw [h] at h₂
    cases h₂
    exact invest_priced es q
  · rw [(comp_costly_shape c).2.2.2]
    exact states_priced es
  · intro t t' q q' h h' e e'
    obtain ⟨t₂, h₂, rfl⟩ := storage_of_costly h'
    rw [h] at h₂
    cases h₂
    obtain ⟨q₂, e₂, rfl⟩ := capacity_of_costly e'
    rw [e] at e₂
    cases e₂
    exact invest_priced es q

theorem series_times (o : Option Num) : SeriesInUnits n k o (o.map (Num.map (k * ·))) := by
  cases o with
  | none => trivial
  | some a => exact fun t _ => num_at_mul a t

theorem shares_same (l : String) (d : List (String × Num)) : SharesInUnits n (fun _ => k) l d d := by
  induction d with
  | nil => exact .nil
  | cons p d ih => exact .cons ⟨rfl, fun t _ => mul_comm _ _⟩ ih

/-- The system in between is the old one with effects in another unit. -/
theorem costly_inUnits (h : ∀ c ∈ s.comps, c.NoPieces) : s.InUnits big n (fun _ => k) k (s.costly k) := by
  refine ⟨forall₂_map (fun e => ⟨rfl, rfl, rfl, shares_same _ _, shares_same _ _, rfl, rfl, rfl, rfl, rfl, rfl, series_times _, series_times _⟩) _,
    forall₂_map (fun c => ⟨(comp_costly c).1, (comp_costly c).2, comp_priced _ c⟩) _, fun c hc => ?_, forall₂_map (fun b => ⟨rfl, series_times _⟩) _, fun _ _ _ => rfl⟩
  refine ⟨fun f hf q hq x es he => ?_, fun t q ht hq x es he => ?_⟩
  · rw [(h c hc).1 f hf q hq] at he; cases he
  · rw [(h c hc).2 t q ht hq] at he; cases he

end Flix
