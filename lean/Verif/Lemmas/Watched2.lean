import Verif.Lemmas.Watched

/-!
# What an observed effect contributes elsewhere: nothing
-/

namespace Flix

variable {sys : Sys} {s : System} {l l' : String} {σ : Assignment}

instance : KeepsShapes (EffDict.without l) where
  series _ _ h q hq := h q (List.mem_of_mem_filter hq)
  scalars _ h q hq := h q (List.mem_of_mem_filter hq)

/-! ## Contributions -/

theorem find_without {es : List EffectData} {p : EffectData → Bool} (hp : ∀ e : EffectData, p (e.without l) = p e) (h : ∀ e ∈ es, e.label = l → p e = false) :
    ((es.filter fun e => e.label ≠ l).map (EffectData.without l)).find? p = (es.find? p).map (EffectData.without l) := by
  induction es with
  | nil => rfl
  | cons e es ih =>
    have ih := ih fun x hx => h x (List.mem_cons_of_mem _ hx)
    by_cases he : e.label = l
    · rw [List.filter_cons_of_neg (by simpa using he), ih, List.find?_cons, h e List.mem_cons_self he]
    · rw [List.filter_cons_of_pos (by simpa using he), List.map_cons, List.find?_cons, List.find?_cons, hp]
      cases p e with
      | true => rfl
      | false => exact ih

theorem names_without {es : List EffectData} (h : ∀ e ∈ es, e.label = l → e.isStandard = false) (o : Option String) :
    names ((es.filter fun e => e.label ≠ l).map (EffectData.without l)) l' o = names es l' o := by
  cases o with
  | some e => rfl
  | none =>
    unfold names
    rw [find_without (fun _ => rfl) h]
    cases es.find? (·.isStandard) <;> rfl

theorem effVal_without {es : List EffectData} (h : ∀ e ∈ es, e.label = l → e.isStandard = false) (hl : l' ≠ l) (d : EffDict) (t : Nat) :
    effVal ((es.filter fun e => e.label ≠ l).map (EffectData.without l)) (EffDict.without l d) l' t = effVal es d l' t := by
  unfold effVal EffDict.without
  rw [List.filter_filter]
  congr 2
  refine List.filter_congr fun q _ => ?_
  rw [names_without h]
  cases hq : q.1 with
  | none => simp
  | some e =>
    by_cases he : e = l
    · subst he
      simp [names, Ne.symm hl]
    · simp [he]

theorem onOff_without {es : List EffectData} (h : ∀ e ∈ es, e.label = l → e.isStandard = false) (hl : l' ≠ l) (dt : Nat → ℚ) (el : String) (q : Option OnOffParams) (t : Nat) :
    onOffOperation dt σ ((es.filter fun e => e.label ≠ l).map (EffectData.without l)) el (q.map (OnOffParams.mapEff (EffDict.without l))) l' t = onOffOperation dt σ es el q l' t := by
  cases q with
  | none => rfl
  | some q => simp only [Option.map_some, onOffOperation, OnOffParams.mapEff, effVal_without h hl]

theorem invest_without {es : List EffectData} (h : ∀ e ∈ es, e.label = l → e.isStandard = false) (hl : l' ≠ l) (el : String) (q : InvestParams) :
    investCost σ ((es.filter fun e => e.label ≠ l).map (EffectData.without l)) el (q.mapEff (EffDict.without l)) l' = investCost σ es el q l' := by
  unfold investCost
  simp only [InvestParams.mapEff, effVal_without h hl]
  rfl

theorem comp_without {es : List EffectData} (h : ∀ e ∈ es, e.label = l → e.isStandard = false) (hl : l' ≠ l) (dt : Nat → ℚ) (c : Comp) :
    (∀ t, (c.mapEff (EffDict.without l)).operation dt σ ((es.filter fun e => e.label ≠ l).map (EffectData.without l)) l' t = c.operation dt σ es l' t) ∧
    (c.mapEff (EffDict.without l)).investment σ ((es.filter fun e => e.label ≠ l).map (EffectData.without l)) l' = c.investment σ es l' := by
  obtain ⟨e1, _, _, e4⟩ := comp_mapEff_shape (g := EffDict.without l) c
  refine ⟨fun t => ?_, ?_⟩
  · unfold Comp.operation
    rw [comp_mapEff_flows, e1, e4, onOff_without h hl, List.map_map]
    congr 2
    refine List.map_congr_left fun f _ => ?_
    simp only [Function.comp_apply, flowOperation]
    refine congrArg₂ (· + ·) ?_ (onOff_without h hl dt _ f.onOff t)
    show effVal _ (EffDict.without l f.effectsPerFlowHour) l' t * _ * _ = _
    rw [effVal_without h hl]
    rfl
  · unfold Comp.investment
    rw [comp_mapEff_flows, e1, List.map_map]
    congr 1
    · refine congrArg List.sum (List.map_congr_left fun f _ => ?_)
      simp only [Function.comp_apply, flowInvestment]
      rw [show (f.mapEff (EffDict.without l)).size = f.size.mapEff (EffDict.without l) from rfl]
      cases f.size with
      | unset => rfl
      | num x => rfl
      | invest q => exact invest_without h hl _ q
    · cases c with
      | plain d => rfl
      | converter d => rfl
      | transmission t => rfl
      | storage t =>
        simp only [Comp.mapEff, capacityInvestment]
        rw [show (t.mapEff (EffDict.without l)).capacity = t.capacity.mapEff (EffDict.without l) from rfl]
        cases t.capacity with
        | num x => rfl
        | invest q => exact invest_without h hl _ q

theorem contrib_without (h : ∀ e ∈ s.effects, e.label = l → e.isStandard = false) (hl : l' ≠ l) :
    (∀ t, (s.without l).opOf sys σ l' t = s.opOf sys σ l' t) ∧ (s.without l).invOf σ l' = s.invOf σ l' := by
  refine ⟨fun t => ?_, ?_⟩
  · unfold System.opOf
    show ((s.comps.map (Comp.mapEff (EffDict.without l))).map _).sum = _
    rw [List.map_map]
    exact congrArg List.sum (List.map_congr_left fun c _ => (comp_without h hl _ c).1 t)
  · unfold System.invOf
    show ((s.comps.map (Comp.mapEff (EffDict.without l))).map _).sum = _
    rw [List.map_map]
    exact congrArg List.sum (List.map_congr_left fun c _ => (comp_without h hl sys.width c).2)

/-! ## Totals -/

/-- The shares that reach an effect other than `l`. -/
theorem shares_without {es : List EffectData} {sh : EffectData → List (String × Num)} (hsh : ∀ e : EffectData, sh (e.without l) = (sh e).filter fun q => q.1 ≠ l)
    (h : ∀ e ∈ es, e.label = l → sh e = []) (hl : l' ≠ l) (F : String → Num → ℚ) :
    (((es.filter fun e => e.label ≠ l).map (EffectData.without l)).map fun o => (((sh o).filter fun q => q.1 = l').map fun q => F o.label q.2).sum).sum =
      (es.map fun o => (((sh o).filter fun q => q.1 = l').map fun q => F o.label q.2).sum).sum := by
  have one : ∀ e : EffectData, (sh (e.without l)).filter (fun q => q.1 = l') = (sh e).filter fun q => q.1 = l' := by
    intro e
    rw [hsh, List.filter_filter]
    refine List.filter_congr fun q _ => ?_
    by_cases hq : q.1 = l'
    · simp [hq, hl]
    · simp [hq]
  induction es with
  | nil => rfl
  | cons e es ih =>
    have ih := ih fun x hx => h x (List.mem_cons_of_mem _ hx)
    by_cases he : e.label = l
    · rw [List.filter_cons_of_neg (by simpa using he), ih, List.map_cons, List.sum_cons, h e List.mem_cons_self he]
      simp
    · rw [List.filter_cons_of_pos (by simpa using he), List.map_cons, List.map_cons, List.sum_cons, ih, List.map_cons, List.sum_cons, one]
      rfl

theorem mem_without {es : List EffectData} {e' : EffectData} (h : e' ∈ (es.filter fun e => e.label ≠ l).map (EffectData.without l)) : ∃ e ∈ es, e.label ≠ l ∧ e' = e.without l := by
  obtain ⟨e, he, rfl⟩ := List.mem_map.1 h
  obtain ⟨h1, h2⟩ := List.mem_filter.1 he
  exact ⟨e, h1, by simpa using h2, rfl⟩

theorem balanced_without {es : List EffectData} {n : Nat} {T : Totals} {op op' : String → Nat → ℚ} {inv inv' : String → ℚ} (hw : ∀ e ∈ es, e.label = l → e.OnlyObserved)
    (hop : ∀ l', l' ≠ l → ∀ t, op' l' t = op l' t) (hinv : ∀ l', l' ≠ l → inv' l' = inv l') (h : T.Balanced es n op inv) :
    T.Balanced ((es.filter fun e => e.label ≠ l).map (EffectData.without l)) n op' inv' := by
  intro e' he'
  obtain ⟨e, he, hne, rfl⟩ := mem_without he'
  obtain ⟨h1, h2⟩ := h e he
  refine ⟨fun t ht => ?_, ?_⟩
  · show T.op e.label t = op' e.label t + _
    rw [hop _ hne, h1 t ht]
    exact congrArg _ (shares_without (sh := (·.shareOperation)) (fun _ => rfl) (fun x hx hl => (hw x hx hl).operation) hne fun a q => q.at t * T.op a t).symm
  · show T.inv e.label = inv' e.label + _
    rw [hinv _ hne, h2]
    exact congrArg _ (shares_without (sh := (·.shareInvest)) (fun _ => rfl) (fun x hx hl => (hw x hx hl).invest) hne fun a q => q.at 0 * T.inv a).symm

/-- The totals of all effects from those without `l`. -/
def Totals.observing (T : Totals) (es : List EffectData) (op : String → Nat → ℚ) (inv : String → ℚ) (l : String) : Totals where
  op a t := if a = l then op l t + (es.map fun o => ((o.shareOperation.filter fun q => q.1 = l).map fun q => q.2.at t * T.op o.label t).sum).sum else T.op a t
  inv a := if a = l then inv l + (es.map fun o => ((o.shareInvest.filter fun q => q.1 = l).map fun q => q.2.at 0 * T.inv o.label).sum).sum else T.inv a

theorem observing_sum {es : List EffectData} {sh : EffectData → List (String × Num)} (h : ∀ e ∈ es, e.label = l → sh e = []) {F G : String → Num → ℚ}
    (hFG : ∀ a, a ≠ l → ∀ q, F a q = G a q) (p : String) :
    (es.map fun o => (((sh o).filter fun q => q.1 = p).map fun q => F o.label q.2).sum).sum = (es.map fun o => (((sh o).filter fun q => q.1 = p).map fun q => G o.label q.2).sum).sum := by
  refine congrArg List.sum (List.map_congr_left fun o ho => ?_)
  by_cases he : o.label = l
  · rw [h o ho he]
    rfl
  · exact congrArg List.sum (List.map_congr_left fun q _ => hFG _ he q.2)

theorem balanced_observing {es : List EffectData} {n : Nat} {T : Totals} {op op' : String → Nat → ℚ} {inv inv' : String → ℚ} (hw : ∀ e ∈ es, e.label = l → e.OnlyObserved)
    (hop : ∀ l', l' ≠ l → ∀ t, op' l' t = op l' t) (hinv : ∀ l', l' ≠ l → inv' l' = inv l')
    (h : T.Balanced ((es.filter fun e => e.label ≠ l).map (EffectData.without l)) n op' inv') : (T.observing es op inv l).Balanced es n op inv := by
  have o1 : ∀ t a, a ≠ l → ∀ q : Num, q.at t * (T.observing es op inv l).op a t = q.at t * T.op a t := fun t a ha q => by simp [Totals.observing, ha]
  have o2 : ∀ a, a ≠ l → ∀ q : Num, q.at 0 * (T.observing es op inv l).inv a = q.at 0 * T.inv a := fun a ha q => by simp [Totals.observing, ha]
  intro e he
  by_cases hne : e.label = l
  · refine ⟨fun t ht => ?_, ?_⟩
    · rw [observing_sum (sh := (·.shareOperation)) (F := fun a q => q.at t * (T.observing es op inv l).op a t) (G := fun a q => q.at t * T.op a t) (fun x hx hl => (hw x hx hl).operation) (o1 t) e.label]
      simp [Totals.observing, hne]
    · rw [observing_sum (sh := (·.shareInvest)) (F := fun a q => q.at 0 * (T.observing es op inv l).inv a) (G := fun a q => q.at 0 * T.inv a) (fun x hx hl => (hw x hx hl).invest) o2 e.label]
      simp [Totals.observing, hne]
  · have hm : e.without l ∈ (es.filter fun e => e.label ≠ l).map (EffectData.without l) := List.mem_map_of_mem (List.mem_filter.2 ⟨he, by simpa using hne⟩)
    obtain ⟨h1, h2⟩ := h _ hm
    refine ⟨fun t ht => ?_, ?_⟩
    · rw [observing_sum (sh := (·.shareOperation)) (F := fun a q => q.at t * (T.observing es op inv l).op a t) (G := fun a q => q.at t * T.op a t) (fun x hx hl => (hw x hx hl).operation) (o1 t) e.label]
      have := h1 t ht
      rw [show (e.without l).label = e.label from rfl, hop _ hne] at this
      have e0 := shares_without (l := l) (sh := (·.shareOperation)) (fun _ => rfl) (fun x hx hl => (hw x hx hl).operation) hne fun a q => q.at t * T.op a t
      rw [show (T.observing es op inv l).op e.label t = T.op e.label t by simp [Totals.observing, hne], this]
      exact congrArg _ e0
    · rw [observing_sum (sh := (·.shareInvest)) (F := fun a q => q.at 0 * (T.observing es op inv l).inv a) (G := fun a q => q.at 0 * T.inv a) (fun x hx hl => (hw x hx hl).invest) o2 e.label]
      have := h2
      rw [show (e.without l).label = e.label from rfl, hinv _ hne] at this
      have e0 := shares_without (l := l) (sh := (·.shareInvest)) (fun _ => rfl) (fun x hx hl => (hw x hx hl).invest) hne fun a q => q.at 0 * T.inv a
      rw [show (T.observing es op inv l).inv e.label = T.inv e.label by simp [Totals.observing, hne], this]
      exact congrArg _ e0

end Flix
