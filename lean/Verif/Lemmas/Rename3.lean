import Verif.Lemmas.Rename2

namespace Flix

variable {L : String → String} {E : String → Prop} {el el' : String} {ρ : Renaming} {c : String} {sys : Sys}

/-! ## Flows -/

structure FlowOut.Like (L : String → String) (o o' : FlowOut) : Prop where
  rate : o'.flowRate = o.flowRate.rn L
  onOff : Option.Rel (OnOffOut.Like L) o.onOff o'.onOff
  invest : Option.Rel (InvestOut.Like L) o.invest o'.invest
  tree : o.tree.Like L o'.tree

theorem effSize_rename (cfg : Cfg) (f : FlowData) : (f.rename ρ c).effSize cfg = (f.effSize cfg).rename ρ.effect := by
  unfold FlowData.effSize FlowData.rename
  cases f.size <;> rfl

theorem absBounds_rename (cfg : Cfg) (f : FlowData) : (f.rename ρ c).absBounds cfg = f.absBounds cfg := by
  unfold FlowData.absBounds
  rw [effSize_rename]
  cases f.effSize cfg <;> rfl

def FlowData.SegIn (E : String → Prop) (f : FlowData) : Prop := ∀ q, f.size = .invest q → q.SegIn E

theorem FlowData.SegIn.eff {cfg : Cfg} {f : FlowData} (h : f.SegIn E) {q : InvestParams} (hq : f.effSize cfg = .invest q) : q.SegIn E := by
  refine h q ?_
  unfold FlowData.effSize at hq
  cases hs : f.size <;> rw [hs] at hq <;> simp_all

theorem optRel_toList {α β γ δ : Type} {R : α → β → Prop} {S : γ → δ → Prop} {f : α → γ} {g : β → δ} {x : Option α} {y : Option β} (h : Option.Rel R x y)
    (hf : ∀ a b, R a b → S (f a) (g b)) : List.Forall₂ S (x.map f).toList (y.map g).toList := by
  cases h with
  | none => exact .nil
  | some h => exact .cons (hf _ _ h) .nil

theorem loadFactor_rn {f : FlowData} {s : Var} {i i' : Option InvestOut} (hi : Option.Rel (InvestOut.Like L) i i') :
    ConsR L (loadFactorCons sys el f s i) (loadFactorCons sys el' (f.rename ρ c) (s.rn L) i') := by
  unfold loadFactorCons
  rw [effSize_rename, show (f.rename ρ c).loadFactorMax = f.loadFactorMax from rfl, show (f.rename ρ c).loadFactorMin = f.loadFactorMin from rfl]
  dsimp only
  refine List.rel_append ?_ ?_
  · cases f.loadFactorMax with
    | none => exact .nil
    | some lf =>
      refine .cons (like_ineq ?_) .nil
      cases hi with
      | none => cases f.effSize sys.cfg <;> rfl
      | some h => simp only [List.map_cons, List.map_nil, h.size]; rfl
  · cases f.loadFactorMin with
    | none => exact .nil
    | some lf =>
      refine .cons (like_ineq ?_) .nil
      cases hi with
      | none => cases f.effSize sys.cfg <;> rfl
      | some h => simp only [List.map_cons, List.map_nil, h.size]; rfl

theorem flow_rn (h : To L ρ.effect E el el') (f : FlowData) (hf : f.SegIn E) : ExR (FlowOut.Like L) (flowModel sys el f) (flowModel sys el' (f.rename ρ c)) := by
  unfold flowModel
  dsimp only
  refine ExR.bind (R := VarR L) ?_ fun rate _ e => ?_
  · unfold flowRateVar
    rw [absBounds_rename, show (f.rename ρ c).onOff = f.onOff.map (OnOffParams.rename ρ.effect) from rfl]
    cases f.onOff with
    | none => exact mkVar_rn (h.var2 (by decide +kernel)) _ _ _ _ _ _
    | some q => exact mkVar_rn (h.var2 (by decide +kernel)) _ _ _ _ _ _
  subst e
  refine ExR.bind (R := Option.Rel (OnOffOut.Like L)) ?_ fun on on' hon => ?_
  · unfold flowOnOff
    rw [absBounds_rename, show (f.rename ρ c).onOff = f.onOff.map (OnOffParams.rename ρ.effect) from rfl]
    cases f.onOff with
    | none => exact .ok .none
    | some q => exact ExR.map (onOff_rn q [(rate, f.absBounds sys.cfg)] h) fun _ _ k => .some k
  refine ExR.bind (R := Option.Rel (InvestOut.Like L)) ?_ fun inv inv' hinv => ?_
  · unfold flowInvest
    rw [effSize_rename]
    have e : on'.map (·.on) = (on.map (·.on)).map (Var.rn L) := by
      cases hon with
      | none => rfl
      | some k => simp [k.on]
    rw [e]
    cases hq : f.effSize sys.cfg with
    | num x => exact .ok .none
    | invest q => exact ExR.map (invest_rn h q (hf.eff hq) rate _ _ _ _) fun _ _ k => .some k
  refine ExR.bind (R := VarR L) (mkVar_rn (h.var2 (by decide +kernel)) _ _ _ _ _ _) fun sum _ e => ?_
  subst e
  refine ExR.bind sharesTo_rn fun _ _ _ => .ok ⟨rfl, hon, hinv, like_node rfl (.cons (like_eq rfl) (loadFactor_rn hinv)) (List.rel_append ?_ ?_)⟩
  · exact optRel_toList hon fun _ _ k => k.tree
  · exact optRel_toList hinv fun _ _ k => k.tree

/-! ## Components -/

abbrev FlowsR (L : String → String) (ρ : Renaming) (c : String) : List (FlowData × FlowOut) → List (FlowData × FlowOut) → Prop :=
  List.Forall₂ fun q q' => q'.1 = q.1.rename ρ c ∧ q.2.Like L q'.2

structure CompOut.Like (L : String → String) (ρ : Renaming) (c : String) (o o' : CompOut) : Prop where
  inputs : FlowsR L ρ c o.inputs o'.inputs
  outputs : FlowsR L ρ c o.outputs o'.outputs
  on : Option.Rel (OnOffOut.Like L) o.on o'.on
  vars : o'.vars = o.vars.map (Var.rn L)
  cons : ConsR L o.cons o'.cons
  subs : List.Forall₂ (MTree.Like L) o.subs o'.subs

theorem CompOut.Like.tree {o o' : CompOut} (h : o.Like L ρ c o') : o.tree.Like L o'.tree := like_node h.vars h.cons h.subs

theorem CompOut.Like.flows {o o' : CompOut} (h : o.Like L ρ c o') : FlowsR L ρ c o.flows o'.flows := List.rel_append h.inputs h.outputs

theorem fillOnOff_rename (d : CompData) (hρ : Function.Injective (ρ.flow d.label)) (f : FlowData) :
    fillOnOff (d.rename ρ) (f.rename ρ d.label) = (fillOnOff d f).rename ρ d.label := by
  unfold fillOnOff
  have e1 : (d.rename ρ).onOff.isSome = d.onOff.isSome := by simp [CompData.rename]
  have e2 : decide ((f.rename ρ d.label).label ∈ (d.rename ρ).prevent) = decide (f.label ∈ d.prevent) := by
    rw [decide_eq_decide]
    exact List.mem_map_of_injective hρ
  have e3 : (f.rename ρ d.label).onOff.isNone = f.onOff.isNone := by simp [FlowData.rename]
  rw [e1, e2, e3]
  split <;> rfl

theorem fillOnOff_rnLabel (d : CompData) (f : FlowData) : (fillOnOff d f).label = f.label := by
  unfold fillOnOff; split <;> rfl

theorem fillOnOff_segIn {d : CompData} {f : FlowData} (h : f.SegIn E) : (fillOnOff d f).SegIn E := by
  unfold fillOnOff; split <;> exact h

/-- All variables of a component and its flows are renamed. -/
structure CompTo (L : String → String) (ρ : Renaming) (E : String → Prop) (c : String) (fs : List FlowData) : Prop where
  own : To L ρ.effect E c (ρ.comp c)
  flows : ∀ f ∈ fs, To L ρ.effect E (flowFull c f.label) (flowFull (ρ.comp c) (ρ.flow c f.label))
  segs : ∀ f ∈ fs, f.SegIn E

theorem compFlow_rn {d : CompData} (hρ : Function.Injective (ρ.flow d.label)) {f : FlowData} (h : To L ρ.effect E (flowFull d.label f.label) (flowFull (ρ.comp d.label) (ρ.flow d.label f.label)))
    (hs : f.SegIn E) : ExR (fun q q' => q'.1 = q.1.rename ρ d.label ∧ q.2.Like L q'.2) (compFlow sys d f) (compFlow sys (d.rename ρ) (f.rename ρ d.label)) := by
  unfold compFlow
  dsimp only
  rw [fillOnOff_rename d hρ]
  have hl := fillOnOff_rnLabel d f
  refine ExR.bind (R := FlowOut.Like L) ?_ fun o o' ho => .ok ⟨rfl, ho⟩
  refine flow_rn ?_ _ (fillOnOff_segIn hs)
  rw [hl]
  show To _ _ _ _ (flowFull (ρ.comp d.label) (ρ.flow d.label (fillOnOff d f).label))
  rw [hl]
  exact h

theorem onOf_rn (hρ : Function.Injective (ρ.flow c)) {fs fs' : List (FlowData × FlowOut)} (h : FlowsR L ρ c fs fs') (l : String) : ExR (VarR L) (onOf fs l) (onOf fs' (ρ.flow c l)) := by
  unfold onOf
  induction h with
  | nil => exact .error _
  | @cons q q' qs qs' hh ht ih =>
    rw [List.find?_cons, List.find?_cons]
    have e : (q'.1.label == ρ.flow c l) = (q.1.label == l) := by
      rw [hh.1]
      show (ρ.flow c q.1.label == ρ.flow c l) = _
      rw [Bool.eq_iff_iff, beq_iff_eq, beq_iff_eq, hρ.eq_iff]
    rw [e]
    cases q.1.label == l with
    | false => exact ih
    | true =>
      dsimp only
      have := hh.2.onOff
      revert this
      generalize q.2.onOff = x
      generalize q'.2.onOff = y
      rintro (hr | _)
      · exact .ok (by assumption : OnOffOut.Like L _ _).on
      · exact .error _

theorem comp_rn {d : CompData} (hρ : Function.Injective (ρ.flow d.label)) (h : CompTo L ρ E d.label (d.inputs ++ d.outputs)) :
    ExR (CompOut.Like L ρ d.label) (compModel sys d) (compModel sys (d.rename ρ)) := by
  unfold compModel
  refine ExR.bind (R := FlowsR L ρ d.label) (ExR.mapM (Q := fun a b => b = a.rename ρ d.label) (forall₂_map_right fun _ _ => rfl) ?_) fun ins ins' hins => ?_
  · rintro f _ hf rfl
    exact compFlow_rn hρ (h.flows f (List.mem_append_left _ hf)) (h.segs f (List.mem_append_left _ hf))
  refine ExR.bind (R := FlowsR L ρ d.label) (ExR.mapM (Q := fun a b => b = a.rename ρ d.label) (forall₂_map_right fun _ _ => rfl) ?_) fun outs outs' houts => ?_
  · rintro f _ hf rfl
    exact compFlow_rn hρ (h.flows f (List.mem_append_right _ hf)) (h.segs f (List.mem_append_right _ hf))
  have hfl : FlowsR L ρ d.label (ins ++ outs) (ins' ++ outs') := List.rel_append hins houts
  dsimp only
  refine ExR.bind (R := Option.Rel (OnOffOut.Like L)) ?_ fun on on' hon => ?_
  · unfold compOnOff
    rw [show (d.rename ρ).onOff = d.onOff.map (OnOffParams.rename ρ.effect) from rfl]
    cases d.onOff with
    | none => exact .ok .none
    | some q =>
      refine ExR.map (R := OnOffOut.Like L) ?_ fun _ _ k => .some k
      have e : ((ins' ++ outs').map fun q => (q.2.flowRate, q.1.absBounds sys.cfg)) = ((ins ++ outs).map fun q => (q.2.flowRate, q.1.absBounds sys.cfg)).map fun d => (d.1.rn L, d.2) := by
        clear hins houts
        generalize ins ++ outs = a at hfl
        generalize ins' ++ outs' = b at hfl
        induction hfl with
        | nil => rfl
        | cons hh _ ih => simp only [List.map_cons, ih, hh.1, hh.2.rate, absBounds_rename]
      rw [e]
      exact onOff_rn q _ h.own
  refine ExR.bind (R := List.Forall₂ (MTree.Like L)) ?_ fun prev prev' hprev => ?_
  · unfold compPrevent
    rw [show (d.rename ρ).prevent = d.prevent.map (ρ.flow d.label) from rfl, List.isEmpty_map]
    split
    · exact .ok .nil
    · refine ExR.bind (ExR.mapM (Q := fun a b => b = ρ.flow d.label a) (R := VarR L) (forall₂_map_right fun _ _ => rfl) ?_) fun ons ons' hons => ?_
      · rintro l _ _ rfl
        exact onOf_rn hρ hfl l
      · have := forall₂_rn_map hons
        subst this
        exact ExR.bind (prevent_rn ons) fun _ _ k => .ok (.cons k .nil)
  refine .ok ⟨hins, houts, hon, rfl, .nil, List.rel_append (List.rel_append ?_ ?_) hprev⟩
  · rw [List.forall₂_map_left_iff, List.forall₂_map_right_iff]
    exact hfl.imp fun _ _ k => k.2.tree
  · exact optRel_toList hon fun _ _ k => k.tree

/-! ## Converters -/

theorem factors_get (hρ : Function.Injective (ρ.flow c)) (fs : Factors) (l : String) : Factors.get (fs.map fun q => (ρ.flow c q.1, q.2)) (ρ.flow c l) = Factors.get fs l := by
  unfold Factors.get
  rw [List.find?_map]
  have : ((fun q : String × Num => q.1 == ρ.flow c l) ∘ fun q : String × Num => (ρ.flow c q.1, q.2)) = fun q : String × Num => q.1 == l := by
    funext q
    show (ρ.flow c q.1 == ρ.flow c l) = _
    rw [Bool.eq_iff_iff, beq_iff_eq, beq_iff_eq, hρ.eq_iff]
  rw [this]
  cases fs.find? (fun q => q.1 == l) <;> rfl

theorem conversionOps_rn (hρ : Function.Injective (ρ.flow c)) {a a' b b' : List (FlowData × FlowOut)} (ha : FlowsR L ρ c a a') (hb : FlowsR L ρ c b b') (fs : Factors) :
    conversionOps a' b' (fs.map fun q => (ρ.flow c q.1, q.2)) = (conversionOps a b fs).map (Op.rn L) := by
  have key : ∀ (g : Num → Num) {a a' : List (FlowData × FlowOut)}, FlowsR L ρ c a a' →
      a'.filterMap (fun q => (Factors.get (fs.map fun q => (ρ.flow c q.1, q.2)) q.1.label).map fun f => sAll q.2.flowRate (g f)) =
        (a.filterMap fun q => (fs.get q.1.label).map fun f => sAll q.2.flowRate (g f)).map (Op.rn L) := by
    intro g a a' h
    induction h with
    | nil => rfl
    | @cons q q' qs qs' hh _ ih =>
      rw [List.filterMap_cons, List.filterMap_cons, ih, hh.1]
      rw [show (q.1.rename ρ c).label = ρ.flow c q.1.label from rfl, factors_get hρ]
      cases fs.get q.1.label with
      | none => rfl
      | some f => simp only [Option.map_some, List.map_cons, hh.2.rate]; rfl
  unfold conversionOps
  rw [List.map_append, List.map_append]
  exact congrArg₂ _ (congrArg₂ _ (key id ha) (key (fun f => f.map (-1 * ·)) hb)) rfl

theorem segmentPoints_rn (hρ : Function.Injective (ρ.flow c)) {a a' : List (FlowData × FlowOut)} (ha : FlowsR L ρ c a a') (segs : List (String × List (Num × Num))) :
    ExR (fun x y => y = x.map fun q => (q.1.rn L, q.2)) (segmentPoints a segs) (segmentPoints a' (segs.map fun q => (ρ.flow c q.1, q.2))) := by
  unfold segmentPoints
  refine (ExR.mapM (R := fun x y => y = (x.1.rn L, x.2)) ha ?_).imp fun _ _ k => forall₂_rn_map k
  intro q q' _ hh
  rw [List.find?_map]
  have : ((fun r : String × List (Num × Num) => r.1 == q'.1.label) ∘ fun q : String × List (Num × Num) => (ρ.flow c q.1, q.2)) = fun r : String × List (Num × Num) => r.1 == q.1.label := by
    funext r
    rw [hh.1]
    show (ρ.flow c r.1 == ρ.flow c q.1.label) = _
    rw [Bool.eq_iff_iff, beq_iff_eq, beq_iff_eq, hρ.eq_iff]
  rw [this]
  cases segs.find? (fun r => r.1 == q.1.label) with
  | none => exact .error _
  | some r => exact .ok (by rw [hh.2.rate])

theorem converter_rn {d : ConvData} (hρ : Function.Injective (ρ.flow d.comp.label)) (h : CompTo L ρ E d.comp.label (d.comp.inputs ++ d.comp.outputs)) :
    ExR (CompOut.Like L ρ d.comp.label) (converterModel sys d) (converterModel sys (d.rename ρ)) := by
  unfold converterModel
  refine ExR.bind (comp_rn hρ h) fun o o' ho => ?_
  rw [show (d.rename ρ).factors = d.factors.map (fun fs => fs.map fun q => (ρ.flow d.comp.label q.1, q.2)) from rfl, List.isEmpty_map]
  split
  · refine .ok ⟨ho.inputs, ho.outputs, ho.on, ho.vars, List.rel_append ho.cons ?_, ho.subs⟩
    rw [List.forall₂_iff_get]
    refine ⟨by simp, fun i h1 h2 => ?_⟩
    simp only [List.get_eq_getElem, List.getElem_mapIdx, List.getElem_map]
    exact like_eq (conversionOps_rn hρ ho.inputs ho.outputs _)
  · refine ExR.bind (segmentPoints_rn hρ ho.flows d.segments) fun pts _ e => ?_
    subst e
    refine ExR.bind (multiple_rn h.own pts ?_) fun t t' ht => .ok ⟨ho.inputs, ho.outputs, ho.on, ho.vars, ho.cons, List.rel_append ho.subs (.cons ht .nil)⟩
    have := ho.on
    revert this
    generalize o.on = x
    generalize o'.on = y
    intro k
    cases k with
    | none => exact .no
    | some k => dsimp only; rw [k.on]; exact .use _

/-! ## Storages -/

theorem storage_comp_rename (s : StorageData) : (s.rename ρ).comp = s.comp.rename ρ := by
  unfold StorageData.comp StorageData.rename CompData.rename
  dsimp only
  cases s.preventSimultaneous <;> rfl

theorem storageFlows_rn {o o' : CompOut} (h : o.Like L ρ c o') : ExR (fun x y => x.1.Like L y.1 ∧ x.2.Like L y.2) (storageFlows o) (storageFlows o') := by
  unfold storageFlows
  have hi := h.inputs
  have ho := h.outputs
  revert hi ho
  generalize o.inputs = a
  generalize o'.inputs = a'
  generalize o.outputs = b
  generalize o'.outputs = b'
  intro hi ho
  cases hi with
  | nil => exact .error _
  | cons h1 t1 =>
    cases t1 with
    | cons _ _ => exact .error _
    | nil =>
      cases ho with
      | nil => exact .error _
      | cons h2 t2 =>
        cases t2 with
        | cons _ _ => exact .error _
        | nil => exact .ok ⟨h1.2, h2.2⟩

theorem storage_rn {s : StorageData} (hρ : Function.Injective (ρ.flow s.label)) (h : CompTo L ρ E s.label [s.charging, s.discharging]) (hs : ∀ q, s.capacity = .invest q → q.SegIn E) :
    ExR (fun o o' => o.comp.Like L ρ s.label o'.comp) (storageModel sys s) (storageModel sys (s.rename ρ)) := by
  unfold storageModel
  rw [storage_comp_rename]
  refine ExR.bind (comp_rn (d := s.comp) hρ h) fun o o' ho => ?_
  refine ExR.bind (storageFlows_rn ho) fun ab ab' hab => ?_
  obtain ⟨a, b⟩ := ab
  obtain ⟨a', b'⟩ := ab'
  obtain ⟨ha, hb⟩ := hab
  dsimp only at ha hb ⊢
  have e : (s.rename ρ).absBounds sys.cfg = s.absBounds sys.cfg := by
    unfold StorageData.absBounds StorageData.rename
    dsimp only
    cases s.capacity <;> rfl
  rw [e]
  refine ExR.bind (R := VarR L) (mkVar_rn (h.own.var2 (by decide +kernel)) _ _ _ _ _ _) fun v _ e => ?_
  subst e
  refine ExR.bind (R := VarR L) (mkVar_rn (h.own.var2 (by decide +kernel)) _ _ _ _ _ _) fun nd _ e => ?_
  subst e
  refine ExR.bind (R := ConReq.Like L) ?_ fun cc cc' hcc => ?_
  · unfold chargeCon
    dsimp only
    refine ExR.bind (R := Eq) (ExR.refl (fun _ => rfl) (Num.mul s.relLoss (.v sys.dt))) fun _ _ e => ?_
    subst e
    refine ExR.bind (R := Eq) (ExR.refl (fun _ => rfl) (Num.mul (s.etaCharge.map (-1 * ·)) (.v sys.dt))) fun _ _ e => ?_
    subst e
    refine ExR.bind (R := Eq) (ExR.refl (fun _ => rfl) s.etaDischarge.inv) fun _ _ e => ?_
    subst e
    refine ExR.bind (R := Eq) (ExR.refl (fun _ => rfl) _) fun _ _ e => ?_
    subst e
    rw [ha.rate, hb.rate]
    exact .ok (like_eq rfl)
  refine ExR.bind (R := Option.Rel (InvestOut.Like L)) ?_ fun inv inv' hinv => ?_
  · unfold storageInvest
    rw [show (s.rename ρ).capacity = s.capacity.rename ρ.effect from rfl]
    cases hq : s.capacity with
    | num x => exact .ok .none
    | invest q => exact ExR.map (invest_rn h.own q (hs q hq) v _ _ none none) fun _ _ k => .some k
  refine ExR.bind (R := ConsR L) ?_ fun ci ci' hci => ?_
  · have hfin : ConsR L (finalCons sys s v) (finalCons sys (s.rename ρ) (v.rn L)) := by
      unfold finalCons
      rw [show (s.rename ρ).maxFinal = s.maxFinal from rfl, show (s.rename ρ).minFinal = s.minFinal from rfl]
      refine List.rel_append ?_ ?_
      · cases s.maxFinal with
        | none => exact .nil
        | some m => exact .cons (like_ineq rfl) .nil
      · cases s.minFinal with
        | none => exact .nil
        | some m => exact .cons (like_ineq rfl) .nil
    unfold initialFinalCons
    rw [show (s.rename ρ).initial = s.initial from rfl]
    cases s.initial with
    | none => exact .ok .nil
    | num x => exact .ok (.cons (like_eq rfl) hfin)
    | lastValueOfSim =>
      dsimp only
      split
      · exact .error _
      · exact .ok (.cons (like_eq rfl) hfin)
    | other => exact .error _
  refine .ok ⟨ho.inputs, ho.outputs, ho.on, ?_, ?_, ?_⟩
  · dsimp only; rw [ho.vars]; simp
  · refine List.rel_append (List.rel_append ho.cons (.cons (like_eq ?_) (.cons hcc .nil))) hci
    rw [ha.rate, hb.rate]; rfl
  · exact List.rel_append ho.subs (optRel_toList hinv fun _ _ k => k.tree)

/-! ## Transmissions -/

theorem trans_fill_rename (t : TransData) (f : FlowData) : (t.rename ρ).fill (f.rename ρ t.label) = (t.fill f).rename ρ t.label := by
  unfold TransData.fill
  rw [show (t.rename ρ).absLosses = t.absLosses from rfl]
  cases t.absLosses with
  | none => rfl
  | some a =>
    dsimp only
    rw [show (f.rename ρ t.label).onOff.isNone = f.onOff.isNone by simp [FlowData.rename]]
    split <;> rfl

theorem trans_fillIn2_rename (cfg : Cfg) (t : TransData) (f : FlowData) : (t.rename ρ).fillIn2 cfg (f.rename ρ t.label) = (t.fillIn2 cfg f).rename ρ t.label := by
  unfold TransData.fillIn2
  rw [show (t.rename ρ).in1.size = t.in1.size.rename ρ.effect from rfl, show (f.rename ρ t.label).size = f.size.rename ρ.effect from rfl]
  cases t.in1.size <;> cases hf : f.size <;> first | rfl | (unfold FlowData.rename; rw [hf]; rfl) | simp [SizeArg.rename, FlowData.rename, hf, InvestParams.rename, EffDict.rename, InvestParams.maxSize]

theorem trans_comp_rename (cfg : Cfg) (t : TransData) : (t.rename ρ).comp cfg = (t.comp cfg).rename ρ := by
  unfold TransData.comp CompData.rename
  dsimp only
  congr 1
  · rw [List.map_cons]
    refine congrArg₂ _ (trans_fill_rename t _) ?_
    rw [show (t.rename ρ).in2 = t.in2.map (FlowData.rename ρ t.label) from rfl]
    cases t.in2 with
    | none => rfl
    | some f => simp [trans_fill_rename, trans_fillIn2_rename]
  · rw [List.map_cons]
    refine congrArg₂ _ (trans_fill_rename t _) ?_
    rw [show (t.rename ρ).out2 = t.out2.map (FlowData.rename ρ t.label) from rfl]
    cases t.out2 with
    | none => rfl
    | some f => simp [trans_fill_rename]
  · rw [show (t.rename ρ).in2 = t.in2.map (FlowData.rename ρ t.label) from rfl, show (t.rename ρ).preventBoth = t.preventBoth from rfl]
    cases t.in2 with
    | none => rfl
    | some f =>
      dsimp only [Option.map_some]
      split <;> rfl

theorem trans_fill_label (t : TransData) (f : FlowData) : (t.fill f).label = f.label ∧ (t.fill f).size = f.size := by
  unfold TransData.fill
  cases t.absLosses with
  | none => exact ⟨rfl, rfl⟩
  | some a => dsimp only; split <;> exact ⟨rfl, rfl⟩

theorem trans_fillIn2_label (cfg : Cfg) (t : TransData) (f : FlowData) :
    (t.fillIn2 cfg f).label = f.label ∧ (f.SegIn E → (t.fillIn2 cfg f).SegIn E) := by
  unfold TransData.fillIn2
  split
  · exact ⟨rfl, id⟩
  · refine ⟨rfl, fun _ q hq => ?_⟩
    cases hq
    intro xs rs h
    cases h
  · exact ⟨rfl, id⟩

theorem transCon_rn {t : TransData} {n : String} {i i' o o' : FlowOut} (hi : i.Like L i') (ho : o.Like L o') : ExR (ConReq.Like L) (transCon t n i o) (transCon (t.rename ρ) n i' o') := by
  unfold transCon
  refine ExR.bind (R := fun x y => y = x.map (Op.rn L)) ?_ fun x y e => ?_
  · unfold absLossOps
    rw [show (t.rename ρ).absLosses = t.absLosses from rfl]
    cases t.absLosses with
    | none => exact .ok rfl
    | some a =>
      refine ExR.bind (R := VarR L) ?_ fun v _ e => ?_
      · unfold FlowOut.onVar
        have := hi.onOff
        revert this
        generalize i.onOff = x
        generalize i'.onOff = y
        intro k
        cases k with
        | none => exact .error _
        | some k => exact .ok k.on
      · subst e
        exact .ok rfl
  · subst e
    refine .ok (like_eq ?_)
    rw [hi.rate, ho.rate, List.map_append]
    rfl

theorem transFlows_rn {o o' : CompOut} (h : o.Like L ρ c o') :
    ExR (fun x y => x.1.Like L y.1 ∧ Option.Rel (FlowOut.Like L) x.2.1 y.2.1 ∧ x.2.2.1.Like L y.2.2.1 ∧ Option.Rel (FlowOut.Like L) x.2.2.2 y.2.2.2) (transFlows o) (transFlows o') := by
  unfold transFlows
  have hi := h.inputs
  have ho := h.outputs
  revert hi ho
  generalize o.inputs = a
  generalize o'.inputs = a'
  generalize o.outputs = b
  generalize o'.outputs = b'
  intro hi ho
  have head : ∀ {a a' : List (FlowData × FlowOut)}, FlowsR L ρ c a a' → Option.Rel (FlowOut.Like L) (a.head?.map (·.2)) (a'.head?.map (·.2)) := by
    intro a a' h
    cases h with
    | nil => exact .none
    | cons hh _ => exact .some hh.2
  cases hi with
  | nil => exact .error _
  | cons h1 t1 =>
    cases ho with
    | nil => exact .error _
    | cons h2 t2 => exact .ok ⟨h1.2, head t1, h2.2, head t2⟩

theorem transSecond_rn {t : TransData} {i1 i1' : FlowOut} {i2 i2' o2 o2' : Option FlowOut} (h1 : i1.Like L i1') (h2 : Option.Rel (FlowOut.Like L) i2 i2') (h3 : Option.Rel (FlowOut.Like L) o2 o2') :
    ExR (ConsR L) (transSecond t i1 i2 o2) (transSecond (t.rename ρ) i1' i2' o2') := by
  unfold transSecond
  cases h2 with
  | none => exact .ok .nil
  | some h2 =>
    cases h3 with
    | none => exact .error _
    | some h3 =>
      dsimp only
      refine ExR.bind (transCon_rn h2 h3) fun c2 c2' hc2 => ?_
      rw [show (t.rename ρ).in1.size = t.in1.size.rename ρ.effect from rfl]
      cases t.in1.size with
      | unset => exact .ok (.cons hc2 .nil)
      | num x => exact .ok (.cons hc2 .nil)
      | invest q =>
        have k1 := h1.invest
        have k2 := h2.invest
        dsimp only [SizeArg.rename]
        revert k1 k2
        generalize i1.invest = x
        generalize i1'.invest = y
        generalize FlowOut.invest _ = z
        generalize FlowOut.invest _ = w
        intro k1 k2
        cases k1 with
        | none => exact .error _
        | some k1 =>
          cases k2 with
          | none => exact .error _
          | some k2 =>
            refine .ok (.cons hc2 (.cons (like_eq ?_) .nil))
            rw [k1.size, k2.size]
            rfl

theorem trans_rn {t : TransData} (hρ : Function.Injective (ρ.flow t.label)) (h : CompTo L ρ E t.label ((Comp.transmission t).flows)) :
    ExR (fun o o' => o.comp.Like L ρ t.label o'.comp) (transmissionModel sys t) (transmissionModel sys (t.rename ρ)) := by
  unfold transmissionModel
  rw [trans_comp_rename]
  have hc : CompTo L ρ E (t.comp sys.cfg).label ((t.comp sys.cfg).inputs ++ (t.comp sys.cfg).outputs) := by
    have key : ∀ f ∈ (t.comp sys.cfg).inputs ++ (t.comp sys.cfg).outputs, ∃ g ∈ (Comp.transmission t).flows, f.label = g.label ∧ (g.SegIn E → f.SegIn E) := by
      have fl : ∀ g : FlowData, (t.fill g).label = g.label ∧ (g.SegIn E → (t.fill g).SegIn E) := fun g =>
        ⟨(trans_fill_label t g).1, fun h q hq => h q (by rw [← (trans_fill_label t g).2]; exact hq)⟩
      intro f hf
      simp only [TransData.comp, List.mem_append, List.mem_cons, Option.mem_toList, Option.map_eq_some_iff] at hf
      rcases hf with (rfl | ⟨g, hg, rfl⟩) | (rfl | ⟨g, hg, rfl⟩)
      · exact ⟨t.in1, by simp [Comp.flows, Comp.inputs], fl _⟩
      · exact ⟨g, by simp [Comp.flows, Comp.inputs, hg], (trans_fillIn2_label sys.cfg t _ (E := E)).1.trans (fl g).1, fun k => (trans_fillIn2_label sys.cfg t _).2 ((fl g).2 k)⟩
      · exact ⟨t.out1, by simp [Comp.flows, Comp.outputs], fl _⟩
      · exact ⟨g, by simp [Comp.flows, Comp.outputs, hg], fl g⟩
    refine ⟨h.own, fun f hf => ?_, fun f hf => ?_⟩
    · obtain ⟨g, hg, e, _⟩ := key f hf
      rw [e]
      exact h.flows g hg
    · obtain ⟨g, hg, _, k⟩ := key f hf
      exact k (h.segs g hg)
  refine ExR.bind (comp_rn (d := t.comp sys.cfg) hρ hc) fun o o' ho => ?_
  refine ExR.bind (transFlows_rn ho) fun x y hxy => ?_
  obtain ⟨i1, i2, o1, o2⟩ := x
  obtain ⟨i1', i2', o1', o2'⟩ := y
  obtain ⟨k1, k2, k3, k4⟩ := hxy
  dsimp only at k1 k2 k3 k4 ⊢
  refine ExR.bind (transCon_rn k1 k3) fun c1 c1' hc1 => ?_
  refine ExR.bind (transSecond_rn k1 k2 k4) fun c2 c2' hc2 => ?_
  exact .ok ⟨ho.inputs, ho.outputs, ho.on, ho.vars, List.rel_append (List.rel_append ho.cons (.cons hc1 .nil)) hc2, ho.subs⟩

/-- Any component: its model under the new names is the old model with other labels. -/
theorem model_rn {k : Comp} (hρ : Function.Injective (ρ.flow k.label)) (h : CompTo L ρ E k.label k.flows) (hs : ∀ s q, k = .storage s → s.capacity = .invest q → q.SegIn E) :
    ExR (CompOut.Like L ρ k.label) (k.model sys) ((k.rename ρ).model sys) := by
  cases k with
  | plain d => exact comp_rn hρ h
  | converter d => exact converter_rn hρ h
  | storage s => exact ExR.map (storage_rn hρ h fun q => hs s q rfl) fun _ _ k => k
  | transmission t => exact ExR.map (trans_rn hρ h) fun _ _ k => k

end Flix
