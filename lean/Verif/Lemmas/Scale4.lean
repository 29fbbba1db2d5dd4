import Verif.Lemmas.Scale3

namespace Flix

variable {κ : String → ℚ} {k : ℚ} {E : String → Prop} {el c : String} {sys : Sys}

/-! ## Components -/

abbrev FlowsS (κ : String → ℚ) (k : ℚ) : List (FlowData × FlowOut) → List (FlowData × FlowOut) → Prop :=
  List.Forall₂ fun q q' => q'.1 = q.1.inUnit k ∧ q.2.Sc κ k q'.2

structure CompOut.Sc (κ : String → ℚ) (k : ℚ) (o o' : CompOut) : Prop where
  inputs : FlowsS κ k o.inputs o'.inputs
  outputs : FlowsS κ k o.outputs o'.outputs
  on : Option.Rel (OnOffOut.Sc κ) o.on o'.on
  vars : List.Forall₂ (VarS κ) o.vars o'.vars
  cons : ConsS κ o.cons o'.cons
  subs : List.Forall₂ (MTree.Sc κ) o.subs o'.subs

theorem CompOut.Sc.tree {o o' : CompOut} (h : o.Sc κ k o') : o.tree.Sc κ o'.tree := sc_node h.vars h.cons h.subs

theorem CompOut.Sc.flows {o o' : CompOut} (h : o.Sc κ k o') : FlowsS κ k o.flows o'.flows := List.rel_append h.inputs h.outputs

theorem fillOnOff_inUnit (d : CompData) (f : FlowData) : fillOnOff (d.inUnit k) (f.inUnit k) = (fillOnOff d f).inUnit k := by
  unfold fillOnOff
  rw [show (d.inUnit k).onOff = d.onOff from rfl, show (d.inUnit k).prevent = d.prevent from rfl, show (f.inUnit k).label = f.label from rfl, show (f.inUnit k).onOff = f.onOff from rfl]
  split <;> rfl

/-- The factors of all variables of a component and its flows. -/
structure CompSc (κ : String → ℚ) (k : ℚ) (E : String → Prop) (c : String) (fs : List FlowData) : Prop where
  own : ScEl κ k E c
  flows : ∀ f ∈ fs, ScEl κ k E (flowFull c f.label)
  segs : ∀ f ∈ fs, f.SegIn E

theorem compFlow_sc (hu : UnitOk sys k) {d : CompData} {f : FlowData} (h : ScEl κ k E (flowFull d.label f.label)) (hs : f.SegIn E) :
    ExR (fun q q' => q'.1 = q.1.inUnit k ∧ q.2.Sc κ k q'.2) (compFlow sys d f) (compFlow (sys.inUnit k) (d.inUnit k) (f.inUnit k)) := by
  unfold compFlow
  dsimp only
  rw [fillOnOff_inUnit d]
  have hl := fillOnOff_rnLabel d f
  refine ExR.bind (R := FlowOut.Sc κ k) ?_ fun o o' ho => .ok ⟨rfl, ho⟩
  refine flow_sc hu ?_ _ (fillOnOff_segIn hs)
  rw [hl]
  exact h

theorem onOf_sc {fs fs' : List (FlowData × FlowOut)} (h : FlowsS κ k fs fs') (l : String) : ExR (fun a b => b = a ∧ κ a.label = 1) (onOf fs l) (onOf fs' l) := by
  unfold onOf
  induction h with
  | nil => exact .error _
  | @cons q q' qs qs' hh ht ih =>
    rw [List.find?_cons, List.find?_cons]
    have e : (q'.1.label == l) = (q.1.label == l) := by rw [hh.1]; rfl
    rw [e]
    cases q.1.label == l with
    | false => exact ih
    | true =>
      dsimp only
      have := hh.2.onOff
      revert this
      generalize q.2.onOff = x
      generalize q'.2.onOff = y
      intro hr
      cases hr with
      | some hr => exact .ok ⟨hr.on, hr.fac⟩
      | none => exact .error _

theorem comp_sc (hu : UnitOk sys k) {d : CompData} (h : CompSc κ k E d.label (d.inputs ++ d.outputs)) :
    ExR (CompOut.Sc κ k) (compModel sys d) (compModel (sys.inUnit k) (d.inUnit k)) := by
  unfold compModel
  refine ExR.bind (R := FlowsS κ k) (ExR.mapM (Q := fun a b => b = a.inUnit k) (forall₂_map_right fun _ _ => rfl) ?_) fun ins ins' hins => ?_
  · rintro f _ hf rfl
    exact compFlow_sc hu (h.flows f (List.mem_append_left _ hf)) (h.segs f (List.mem_append_left _ hf))
  refine ExR.bind (R := FlowsS κ k) (ExR.mapM (Q := fun a b => b = a.inUnit k) (forall₂_map_right fun _ _ => rfl) ?_) fun outs outs' houts => ?_
  · rintro f _ hf rfl
    exact compFlow_sc hu (h.flows f (List.mem_append_right _ hf)) (h.segs f (List.mem_append_right _ hf))
  have hfl : FlowsS κ k (ins ++ outs) (ins' ++ outs') := List.rel_append hins houts
  dsimp only
  refine ExR.bind (R := Option.Rel (OnOffOut.Sc κ)) ?_ fun on on' hon => ?_
  · unfold compOnOff
    rw [show (d.inUnit k).onOff = d.onOff from rfl]
    cases d.onOff with
    | none => exact .ok .none
    | some q =>
      refine ExR.map (R := OnOffOut.Sc κ) ?_ fun _ _ k => .some k
      refine onOff_sc hu q ?_ h.own
      rw [List.forall₂_map_left_iff, List.forall₂_map_right_iff]
      refine hfl.imp fun a b hh => ⟨hh.2.rate, ?_⟩
      rw [hh.1]
      exact absBounds_sc hu.pos sys.cfg a.1
  refine ExR.bind (R := List.Forall₂ (MTree.Sc κ)) ?_ fun prev prev' hprev => ?_
  · unfold compPrevent
    rw [show (d.inUnit k).prevent = d.prevent from rfl]
    split
    · exact .ok .nil
    · refine ExR.bind (ExR.mapM (Q := Eq) (R := fun a b => b = a ∧ κ a.label = 1) (List.forall₂_same.2 fun _ _ => rfl) ?_) fun ons ons' hons => ?_
      · rintro l _ _ rfl
        exact onOf_sc hfl l
      · have e : ons' = ons := by
          induction hons with
          | nil => rfl
          | cons hh _ ih => rw [hh.1, ih]
        subst e
        exact ExR.bind (prevent_sc fun v hv => (List.forall₂_same.1 hons v hv).2) fun _ _ k => .ok (.cons k .nil)
  refine .ok ⟨hins, houts, hon, .nil, .nil, List.rel_append (List.rel_append ?_ ?_) hprev⟩
  · rw [List.forall₂_map_left_iff, List.forall₂_map_right_iff]
    exact hfl.imp fun _ _ k => k.2.tree
  · exact optRel_toList hon fun _ _ k => k.tree

/-! ## Converters -/

theorem conversionOps_sc (hk : 0 < k) {a a' b b' : List (FlowData × FlowOut)} (ha : FlowsS κ k a a') (hb : FlowsS κ k b b') (fs : Factors) :
    OpsR κ k (conversionOps a b fs) (conversionOps a' b' fs) := by
  have key : ∀ (g : Num → Num) {a a' : List (FlowData × FlowOut)}, FlowsS κ k a a' →
      OpsR κ k (a.filterMap fun q => (fs.get q.1.label).map fun f => sAll q.2.flowRate (g f)) (a'.filterMap fun q => (fs.get q.1.label).map fun f => sAll q.2.flowRate (g f)) := by
    intro g a a' h
    unfold OpsR
    induction h with
    | nil => exact .nil
    | @cons q q' qs qs' hh _ ih =>
      rw [List.filterMap_cons, List.filterMap_cons, hh.1, show (q.1.inUnit k).label = q.1.label from rfl]
      cases fs.get q.1.label with
      | none => exact ih
      | some f => exact .cons (op_k hk hh.2.rate) ih
  unfold conversionOps
  have h1 := key id ha
  have h2 := key (fun f => f.map (-1 * ·)) hb
  unfold OpsR at h1 h2 ⊢
  refine List.rel_append (List.rel_append h1 h2) ?_
  exact .cons (op_c (by simp [Num.map])) .nil

theorem segmentPoints_sc {a a' : List (FlowData × FlowOut)} (ha : FlowsS κ k a a') (segs : List (String × List (Num × Num))) :
    ExR (List.Forall₂ (PtR κ k)) (segmentPoints a segs) (segmentPoints a' (segs.map fun q => (q.1, ptsIn k q.2))) := by
  unfold segmentPoints
  refine ExR.mapM ha ?_
  intro q q' _ hh
  rw [List.find?_map]
  have : ((fun r : String × List (Num × Num) => r.1 == q'.1.label) ∘ fun q : String × List (Num × Num) => (q.1, ptsIn k q.2)) = fun r : String × List (Num × Num) => r.1 == q.1.label := by
    funext r
    rw [hh.1]
    rfl
  rw [this]
  cases segs.find? (fun r => r.1 == q.1.label) with
  | none => exact .error _
  | some r => exact .ok (.inl ⟨hh.2.rate, rfl⟩)

theorem converter_sc (hu : UnitOk sys k) {d : ConvData} (h : CompSc κ k E d.comp.label (d.comp.inputs ++ d.comp.outputs)) :
    ExR (CompOut.Sc κ k) (converterModel sys d) (converterModel (sys.inUnit k) (d.inUnit k)) := by
  have hk := hu.pos
  unfold converterModel
  refine ExR.bind (comp_sc hu h) fun o o' ho => ?_
  rw [show (d.inUnit k).factors = d.factors from rfl]
  split
  · refine .ok ⟨ho.inputs, ho.outputs, ho.on, ho.vars, List.rel_append ho.cons ?_, ho.subs⟩
    rw [List.forall₂_iff_get]
    refine ⟨by simp, fun i h1 h2 => ?_⟩
    simp only [List.get_eq_getElem, List.getElem_mapIdx]
    exact sc_eq hk (conversionOps_sc hk ho.inputs ho.outputs _)
  · refine ExR.bind (segmentPoints_sc ho.flows d.segments) fun pts pts' hp => ?_
    have hon := ho.on
    revert hon
    generalize o.on = x
    generalize o'.on = y
    intro hon
    cases hon with
    | none =>
      exact ExR.bind (multiple_sc hk h.own hp (x := .no) trivial) fun t t' ht =>
        .ok ⟨ho.inputs, ho.outputs, .none, ho.vars, ho.cons, List.rel_append ho.subs (.cons ht .nil)⟩
    | some hx =>
      dsimp only
      rw [hx.on]
      exact ExR.bind (multiple_sc hk h.own hp (x := .use _) hx.fac) fun t t' ht =>
        .ok ⟨ho.inputs, ho.outputs, .some hx, ho.vars, ho.cons, List.rel_append ho.subs (.cons ht .nil)⟩

/-! ## Storages -/

theorem storage_comp_inUnit (s : StorageData) : (s.inUnit k).comp = s.comp.inUnit k := rfl

theorem storageFlows_sc {o o' : CompOut} (h : o.Sc κ k o') : ExR (fun x y => x.1.Sc κ k y.1 ∧ x.2.Sc κ k y.2) (storageFlows o) (storageFlows o') := by
  unfold storageFlows
  have hi := h.inputs
  have ho := h.outputs
  revert hi ho
  generalize o.inputs = a
  generalize o'.inputs = a'
  generalize o.outputs = b
  generalize o'.outputs = b'
  intro hi ho
  cases hi with
  | nil => exact .error _
  | cons h1 t1 =>
    cases t1 with
    | cons _ _ => exact .error _
    | nil =>
      cases ho with
      | nil => exact .error _
      | cons h2 t2 =>
        cases t2 with
        | cons _ _ => exact .error _
        | nil => exact .ok ⟨h1.2, h2.2⟩

theorem storage_sc (hu : UnitOk sys k) {s : StorageData} (h : CompSc κ k E s.label [s.charging, s.discharging]) (hs : ∀ q, s.capacity = .invest q → q.SegIn E) :
    ExR (fun o o' => o.comp.Sc κ k o'.comp) (storageModel sys s) (storageModel (sys.inUnit k) (s.inUnit k)) := by
  have hk := hu.pos
  unfold storageModel
  rw [storage_comp_inUnit]
  refine ExR.bind (comp_sc hu (d := s.comp) h) fun o o' ho => ?_
  refine ExR.bind (storageFlows_sc ho) fun ab ab' hab => ?_
  obtain ⟨a, b⟩ := ab
  obtain ⟨a', b'⟩ := ab'
  obtain ⟨ha, hb⟩ := hab
  dsimp only at ha hb ⊢
  have e : (s.inUnit k).absBounds (sys.cfg.inUnit k) = ((s.absBounds sys.cfg).1.map (k * ·), (s.absBounds sys.cfg).2.map (k * ·)) := by
    have key : ∀ (a b : Num) (x y : ℚ), (a.map (· * (k * x)), b.map (· * (k * y))) = ((a.map (· * x)).map (k * ·), (b.map (· * y)).map (k * ·)) := by
      intro a b x y
      rw [num_map_map, num_map_map]
      exact congrArg₂ _ (num_map_congr (fun z => by ring) a) (num_map_congr (fun z => by ring) b)
    unfold StorageData.absBounds StorageData.inUnit
    dsimp only
    cases s.capacity with
    | num x => exact key _ _ x x
    | invest q =>
      dsimp only [Size.inUnit]
      rw [minSize_sc hk, maxSize_sc hk]
      exact key _ _ _ _
  rw [show (sys.inUnit k).cfg = sys.cfg.inUnit k from rfl, e]
  refine ExR.bind (R := VarK κ k) (mkVar_k hk (h.own.e2 (by decide +kernel)) rfl rfl rfl rfl) fun v v' hv => ?_
  refine ExR.bind (R := VarK κ k) (mkVar_k hk (h.own.e2 (by decide +kernel)) rfl rfl rfl rfl) fun nd nd' hnd => ?_
  refine ExR.bind (R := ConReq.Sc κ) ?_ fun cc cc' hcc => ?_
  · unfold chargeCon
    dsimp only
    refine ExR.bind (R := Eq) (ExR.refl (fun _ => rfl) (Num.mul s.relLoss (.v sys.dt))) fun _ _ e => ?_
    subst e
    refine ExR.bind (R := Eq) (ExR.refl (fun _ => rfl) (Num.mul (s.etaCharge.map (-1 * ·)) (.v sys.dt))) fun _ _ e => ?_
    subst e
    refine ExR.bind (R := Eq) (ExR.refl (fun _ => rfl) s.etaDischarge.inv) fun _ _ e => ?_
    subst e
    refine ExR.bind (R := Eq) (ExR.refl (fun _ => rfl) _) fun _ _ e => ?_
    subst e
    exact .ok (sc_eq hk (.cons (op_k hk hv) (.cons (op_k hk hv) (.cons (op_k hk ha.rate) (.cons (op_k hk hb.rate) .nil)))))
  refine ExR.bind (R := Option.Rel (InvestOut.Sc κ k)) ?_ fun inv inv' hinv => ?_
  · unfold storageInvest
    rw [show (s.inUnit k).capacity = s.capacity.inUnit k from rfl]
    cases hq : s.capacity with
    | num x => exact .ok .none
    | invest q => exact ExR.map (invest_sc hk h.own q (hs q hq) hv _ _ none (on := none) fun _ h => by cases h) fun _ _ k => .some k
  refine ExR.bind (R := ConsS κ) ?_ fun ci ci' hci => ?_
  · have hfin : ConsS κ (finalCons sys s v) (finalCons (sys.inUnit k) (s.inUnit k) v') := by
      unfold finalCons
      rw [show (s.inUnit k).maxFinal = s.maxFinal.map (k * ·) from rfl, show (s.inUnit k).minFinal = s.minFinal.map (k * ·) from rfl]
      refine List.rel_append ?_ ?_
      · cases s.maxFinal with
        | none => exact .nil
        | some m => exact .cons (sc_ineq hk (.cons (op_k hk hv) (.cons (op_c rfl) .nil))) .nil
      · cases s.minFinal with
        | none => exact .nil
        | some m => exact .cons (sc_ineq hk (.cons (op_k hk hv) (.cons (op_c (by simp [Num.map])) .nil))) .nil
    unfold initialFinalCons
    rw [show (s.inUnit k).initial = s.initial.inUnit k from rfl]
    cases s.initial with
    | none => exact .ok .nil
    | num x => exact .ok (.cons (sc_eq hk (.cons (op_c rfl) (.cons (op_k hk hv) .nil))) hfin)
    | lastValueOfSim =>
      dsimp only [InitCharge.inUnit]
      rw [show (sys.inUnit k).n = sys.n from rfl]
      split
      · exact .error _
      · exact .ok (.cons (sc_eq hk (.cons (op_k hk hv) (.cons (op_k hk hv) .nil))) hfin)
    | other => exact .error _
  refine .ok ⟨ho.inputs, ho.outputs, ho.on, ?_, ?_, ?_⟩
  · exact List.rel_append ho.vars (.cons hv.s (.cons hnd.s .nil))
  · refine List.rel_append (List.rel_append ho.cons (.cons (sc_eq hk ?_) (.cons hcc .nil))) hci
    exact .cons (op_k hk hnd) (.cons (op_k hk ha.rate) (.cons (op_k hk hb.rate) .nil))
  · exact List.rel_append ho.subs (optRel_toList hinv fun _ _ k => k.tree)

/-! ## Transmissions -/

theorem anyNonzero_sc (hk : 0 < k) (a : Num) : (a.map (k * ·)).anyNonzero = a.anyNonzero := by
  cases a with
  | s x => simp [Num.map, Num.anyNonzero, hk.ne']
  | v xs => simp [Num.map, Num.anyNonzero, hk.ne', List.any_map, Function.comp_def]

theorem trans_fill_inUnit (hk : 0 < k) (t : TransData) (f : FlowData) : (t.inUnit k).fill (f.inUnit k) = (t.fill f).inUnit k := by
  unfold TransData.fill
  rw [show (t.inUnit k).absLosses = t.absLosses.map (Num.map (k * ·)) from rfl]
  cases t.absLosses with
  | none => rfl
  | some a =>
    dsimp only [Option.map_some]
    rw [anyNonzero_sc hk, show (f.inUnit k).onOff = f.onOff from rfl]
    split <;> rfl

theorem trans_fillIn2_inUnit (hk : 0 < k) (cfg : Cfg) (t : TransData) (f : FlowData) : (t.inUnit k).fillIn2 (cfg.inUnit k) (f.inUnit k) = (t.fillIn2 cfg f).inUnit k := by
  unfold TransData.fillIn2
  rw [show (t.inUnit k).in1.size = t.in1.size.inUnit k from rfl, show (f.inUnit k).size = f.size.inUnit k from rfl]
  cases t.in1.size with
  | unset => rfl
  | num x => rfl
  | invest q =>
    cases hf : f.size with
    | invest p => rfl
    | unset =>
      dsimp only [SizeArg.inUnit]
      rw [maxSize_sc hk]
      simp [FlowData.inUnit, SizeArg.inUnit, InvestParams.inUnit, EffDict.perUnit]
    | num x =>
      dsimp only [SizeArg.inUnit]
      rw [maxSize_sc hk]
      simp [FlowData.inUnit, SizeArg.inUnit, InvestParams.inUnit, EffDict.perUnit]

theorem trans_comp_inUnit (hk : 0 < k) (cfg : Cfg) (t : TransData) : (t.inUnit k).comp (cfg.inUnit k) = (t.comp cfg).inUnit k := by
  unfold TransData.comp CompData.inUnit
  dsimp only
  congr 1
  · rw [List.map_cons]
    refine congrArg₂ _ (trans_fill_inUnit hk t _) ?_
    rw [show (t.inUnit k).in2 = t.in2.map (FlowData.inUnit k) from rfl]
    cases t.in2 with
    | none => rfl
    | some f => simp [trans_fill_inUnit hk, trans_fillIn2_inUnit hk]
  · rw [List.map_cons]
    refine congrArg₂ _ (trans_fill_inUnit hk t _) ?_
    rw [show (t.inUnit k).out2 = t.out2.map (FlowData.inUnit k) from rfl]
    cases t.out2 with
    | none => rfl
    | some f => simp [trans_fill_inUnit hk]
  · rw [show (t.inUnit k).in2 = t.in2.map (FlowData.inUnit k) from rfl, show (t.inUnit k).preventBoth = t.preventBoth from rfl]
    cases t.in2 with
    | none => rfl
    | some f =>
      dsimp only [Option.map_some]
      split <;> rfl

theorem transCon_sc (hk : 0 < k) {t : TransData} {n : String} {i i' o o' : FlowOut} (hi : i.Sc κ k i') (ho : o.Sc κ k o') : ExR (ConReq.Sc κ) (transCon t n i o) (transCon (t.inUnit k) n i' o') := by
  unfold transCon
  refine ExR.bind (R := OpsR κ k) ?_ fun x y e => ?_
  · unfold absLossOps
    rw [show (t.inUnit k).absLosses = t.absLosses.map (Num.map (k * ·)) from rfl]
    cases t.absLosses with
    | none => exact .ok .nil
    | some a =>
      refine ExR.bind (R := fun a b => b = a ∧ κ a.label = 1) ?_ fun v _ e => ?_
      · unfold FlowOut.onVar
        have := hi.onOff
        revert this
        generalize i.onOff = x
        generalize i'.onOff = y
        intro k
        cases k with
        | none => exact .error _
        | some k => exact .ok ⟨k.on, k.fac⟩
      · obtain ⟨rfl, e⟩ := e
        refine .ok (.cons (op_u e ?_) .nil)
        rw [num_map_map, num_map_map]
        exact num_map_congr (fun z => by ring) a
  · refine .ok (sc_eq hk ?_)
    unfold OpsR at e ⊢
    refine List.rel_append ?_ e
    exact .cons (op_k hk hi.rate) (.cons (op_k hk ho.rate) .nil)

theorem transFlows_sc {o o' : CompOut} (h : o.Sc κ k o') :
    ExR (fun x y => x.1.Sc κ k y.1 ∧ Option.Rel (FlowOut.Sc κ k) x.2.1 y.2.1 ∧ x.2.2.1.Sc κ k y.2.2.1 ∧ Option.Rel (FlowOut.Sc κ k) x.2.2.2 y.2.2.2) (transFlows o) (transFlows o') := by
  unfold transFlows
  have hi := h.inputs
  have ho := h.outputs
  revert hi ho
  generalize o.inputs = a
  generalize o'.inputs = a'
  generalize o.outputs = b
  generalize o'.outputs = b'
  intro hi ho
  have head : ∀ {a a' : List (FlowData × FlowOut)}, FlowsS κ k a a' → Option.Rel (FlowOut.Sc κ k) (a.head?.map (·.2)) (a'.head?.map (·.2)) := by
    intro a a' h
    cases h with
    | nil => exact .none
    | cons hh _ => exact .some hh.2
  cases hi with
  | nil => exact .error _
  | cons h1 t1 =>
    cases ho with
    | nil => exact .error _
    | cons h2 t2 => exact .ok ⟨h1.2, head t1, h2.2, head t2⟩

theorem transSecond_sc (hk : 0 < k) {t : TransData} {i1 i1' : FlowOut} {i2 i2' o2 o2' : Option FlowOut} (h1 : i1.Sc κ k i1') (h2 : Option.Rel (FlowOut.Sc κ k) i2 i2') (h3 : Option.Rel (FlowOut.Sc κ k) o2 o2') :
    ExR (ConsS κ) (transSecond t i1 i2 o2) (transSecond (t.inUnit k) i1' i2' o2') := by
  unfold transSecond
  cases h2 with
  | none => exact .ok .nil
  | some h2 =>
    cases h3 with
    | none => exact .error _
    | some h3 =>
      dsimp only
      refine ExR.bind (transCon_sc hk h2 h3) fun c2 c2' hc2 => ?_
      rw [show (t.inUnit k).in1.size = t.in1.size.inUnit k from rfl]
      cases t.in1.size with
      | unset => exact .ok (.cons hc2 .nil)
      | num x => exact .ok (.cons hc2 .nil)
      | invest q =>
        have k1 := h1.invest
        have k2 := h2.invest
        dsimp only [SizeArg.inUnit]
        revert k1 k2
        generalize i1.invest = x
        generalize i1'.invest = y
        generalize FlowOut.invest _ = z
        generalize FlowOut.invest _ = w
        intro k1 k2
        cases k1 with
        | none => exact .error _
        | some k1 =>
          cases k2 with
          | none => exact .error _
          | some k2 => exact .ok (.cons hc2 (.cons (sc_eq hk (.cons (op_k hk k1.size) (.cons (op_k hk k2.size) .nil))) .nil))

theorem trans_sc (hu : UnitOk sys k) {t : TransData} (h : CompSc κ k E t.label ((Comp.transmission t).flows)) :
    ExR (fun o o' => o.comp.Sc κ k o'.comp) (transmissionModel sys t) (transmissionModel (sys.inUnit k) (t.inUnit k)) := by
  have hk := hu.pos
  unfold transmissionModel
  rw [show (sys.inUnit k).cfg = sys.cfg.inUnit k from rfl, trans_comp_inUnit hk]
  have hc : CompSc κ k E (t.comp sys.cfg).label ((t.comp sys.cfg).inputs ++ (t.comp sys.cfg).outputs) := by
    have key : ∀ f ∈ (t.comp sys.cfg).inputs ++ (t.comp sys.cfg).outputs, ∃ g ∈ (Comp.transmission t).flows, f.label = g.label ∧ (g.SegIn E → f.SegIn E) := by
      have fl : ∀ g : FlowData, (t.fill g).label = g.label ∧ (g.SegIn E → (t.fill g).SegIn E) := fun g =>
        ⟨(trans_fill_label t g).1, fun h q hq => h q (by rw [← (trans_fill_label t g).2]; exact hq)⟩
      intro f hf
      simp only [TransData.comp, List.mem_append, List.mem_cons, Option.mem_toList, Option.map_eq_some_iff] at hf
      rcases hf with (rfl | ⟨g, hg, rfl⟩) | (rfl | ⟨g, hg, rfl⟩)
      · exact ⟨t.in1, by simp [Comp.flows, Comp.inputs], fl _⟩
      · exact ⟨g, by simp [Comp.flows, Comp.inputs, hg], (trans_fillIn2_label sys.cfg t _ (E := E)).1.trans (fl g).1, fun k => (trans_fillIn2_label sys.cfg t _).2 ((fl g).2 k)⟩
      · exact ⟨t.out1, by simp [Comp.flows, Comp.outputs], fl _⟩
      · exact ⟨g, by simp [Comp.flows, Comp.outputs, hg], fl g⟩
    refine ⟨h.own, fun f hf => ?_, fun f hf => ?_⟩
    · obtain ⟨g, hg, e, _⟩ := key f hf
      rw [e]
      exact h.flows g hg
    · obtain ⟨g, hg, _, k⟩ := key f hf
      exact k (h.segs g hg)
  refine ExR.bind (comp_sc hu (d := t.comp sys.cfg) hc) fun o o' ho => ?_
  refine ExR.bind (transFlows_sc ho) fun x y hxy => ?_
  obtain ⟨i1, i2, o1, o2⟩ := x
  obtain ⟨i1', i2', o1', o2'⟩ := y
  obtain ⟨k1, k2, k3, k4⟩ := hxy
  dsimp only at k1 k2 k3 k4 ⊢
  refine ExR.bind (transCon_sc hk k1 k3) fun c1 c1' hc1 => ?_
  refine ExR.bind (transSecond_sc hk k1 k2 k4) fun c2 c2' hc2 => ?_
  exact .ok ⟨ho.inputs, ho.outputs, ho.on, ho.vars, List.rel_append (List.rel_append ho.cons (.cons hc1 .nil)) hc2, ho.subs⟩

/-- Any component: its model in the new unit is the old model with other bounds and factors. -/
theorem model_sc (hu : UnitOk sys k) {d : Comp} (h : CompSc κ k E d.label d.flows) (hs : ∀ s q, d = .storage s → s.capacity = .invest q → q.SegIn E) :
    ExR (CompOut.Sc κ k) (d.model sys) ((d.inUnit k).model (sys.inUnit k)) := by
  cases d with
  | plain d => exact comp_sc hu h
  | converter d => exact converter_sc hu h
  | storage s => exact ExR.map (storage_sc hu h fun q => hs s q rfl) fun _ _ k => k
  | transmission t => exact ExR.map (trans_sc hu h) fun _ _ k => k

end Flix
