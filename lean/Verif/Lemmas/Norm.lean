import Verif.Lemmas.Infos
import Verif.Props.Again

/-!
# The models depend on sizes only as they see them
-/

namespace Flix

variable {cfg : Cfg} {sys : Sys}

theorem minSize_norm (q : InvestParams) : (q.norm cfg).minSize = q.minSize := by
  simp only [InvestParams.minSize, InvestParams.norm, pyOr]
  split
  · split <;> simp_all
  · rfl

theorem pyOr_twice (m : Option ℚ) (b : ℚ) : pyOr (some (pyOr m b)) b = pyOr m b := by
  generalize hx : pyOr m b = x
  by_cases h : x = 0
  · subst h
    cases m with
    | none => simpa [pyOr] using hx
    | some y =>
      by_cases hy : y = 0
      · simpa [pyOr, hy] using hx
      · simp [pyOr, hy] at hx
  · simp [pyOr, h]

theorem maxSize_norm (q : InvestParams) : (q.norm cfg).maxSize cfg = q.maxSize cfg := by
  unfold InvestParams.norm InvestParams.maxSize
  dsimp only
  generalize q.maximumSize = m
  cases q.fixedSize with
  | none => exact pyOr_twice m cfg.big
  | some x =>
    by_cases hx : x = 0
    · subst hx
      exact pyOr_twice m cfg.big
    · simp [pyOr, hx]

theorem investModel_norm (el : String) (q : InvestParams) (x : Var) (a b : Num) (p : Option Num) (on : Option Var) :
    investModel cfg el (q.norm cfg) x a b p on = investModel cfg el q x a b p on := by
  have h1 := minSize_norm (cfg := cfg) q
  have h2 := maxSize_norm (cfg := cfg) q
  have e1 : ∀ p, sizeVar cfg p (q.norm cfg) = sizeVar cfg p q := fun p => by unfold sizeVar; rw [h1, h2]; rfl
  have e2 : ∀ p s i, optionalCons cfg p (q.norm cfg) s i = optionalCons cfg p q s i := fun p s i => by unfold optionalCons; rw [h1, h2]; rfl
  have e3 : ∀ el' s, definingCons cfg el' (q.norm cfg) s x a b p on = definingCons cfg el' q s x a b p on := fun _ _ => by unfold definingCons; rw [h2]
  unfold investModel
  simp only [e1, e2, e3]
  rfl

theorem effSize_norm (f : FlowData) : (f.norm cfg).effSize cfg = (f.effSize cfg).norm cfg := by
  unfold FlowData.norm FlowData.normSize FlowData.effSize
  cases f.size with
  | unset => simp [Size.norm, pyOr]
  | num x =>
    simp only [Size.norm, pyOr]
    split <;> simp_all
  | invest q => rfl

theorem relBounds_norm (f : FlowData) : (f.norm cfg).relBounds = f.relBounds := rfl

theorem absBounds_norm (f : FlowData) : (f.norm cfg).absBounds cfg = f.absBounds cfg := by
  unfold FlowData.absBounds
  rw [relBounds_norm, effSize_norm]
  cases f.effSize cfg with
  | num x => rfl
  | invest q =>
    simp only [Size.norm, minSize_norm, maxSize_norm]
    rfl

theorem flowModel_norm (el : String) (f : FlowData) : flowModel sys el (f.norm sys.cfg) = flowModel sys el f := by
  have e1 : flowRateVar sys el (f.norm sys.cfg) = flowRateVar sys el f := by unfold flowRateVar; rw [absBounds_norm]; rfl
  have e2 : ∀ x, flowOnOff sys el (f.norm sys.cfg) x = flowOnOff sys el f x := fun x => by unfold flowOnOff; rw [absBounds_norm]; rfl
  have e3 : ∀ x on, flowInvest sys el (f.norm sys.cfg) x on = flowInvest sys el f x on := fun x on => by
    unfold flowInvest
    rw [effSize_norm]
    cases f.effSize sys.cfg with
    | num x => rfl
    | invest q => simp only [Size.norm, investModel_norm]; rfl
  have e4 : ∀ s i, loadFactorCons sys el (f.norm sys.cfg) s i = loadFactorCons sys el f s i := fun s i => by
    unfold loadFactorCons
    rw [effSize_norm]
    cases f.effSize sys.cfg <;> rfl
  unfold flowModel
  simp only [e1, e2, e3, e4]
  rfl

theorem fillOnOff_norm (c : CompData) (f : FlowData) : fillOnOff (c.norm cfg) (f.norm cfg) = (fillOnOff c f).norm cfg := by
  by_cases h : ((c.onOff.isSome || decide (f.label ∈ c.prevent)) && f.onOff.isNone) = true
  · have e1 : fillOnOff c f = { f with onOff := some {} } := if_pos h
    have e2 : fillOnOff (c.norm cfg) (f.norm cfg) = { f.norm cfg with onOff := some {} } := if_pos h
    rw [e1, e2]
    rfl
  · have e1 : fillOnOff c f = f := if_neg h
    have e2 : fillOnOff (c.norm cfg) (f.norm cfg) = f.norm cfg := if_neg h
    rw [e1, e2]

/-- The data of the flows kept in a modelled component with their sizes as the models see them. -/
def normFlow (cfg : Cfg) (q : FlowData × FlowOut) : FlowData × FlowOut := (q.1.norm cfg, q.2)

def CompOut.norm (cfg : Cfg) (o : CompOut) : CompOut := { o with inputs := o.inputs.map (normFlow cfg), outputs := o.outputs.map (normFlow cfg) }

theorem compFlow_norm (c : CompData) (f : FlowData) : compFlow sys (c.norm sys.cfg) (f.norm sys.cfg) = normFlow sys.cfg <$> compFlow sys c f := by
  unfold compFlow
  simp only [fillOnOff_norm, flowModel_norm]
  rw [show flowFull (c.norm sys.cfg).label ((fillOnOff c f).norm sys.cfg).label = flowFull c.label (fillOnOff c f).label from rfl]
  cases flowModel sys (flowFull c.label (fillOnOff c f).label) (fillOnOff c f) <;> rfl

theorem mapM_norm {α β : Type} (f f' : α → Except Err β) (g : α → α) (k : β → β) (h : ∀ a, f' (g a) = k <$> f a) (xs : List α) :
    (xs.map g).mapM f' = (List.map k) <$> xs.mapM f := by
  induction xs with
  | nil => rfl
  | cons a xs ih =>
    rw [List.map_cons, List.mapM_cons, List.mapM_cons, h, ih]
    cases f a with
    | error e => rfl
    | ok b => cases xs.mapM f <;> rfl

theorem compModel_norm (c : CompData) : compModel sys (c.norm sys.cfg) = CompOut.norm sys.cfg <$> compModel sys c := by
  have on : ∀ fl : List (FlowData × FlowOut), compOnOff sys (c.norm sys.cfg) (fl.map (normFlow sys.cfg)) = compOnOff sys c fl := by
    intro fl
    unfold compOnOff
    rw [List.map_map]
    rw [show (fun q : FlowData × FlowOut => (q.2.flowRate, q.1.absBounds sys.cfg)) ∘ normFlow sys.cfg = fun q => (q.2.flowRate, q.1.absBounds sys.cfg) by
      funext q; simp [normFlow, absBounds_norm]]
    rfl
  have pv : ∀ fl : List (FlowData × FlowOut), compPrevent (c.norm sys.cfg) (fl.map (normFlow sys.cfg)) = compPrevent c fl := by
    intro fl
    have : onOf (fl.map (normFlow sys.cfg)) = onOf fl := by
      funext l
      unfold onOf
      have e : (fl.map (normFlow sys.cfg)).find? (fun q => q.1.label == l) = (fl.find? fun q => q.1.label == l).map (normFlow sys.cfg) := by
        rw [List.find?_map]; rfl
      rw [e]
      cases fl.find? fun q => q.1.label == l <;> rfl
    unfold compPrevent
    rw [this]
    rfl
  unfold compModel
  rw [show (c.norm sys.cfg).inputs = c.inputs.map (FlowData.norm sys.cfg) from rfl, show (c.norm sys.cfg).outputs = c.outputs.map (FlowData.norm sys.cfg) from rfl,
    mapM_norm _ _ _ _ (compFlow_norm c), mapM_norm _ _ _ _ (compFlow_norm c)]
  cases c.inputs.mapM (compFlow sys c) with
  | error e => rfl
  | ok ins =>
    cases c.outputs.mapM (compFlow sys c) with
    | error e => rfl
    | ok outs =>
      simp only [Functor.map, Except.map, Bind.bind, Except.bind, Pure.pure, Except.pure, ← List.map_append, on, pv]
      cases compOnOff sys c (ins ++ outs) with
      | error e => rfl
      | ok on =>
        cases compPrevent c (ins ++ outs) with
        | error e => rfl
        | ok pv =>
          simp only [List.map_map, CompOut.norm]
          rfl

theorem norm_cons (o : CompOut) (cs : List ConReq) : ({ o.norm cfg with cons := cs } : CompOut) = ({ o with cons := cs } : CompOut).norm cfg := rfl

theorem conversionOps_norm (ins outs : List (FlowData × FlowOut)) (fs : Factors) :
    conversionOps (ins.map (normFlow cfg)) (outs.map (normFlow cfg)) fs = conversionOps ins outs fs := by
  unfold conversionOps
  rw [List.filterMap_map, List.filterMap_map]
  rfl

theorem segmentPoints_norm (fl : List (FlowData × FlowOut)) (segs : List (String × List (Num × Num))) : segmentPoints (fl.map (normFlow cfg)) segs = segmentPoints fl segs := by
  unfold segmentPoints
  rw [mapM_map']
  rfl

theorem converterModel_norm (c : ConvData) : converterModel sys (c.norm sys.cfg) = CompOut.norm sys.cfg <$> converterModel sys c := by
  unfold converterModel
  rw [show (c.norm sys.cfg).comp = c.comp.norm sys.cfg from rfl, compModel_norm]
  cases compModel sys c.comp with
  | error e => rfl
  | ok o =>
    simp only [Functor.map, Except.map, Bind.bind, Except.bind, Pure.pure, Except.pure]
    rw [show (c.norm sys.cfg).factors = c.factors from rfl, show (c.norm sys.cfg).segments = c.segments from rfl, show (CompOut.norm sys.cfg o).flows = o.flows.map (normFlow sys.cfg) by
      simp [CompOut.flows, CompOut.norm], segmentPoints_norm]
    split
    · refine congrArg Except.ok ?_
      simp only [CompOut.norm, conversionOps_norm]
      rfl
    · cases segmentPoints o.flows c.segments with
      | error e => rfl
      | ok pts =>
        simp only [show (CompOut.norm sys.cfg o).on = o.on from rfl, show (c.comp.norm sys.cfg).label = c.comp.label from rfl]
        cases multipleSegments c.comp.label sys.n pts (match o.on with | some on => .use on.on | none => .no) <;> rfl

theorem storageModel_norm (s : StorageData) : (fun o : StorageOut => o.comp) <$> storageModel sys (s.norm sys.cfg) = CompOut.norm sys.cfg <$> ((fun o : StorageOut => o.comp) <$> storageModel sys s) := by
  have a1 : (s.norm sys.cfg).absBounds sys.cfg = s.absBounds sys.cfg := by
    unfold StorageData.absBounds StorageData.norm
    cases s.capacity with
    | num x => rfl
    | invest q => simp [Size.norm, minSize_norm, maxSize_norm]
  have a2 : ∀ x, storageInvest sys (s.norm sys.cfg) x = storageInvest sys s x := by
    intro x
    unfold storageInvest StorageData.norm
    cases s.capacity with
    | num x => rfl
    | invest q => simp only [Size.norm, investModel_norm]
  have a3 : ∀ o : CompOut, storageFlows (o.norm sys.cfg) = storageFlows o := by
    intro o
    unfold storageFlows CompOut.norm
    rcases h1 : o.inputs with _ | ⟨⟨_, _⟩, _ | ⟨_, _⟩⟩ <;> rcases h2 : o.outputs with _ | ⟨⟨_, _⟩, _ | ⟨_, _⟩⟩ <;> simp [normFlow]
  unfold storageModel
  rw [show (s.norm sys.cfg).comp = s.comp.norm sys.cfg from rfl, compModel_norm]
  cases compModel sys s.comp with
  | error e => rfl
  | ok o =>
    simp only [Functor.map, Except.map, Bind.bind, Except.bind, Pure.pure, Except.pure, a1, a2, a3]
    cases storageFlows o with
    | error e => rfl
    | ok ab =>
      obtain ⟨a, b⟩ := ab
      simp only [show (s.norm sys.cfg).label = s.label from rfl]
      cases mkVar s.label "charge_state" (sys.n + 1) (lb := some (s.absBounds sys.cfg).1) (ub := some (s.absBounds sys.cfg).2) with
      | error e => rfl
      | ok c =>
        cases mkVar s.label "netto_discharge" sys.n with
        | error e => rfl
        | ok nd =>
          simp only [show chargeCon sys (s.norm sys.cfg) c a.flowRate b.flowRate = chargeCon sys s c a.flowRate b.flowRate from rfl]
          cases chargeCon sys s c a.flowRate b.flowRate with
          | error e => rfl
          | ok cc =>
            cases storageInvest sys s c with
            | error e => rfl
            | ok inv =>
              simp only [show initialFinalCons sys (s.norm sys.cfg) c = initialFinalCons sys s c from rfl]
              cases initialFinalCons sys s c <;> rfl

theorem fill_norm (t : TransData) (f : FlowData) : (t.norm cfg).fill (f.norm cfg) = (t.fill f).norm cfg := by
  unfold TransData.fill
  rw [show (t.norm cfg).absLosses = t.absLosses from rfl]
  cases t.absLosses with
  | none => rfl
  | some a =>
    by_cases h : (a.anyNonzero && f.onOff.isNone) = true
    · dsimp only
      rw [if_pos h, if_pos (show (a.anyNonzero && (f.norm cfg).onOff.isNone) = true from h)]
      rfl
    · dsimp only
      rw [if_neg h, if_neg (show ¬(a.anyNonzero && (f.norm cfg).onOff.isNone) = true from h)]

theorem isInvest_norm (f : FlowData) : (f.norm cfg).size = f.normSize cfg := rfl

theorem copied_norm (q : InvestParams) : ({ maximumSize := some (q.maxSize cfg) } : InvestParams).norm cfg = { maximumSize := some (q.maxSize cfg) } := by
  have key : pyOr (some (q.maxSize cfg)) cfg.big = q.maxSize cfg := by
    unfold InvestParams.maxSize
    cases q.fixedSize with
    | none => exact pyOr_twice q.maximumSize cfg.big
    | some x =>
      by_cases hx : x = 0
      · subst hx
        exact pyOr_twice q.maximumSize cfg.big
      · simp [pyOr, hx]
  have e : ({ maximumSize := some (q.maxSize cfg) } : InvestParams).maxSize cfg = q.maxSize cfg := key
  unfold InvestParams.norm
  rw [e]
  rfl

theorem fillIn2_norm (t : TransData) (f : FlowData) : (t.norm cfg).fillIn2 cfg (f.norm cfg) = (t.fillIn2 cfg f).norm cfg := by
  unfold TransData.fillIn2
  simp only [TransData.norm, isInvest_norm]
  cases h1 : t.in1.size with
  | unset => simp only [FlowData.normSize, FlowData.effSize, h1]
  | num x => simp only [FlowData.normSize, FlowData.effSize, h1]
  | invest q =>
    have e1 : t.in1.normSize cfg = .invest (q.norm cfg) := by simp [FlowData.normSize, FlowData.effSize, h1]
    have e3 : ({ f with size := .invest { maximumSize := some (q.maxSize cfg) } } : FlowData).norm cfg = { f.norm cfg with size := .invest { maximumSize := some (q.maxSize cfg) } } := by
      unfold FlowData.norm
      rw [show ({ f with size := .invest { maximumSize := some (q.maxSize cfg) } } : FlowData).normSize cfg = .invest { maximumSize := some (q.maxSize cfg) } from
        congrArg SizeArg.invest (copied_norm q)]
    rw [e1]
    cases h2 : f.size with
    | invest p =>
      have e2 : f.normSize cfg = .invest (p.norm cfg) := by simp [FlowData.normSize, FlowData.effSize, h2]
      rw [e2]
    | unset =>
      have e2 : f.normSize cfg = .num cfg.big := by simp [FlowData.normSize, FlowData.effSize, h2]
      rw [e2]
      dsimp only
      rw [maxSize_norm, e3]
    | num x =>
      have e2 : f.normSize cfg = .num (pyOr (some x) cfg.big) := by simp [FlowData.normSize, FlowData.effSize, h2]
      rw [e2]
      dsimp only
      rw [maxSize_norm, e3]

theorem transComp_norm (t : TransData) : (t.norm cfg).comp cfg = (t.comp cfg).norm cfg := by
  unfold TransData.comp CompData.norm
  congr 1
  · simp only [List.map_cons]
    rw [show (t.norm cfg).in1 = t.in1.norm cfg from rfl, fill_norm, show (t.norm cfg).in2 = t.in2.map (FlowData.norm cfg) from rfl]
    cases t.in2 with
    | none => rfl
    | some f => simp [fill_norm, fillIn2_norm]
  · simp only [List.map_cons]
    rw [show (t.norm cfg).out1 = t.out1.norm cfg from rfl, fill_norm, show (t.norm cfg).out2 = t.out2.map (FlowData.norm cfg) from rfl]
    cases t.out2 with
    | none => rfl
    | some f => simp [fill_norm]
  · rw [show (t.norm cfg).in2 = t.in2.map (FlowData.norm cfg) from rfl]
    cases t.in2 <;> rfl

theorem transmissionModel_norm (t : TransData) :
    (fun o : TransOut => o.comp) <$> transmissionModel sys (t.norm sys.cfg) = CompOut.norm sys.cfg <$> ((fun o : TransOut => o.comp) <$> transmissionModel sys t) := by
  have a1 : ∀ o : CompOut, transFlows (o.norm sys.cfg) = transFlows o := by
    intro o
    unfold transFlows CompOut.norm
    rcases h1 : o.inputs with _ | ⟨_, _ | ⟨_, _⟩⟩ <;> rcases h2 : o.outputs with _ | ⟨_, _ | ⟨_, _⟩⟩ <;> simp [normFlow]
  have a2 : ∀ i1 i2 o2, transSecond (t.norm sys.cfg) i1 i2 o2 = transSecond t i1 i2 o2 := by
    intro i1 i2 o2
    unfold transSecond
    cases i2 with
    | none => rfl
    | some i2 =>
      cases o2 with
      | none => rfl
      | some o2 =>
        simp only [show transCon (t.norm sys.cfg) "direction_2" i2 o2 = transCon t "direction_2" i2 o2 from rfl]
        cases transCon t "direction_2" i2 o2 with
        | error e => rfl
        | ok c2 =>
          simp only [Bind.bind, Except.bind]
          rw [show (t.norm sys.cfg).in1.size = t.in1.normSize sys.cfg from rfl]
          cases h1 : t.in1.size with
          | unset => simp only [FlowData.normSize, FlowData.effSize, h1]
          | num x => simp only [FlowData.normSize, FlowData.effSize, h1]
          | invest q => simp only [FlowData.normSize, FlowData.effSize, h1]; rfl
  unfold transmissionModel
  rw [transComp_norm, compModel_norm]
  cases compModel sys (t.comp sys.cfg) with
  | error e => rfl
  | ok o =>
    simp only [Functor.map, Except.map, Bind.bind, Except.bind, Pure.pure, Except.pure, a1, a2]
    cases transFlows o with
    | error e => rfl
    | ok r =>
      obtain ⟨i1, i2, o1, o2⟩ := r
      simp only [show transCon (t.norm sys.cfg) "direction_1" i1 o1 = transCon t "direction_1" i1 o1 from rfl]
      cases transCon t "direction_1" i1 o1 with
      | error e => rfl
      | ok c1 =>
        cases transSecond t i1 i2 o2 <;> rfl

theorem model_norm (c : Comp) : (c.norm sys.cfg).model sys = CompOut.norm sys.cfg <$> c.model sys := by
  cases c with
  | plain c => exact compModel_norm c
  | converter c => exact converterModel_norm c
  | storage s => exact storageModel_norm s
  | transmission t => exact transmissionModel_norm t

/-- The system with the sizes of flows as the models see them. -/
def System.norm (cfg : Cfg) (s : System) : System := { s with comps := s.comps.map (Comp.norm cfg) }

theorem busFlows_norm (fl : List (FlowData × FlowOut)) (l : String) : busFlows (fl.map (normFlow cfg)) l = busFlows fl l := by
  unfold busFlows
  rw [List.filterMap_map]
  rfl

/-- The optimization problem depends on sizes only as the models see them. -/
theorem systemModel_norm (s : System) : (fun o : SysOut => o.solver) <$> systemModel sys (s.norm sys.cfg) = (fun o : SysOut => o.solver) <$> systemModel sys s := by
  unfold systemModel
  rw [show (s.norm sys.cfg).comps = s.comps.map (Comp.norm sys.cfg) from rfl, mapM_norm _ _ _ _ model_norm]
  cases s.comps.mapM (Comp.model sys) with
  | error e => rfl
  | ok comps =>
    have e1 : ((comps.map (CompOut.norm sys.cfg)).map (·.outputs)).flatten = (comps.map (·.outputs)).flatten.map (normFlow sys.cfg) := by
      rw [List.map_flatten, List.map_map, List.map_map]; rfl
    have e2 : ((comps.map (CompOut.norm sys.cfg)).map (·.inputs)).flatten = (comps.map (·.inputs)).flatten.map (normFlow sys.cfg) := by
      rw [List.map_flatten, List.map_map, List.map_map]; rfl
    have e3 : (comps.map (CompOut.norm sys.cfg)).map (·.shares) = comps.map (·.shares) := by rw [List.map_map]; rfl
    have e4 : (comps.map (CompOut.norm sys.cfg)).map CompOut.tree = comps.map CompOut.tree := by rw [List.map_map]; rfl
    simp only [Functor.map, Except.map, Bind.bind, Except.bind, Pure.pure, Except.pure, e1, e2, e3, e4, busFlows_norm, show (s.norm sys.cfg).buses = s.buses from rfl,
      show (s.norm sys.cfg).effects = s.effects from rfl]
    cases s.buses.mapM fun b => busModel sys b (busFlows (comps.map (·.outputs)).flatten b.label) (busFlows (comps.map (·.inputs)).flatten b.label) with
    | error e => rfl
    | ok buses =>
      dsimp only
      cases collectionModel sys s.effects ((comps.map (·.shares)).flatten ++ (buses.map (·.shares)).flatten) with
      | error e => rfl
      | ok coll =>
        dsimp only
        cases collectModel (coll.tree :: comps.map CompOut.tree ++ buses.map (·.tree)) coll.objective <;> rfl

end Flix
