import Verif.Model.OnOff
import Verif.Model.Invest

/-!
# `elements.py`: flows, components, buses
-/

namespace Flix

/-- The model of an `OnOffModel` (features.py:173-624, structure.py:478-485). -/
def OnOffOut.tree (o : OnOffOut) : MTree := .node o.vars o.cons []

/-- The argument `size` of a flow (elements.py:162). -/
inductive SizeArg
  | unset
  | num (x : ℚ)
  | invest (q : InvestParams)
  deriving DecidableEq, Repr

/-- A `Flow` as constructed by the user (elements.py:158-238), effect values as dictionaries and time series as their
active data.  The full label is `comp__label`. -/
structure FlowData where
  label : String
  bus : String := "bus"
  size : SizeArg := .unset
  fixedProfile : Option Num := none
  relMin : Num := .s 0
  relMax : Num := .s 1
  effectsPerFlowHour : EffDict := []
  onOff : Option OnOffParams := none
  flowHoursTotalMax : Option ℚ := none
  flowHoursTotalMin : Option ℚ := none
  loadFactorMin : Option ℚ := none
  loadFactorMax : Option ℚ := none
  previousFlowRate : Option Num := none
  deriving DecidableEq, Repr

/-- `self.size = size or CONFIG.modeling.BIG` (elements.py:220); an `InvestParameters` object is truthy. -/
inductive Size
  | num (x : ℚ)
  | invest (q : InvestParams)
  deriving DecidableEq, Repr

/-- The size with its default (elements.py:220). -/
def FlowData.effSize (cfg : Cfg) (f : FlowData) : Size :=
  match f.size with
  | .unset => .num cfg.big
  | .num x => .num (pyOr (some x) cfg.big)
  | .invest q => .invest q

/-- `FlowModel.relative_flow_rate_bounds` (elements.py:409-415). -/
def FlowData.relBounds (f : FlowData) : Num × Num :=
  match f.fixedProfile with
  | none => (f.relMin, f.relMax)
  | some g => (g, g)

/-- `FlowModel.absolute_flow_rate_bounds` (elements.py:397-406). -/
def FlowData.absBounds (cfg : Cfg) (f : FlowData) : Num × Num :=
  let (lo, hi) := f.relBounds
  match f.effSize cfg with
  | .num x => (lo.map (· * x), hi.map (· * x))
  | .invest q =>
    match q.fixedSize with
    | some x => (lo.map (· * x), hi.map (· * x))
    | none => (lo.map (· * q.minSize), hi.map (· * q.maxSize cfg))

/-- The result of a `FlowModel` (elements.py:294-308). -/
structure FlowOut where
  flowRate : Var
  onOff : Option OnOffOut
  invest : Option InvestOut
  sumFlowHours : Var
  tree : MTree
  shares : List ShareCall

/-- `_create_bounds_for_load_factor` (elements.py:367-391). -/
def loadFactorCons (sys : Sys) (el : String) (f : FlowData) (sum : Var) (invest : Option InvestOut) : List ConReq :=
  let size := match f.effSize sys.cfg with | .num x => x | .invest _ => 0
  (match f.loadFactorMax with
   | none => []
   | some lf =>
     let k := sys.total * lf
     [mkIneq el "load_factor_max" (sAll sum (.s 1) ::
       match invest with
       | some o => [sAll o.size (.s (-1 * k))]
       | none => [.const (.s (size * k))])]) ++
  (match f.loadFactorMin with
   | none => []
   | some lf =>
     let k := sys.total * lf
     [mkIneq el "load_factor_min" (sAll sum (.s (-1)) ::
       match invest with
       | some o => [sAll o.size (.s k)]
       | none => [.const (.s (-1 * size * k))])])

/-- The flow rate variable (elements.py:306-313). -/
def flowRateVar (sys : Sys) (el : String) (f : FlowData) : Except Err Var :=
  match f.onOff with
  | none =>
    mkVar el "flow_rate" sys.n (lb := some (f.absBounds sys.cfg).1) (ub := some (f.absBounds sys.cfg).2)
      (previous := f.previousFlowRate)
  | some _ => mkVar el "flow_rate" sys.n (lb := some (.s 0)) (previous := f.previousFlowRate)

/-- The investment of a flow (elements.py:324-336). -/
def flowInvest (sys : Sys) (el : String) (f : FlowData) (rate : Var) (on : Option Var) :
    Except Err (Option InvestOut) :=
  match f.effSize sys.cfg with
  | .num _ => .ok none
  | .invest q => some <$> investModel sys.cfg el q rate f.relBounds.1 f.relBounds.2 f.fixedProfile on

/-- The on/off model of a flow (elements.py:316-321). -/
def flowOnOff (sys : Sys) (el : String) (f : FlowData) (rate : Var) : Except Err (Option OnOffOut) :=
  match f.onOff with
  | none => .ok none
  | some params => some <$> onOffModel sys el params [(rate, f.absBounds sys.cfg)]

/-- `FlowModel.do_modeling` (elements.py:304-365); `el` is the full label of the flow. -/
def flowModel (sys : Sys) (el : String) (f : FlowData) : Except Err FlowOut := do
  let dt := Num.v sys.dt
  let rate ← flowRateVar sys el f
  let onOff ← flowOnOff sys el f rate
  let invest ← flowInvest sys el f rate (onOff.map (·.on))
  let sum ← mkVar el "sumFlowHours" 1 (lb := f.flowHoursTotalMin.map .s) (ub := f.flowHoursTotalMax.map .s)
  let cSum := mkEq el "sumFlowHours" [sSum rate dt, sAll sum (.s (-1))]
  let sh ← sharesTo .operation el "effects_per_flow_hour" f.effectsPerFlowHour dt (some rate)
  return {
    flowRate := rate, onOff, invest, sumFlowHours := sum,
    tree := .node [rate, sum] (cSum :: loadFactorCons sys el f sum invest)
      ((onOff.map OnOffOut.tree).toList ++ (invest.map InvestOut.tree).toList),
    shares := (onOff.map (·.shares)).getD [] ++ (invest.map (·.shares)).getD [] ++ sh }

/-- `Component` (elements.py:34-66).  `prevent` are the labels of `prevent_simultaneous_flows`. -/
structure CompData where
  label : String
  inputs : List FlowData
  outputs : List FlowData
  onOff : Option OnOffParams := none
  prevent : List String := []
  deriving DecidableEq, Repr

/-- The result of a `ComponentModel`: each flow with its data and model (elements.py:454-489). -/
structure CompOut where
  inputs : List (FlowData × FlowOut)
  outputs : List (FlowData × FlowOut)
  on : Option OnOffOut
  vars : List Var
  cons : List ConReq
  subs : List MTree
  shares : List ShareCall

/-- The models of the flows (elements.py:473). -/
def CompOut.flows (o : CompOut) : List (FlowData × FlowOut) := o.inputs ++ o.outputs

/-- The model with its sub models (structure.py:478-485). -/
def CompOut.tree (o : CompOut) : MTree := .node o.vars o.cons o.subs

/-- Full label of a flow (elements.py:274-277). -/
def flowFull (comp flow : String) : String := comp ++ "__" ++ flow

/-- Missing on/off parameters are filled in (elements.py:463-471). -/
def fillOnOff (c : CompData) (f : FlowData) : FlowData :=
  if (c.onOff.isSome || decide (f.label ∈ c.prevent)) && f.onOff.isNone then { f with onOff := some {} } else f

/-- Model one flow of a component (elements.py:463-475). -/
def compFlow (sys : Sys) (c : CompData) (f : FlowData) : Except Err (FlowData × FlowOut) := do
  let f := fillOnOff c f
  let o ← flowModel sys (flowFull c.label f.label) f
  return (f, o)

/-- `flow.model._on.on` of a flow of the component (elements.py:486): `AttributeError` without an on/off model. -/
def onOf (flows : List (FlowData × FlowOut)) (label : String) : Except Err Var :=
  match flows.find? (fun q => q.1.label == label) with
  | some q => match q.2.onOff with
    | some o => .ok o.on
    | none => .error .attribute
  | none => .error .attribute

/-- The on/off model of the component over all its flows (elements.py:477-482). -/
def compOnOff (sys : Sys) (c : CompData) (flows : List (FlowData × FlowOut)) : Except Err (Option OnOffOut) :=
  match c.onOff with
  | none => .ok none
  | some params =>
    some <$> onOffModel sys c.label params (flows.map fun q => (q.2.flowRate, q.1.absBounds sys.cfg))

/-- The prevention of simultaneous use (elements.py:484-489). -/
def compPrevent (c : CompData) (flows : List (FlowData × FlowOut)) : Except Err (List MTree) :=
  if c.prevent.isEmpty then .ok []
  else do
    let ons ← c.prevent.mapM (onOf flows)
    let t ← preventSimultaneous c.label ons
    return [t]

/-- `ComponentModel.do_modeling` (elements.py:460-489). -/
def compModel (sys : Sys) (c : CompData) : Except Err CompOut := do
  let ins ← c.inputs.mapM (compFlow sys c)
  let outs ← c.outputs.mapM (compFlow sys c)
  let flows := ins ++ outs
  let on ← compOnOff sys c flows
  let prev ← compPrevent c flows
  return {
    inputs := ins, outputs := outs, on, vars := [], cons := [],
    subs := flows.map (·.2.tree) ++ (on.map OnOffOut.tree).toList ++ prev,
    shares := (flows.map (·.2.shares)).flatten ++ (on.map (·.shares)).getD [] }

/-- `Bus` with the flows registered in it (elements.py:92-141): `inputs` are outputs of components. -/
structure BusData where
  label : String
  excessPenalty : Option Num := some (.s 100000)
  deriving DecidableEq, Repr

/-- `BusModel.do_modeling` (elements.py:424-451) with the flow rate variables of the registered flows. -/
structure BusOut where
  excessInput : Option Var
  excessOutput : Option Var
  tree : MTree
  shares : List ShareCall

/-- The model of a bus (elements.py:417-451). -/
def busModel (sys : Sys) (b : BusData) (inputs outputs : List Var) : Except Err BusOut :=
  let ops := inputs.map (fun x => sAll x (.s 1)) ++ outputs.map (fun x => sAll x (.s (-1)))
  match b.excessPenalty with
  | none => .ok ⟨none, none, .node [] [mkEq b.label "busBalance" ops] [], []⟩
  | some pen => do
    let f ← Num.mul (.v sys.dt) pen
    let ein ← mkVar b.label "excess_input" sys.n (lb := some (.s 0))
    let eout ← mkVar b.label "excess_output" sys.n (lb := some (.s 0))
    return ⟨some ein, some eout,
      .node [ein, eout] [mkEq b.label "busBalance" (ops ++ [sAll eout (.s (-1)), sAll ein (.s 1)])] [],
      [{ target := .penalty, effect := none, name := b.label ++ "__excess_input", var := some ein, factor := f, asSum := true },
       { target := .penalty, effect := none, name := b.label ++ "__excess_output", var := some eout, factor := f, asSum := true }]⟩

end Flix
