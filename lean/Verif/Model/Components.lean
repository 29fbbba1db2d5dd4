import Verif.Model.Elements

/-!
# `components.py` and `linear_converters.py`
-/

namespace Flix

/-! ## LinearConverter -/

/-- One dictionary of `conversion_factors`: flow label to factor (components.py:32). -/
abbrev Factors := List (String × Num)

/-- The factor of a flow in one dictionary (components.py:398-403). -/
def Factors.get (fs : Factors) (label : String) : Option Num := (fs.find? (fun q => q.1 == label)).map (·.2)

/-- `LinearConverter` (components.py:26-122) with either conversion factors or segments. -/
structure ConvData where
  comp : CompData
  factors : List Factors := []
  segments : List (String × List (Num × Num)) := []
  deriving DecidableEq, Repr

/-- `LinearConverter._plausibility_checks` (components.py:66-92), all raise `Exception`.  The code looks flows up as objects, here
they are found by their labels. -/
def ConvData.check (c : ConvData) : Except Err Unit :=
  let flows := c.comp.inputs ++ c.comp.outputs
  if c.factors.isEmpty && c.segments.isEmpty then .error .exception
  else if !c.factors.isEmpty && !c.segments.isEmpty then .error .exception
  else if !c.factors.isEmpty && decide (flows.length ≤ c.factors.length) then .error .exception
  else if c.factors.any (fun fs => fs.any fun q => !(flows.any fun f => f.label == q.1)) then .error .exception
  else if !c.segments.isEmpty && flows.any (fun f => match f.size with | .invest q => q.fixedSize.isNone | _ => false) then
    .error .exception
  else .ok ()

/-- The summands of one conversion equation (components.py:393-405).  Python iterates over sets; the order of summands
does not matter, here it is that of the flows. -/
def conversionOps (ins outs : List (FlowData × FlowOut)) (fs : Factors) : List Op :=
  ins.filterMap (fun q => (fs.get q.1.label).map fun f => sAll q.2.flowRate f) ++
  outs.filterMap (fun q => (fs.get q.1.label).map fun f => sAll q.2.flowRate (f.map (-1 * ·))) ++
  [.const (.s 0)]

/-- The sample points per flow rate (components.py:410-415); a flow without segments raises `KeyError`. -/
def segmentPoints (flows : List (FlowData × FlowOut)) (segs : List (String × List (Num × Num))) :
    Except Err (List (Var × List (Num × Num))) :=
  flows.mapM fun q =>
    match segs.find? (fun r => r.1 == q.1.label) with
    | some r => .ok (q.2.flowRate, r.2)
    | none => .error .key

/-- `LinearConverterModel.do_modeling` (components.py:378-420). -/
def converterModel (sys : Sys) (c : ConvData) : Except Err CompOut := do
  let o ← compModel sys c.comp
  if !c.factors.isEmpty then
    let cons := c.factors.mapIdx fun i fs =>
      mkEq c.comp.label ("conversion_" ++ toString i) (conversionOps o.inputs o.outputs fs)
    return { o with cons := o.cons ++ cons }
  else
    let pts ← segmentPoints o.flows c.segments
    let t ← multipleSegments c.comp.label sys.n pts (match o.on with | some on => .use on.on | none => .no)
    return { o with subs := o.subs ++ [t] }

/-! ## Storage -/

/-- `initial_charge_state` (components.py:144): `None`, a number or `'lastValueOfSim'`; any other text is refused. -/
inductive InitCharge
  | none
  | num (x : ℚ)
  | lastValueOfSim
  | other
  deriving DecidableEq, Repr

/-- `Storage` (components.py:125-229), constructor arguments. -/
structure StorageData where
  label : String
  charging : FlowData
  discharging : FlowData
  capacity : Size
  relMinCharge : Num := .s 0
  relMaxCharge : Num := .s 1
  initial : InitCharge := .num 0
  minFinal : Option ℚ := none
  maxFinal : Option ℚ := none
  etaCharge : Num := .s 1
  etaDischarge : Num := .s 1
  relLoss : Num := .s 0
  preventSimultaneous : Bool := true
  deriving DecidableEq, Repr

/-- `super().__init__` of `Storage` (components.py:191-197). -/
def StorageData.comp (s : StorageData) : CompData where
  label := s.label
  inputs := [s.charging]
  outputs := [s.discharging]
  prevent := if s.preventSimultaneous then [s.charging.label, s.discharging.label] else []

/-- `absolute_charge_state_bounds` (components.py:519-530). -/
def StorageData.absBounds (cfg : Cfg) (s : StorageData) : Num × Num :=
  match s.capacity with
  | .num x => (s.relMinCharge.map (· * x), s.relMaxCharge.map (· * x))
  | .invest q => (s.relMinCharge.map (· * q.minSize), s.relMaxCharge.map (· * q.maxSize cfg))

/-- `1 / eta` (components.py:473).  Simplification: a zero efficiency is an error (Python: `ZeroDivisionError` for a
Python number, `inf` for numpy). -/
def Num.inv (a : Num) : Except Err Num :=
  match a with
  | .s x => if x = 0 then .error .zeroDivision else .ok (.s (1 / x))
  | .v xs => if xs.any (· == 0) then .error .zeroDivision else .ok (.v (xs.map (1 / ·)))

/-- The charge state equation (components.py:461-474). -/
def chargeCon (sys : Sys) (s : StorageData) (c charge discharge : Var) : Except Err ConReq := do
  let dt := Num.v sys.dt
  let loss ← Num.mul s.relLoss dt
  let fin ← Num.mul (s.etaCharge.map (-1 * ·)) dt
  let inv ← s.etaDischarge.inv
  let fout ← Num.mul inv dt
  return mkEq s.label "charge_state"
    [sIdx c (.s 1) (List.range' 1 sys.n), sIdx c (loss.map (· - 1)) (List.range sys.n), sAll charge fin, sAll discharge fout]

/-- The limits of the final charge state (components.py:507-516). -/
def finalCons (sys : Sys) (s : StorageData) (c : Var) : List ConReq :=
  (match s.maxFinal with
   | none => []
   | some m => [mkIneq s.label "eq_final_charge_state_max" [sIdx c (.s 1) [sys.n], .const (.s m)]]) ++
  (match s.minFinal with
   | none => []
   | some m => [mkIneq s.label "eq_charge_state_end_min" [sIdx c (.s (-1)) [sys.n], .const (.s (-m))]])

/-- `_model_initial_and_final_charge_state` (components.py:487-516), only called if `initial_charge_state is not None`. -/
def initialFinalCons (sys : Sys) (s : StorageData) (c : Var) : Except Err (List ConReq) :=
  match s.initial with
  | .none => .ok []
  | .num x => .ok (mkEq s.label "initial_charge_state" [.const (.s x), sIdx c (.s 1) [0]] :: finalCons sys s c)
  | .lastValueOfSim =>
    if sys.n = 0 then .error .index   -- `indices[0]` of an empty range
    else .ok (mkEq s.label "initial_charge_state" [sIdx c (.s 1) [0], sIdx c (.s (-1)) [sys.n - 1]] :: finalCons sys s c)
  | .other => .error .exception

/-- The investment of a storage (components.py:476-481): no profile, no on variable. -/
def storageInvest (sys : Sys) (s : StorageData) (c : Var) : Except Err (Option InvestOut) :=
  match s.capacity with
  | .num _ => .ok none
  | .invest q => some <$> investModel sys.cfg s.label q c s.relMinCharge s.relMaxCharge none none

/-- The result of a `StorageModel` (components.py:423-432). -/
structure StorageOut where
  comp : CompOut
  charge : FlowOut
  discharge : FlowOut
  chargeState : Var
  nettoDischarge : Var
  invest : Option InvestOut

/-- The models of the two flows of a storage (components.py:434-435, elements.py:460-489). -/
def storageFlows (o : CompOut) : Except Err (FlowOut × FlowOut) :=
  match o.inputs, o.outputs with
  | [(_, a)], [(_, b)] => .ok (a, b)
  | _, _ => .error .exception

/-- `StorageModel.do_modeling` (components.py:434-485).  `lower_bound=-np.inf` is no bound. -/
def storageModel (sys : Sys) (s : StorageData) : Except Err StorageOut := do
  let o ← compModel sys s.comp
  let (a, b) ← storageFlows o
  let c ← mkVar s.label "charge_state" (sys.n + 1) (lb := some (s.absBounds sys.cfg).1) (ub := some (s.absBounds sys.cfg).2)
  let nd ← mkVar s.label "netto_discharge" sys.n
  let cNet := mkEq s.label "netto_discharge" [sAll nd (.s 1), sAll a.flowRate (.s 1), sAll b.flowRate (.s (-1))]
  let cCharge ← chargeCon sys s c a.flowRate b.flowRate
  let inv ← storageInvest sys s c
  let cIF ← initialFinalCons sys s c
  return {
    comp := { o with
      vars := o.vars ++ [c, nd], cons := o.cons ++ [cNet, cCharge] ++ cIF,
      subs := o.subs ++ (inv.map InvestOut.tree).toList, shares := o.shares ++ (inv.map (·.shares)).getD [] }
    charge := a, discharge := b, chargeState := c, nettoDischarge := nd, invest := inv }

/-! ## Transmission -/

/-- `Transmission` (components.py:232-319), constructor arguments. -/
structure TransData where
  label : String
  in1 : FlowData
  out1 : FlowData
  in2 : Option FlowData := none
  out2 : Option FlowData := none
  relLosses : Option Num := none
  absLosses : Option Num := none
  onOff : Option OnOffParams := none
  preventBoth : Bool := true
  deriving DecidableEq, Repr

/-- The size is an investment (`isinstance(flow.size, InvestParameters)`, components.py:338, 353). -/
def SizeArg.isInvest : SizeArg → Bool
  | .invest _ => true
  | _ => false

/-- `Transmission._plausibility_checks` (components.py:294-310).  It is defined but nothing calls it: `Transmission.__init__` does
not, and the only other callers are the constructors of the classes that define their own. -/
def TransData.plausibilityChecks (t : TransData) : Except Err Unit :=
  if t.in2.any (fun f => f.bus != t.out1.bus) then .error .assertion
  else if t.out2.any (fun f => f.bus != t.in1.bus) then .error .assertion
  else if t.out1.size.isInvest || t.in2.any (·.size.isInvest) || t.out2.any (·.size.isInvest) then .error .value
  else .ok ()

/-- `np.any(x != 0)` (components.py:331). -/
def Num.anyNonzero : Num → Bool
  | .s x => decide (x ≠ 0)
  | .v xs => xs.any fun x => decide (x ≠ 0)

/-- Filling in missing on/off parameters for absolute losses (components.py:331-334). -/
def TransData.fill (t : TransData) (f : FlowData) : FlowData :=
  match t.absLosses with
  | some a => if a.anyNonzero && f.onOff.isNone then { f with onOff := some {} } else f
  | none => f

/-- `in2.size = InvestParameters(maximum_size=in1.size.maximum_size)` if only `in1` has an investment
(components.py:337-341). -/
def TransData.fillIn2 (cfg : Cfg) (t : TransData) (f : FlowData) : FlowData :=
  match t.in1.size, f.size with
  | .invest _, .invest _ => f
  | .invest q, _ => { f with size := .invest { maximumSize := some (q.maxSize cfg) } }
  | _, _ => f

/-- The component handed to `ComponentModel.do_modeling` (components.py:277-285, 331-341). -/
def TransData.comp (cfg : Cfg) (t : TransData) : CompData where
  label := t.label
  inputs := t.fill t.in1 :: (t.in2.map fun f => t.fillIn2 cfg (t.fill f)).toList
  outputs := t.fill t.out1 :: (t.out2.map t.fill).toList
  onOff := t.onOff
  prevent := match t.in2 with
    | some f => if t.preventBoth then [t.in1.label, f.label] else []
    | none => []

/-- `in_flow.model._on.on` with `AttributeError` if there is no on/off model (components.py:367-368). -/
def FlowOut.onVar (f : FlowOut) : Except Err Var :=
  match f.onOff with
  | some o => .ok o.on
  | none => .error .attribute

/-- The summand of the absolute losses (components.py:367-368). -/
def absLossOps (t : TransData) (i : FlowOut) : Except Err (List Op) :=
  match t.absLosses with
  | none => .ok []
  | some a => do
    let on ← i.onVar
    return [sAll on (a.map (-1 * ·))]

/-- The efficiency (components.py:364). -/
def TransData.efficiency (t : TransData) : Num :=
  match t.relLosses with
  | none => .s 1
  | some r => r.map (1 - ·)

/-- `create_transmission_equation` (components.py:359-369). -/
def transCon (t : TransData) (name : String) (i o : FlowOut) : Except Err ConReq := do
  let extra ← absLossOps t i
  return mkEq t.label name ([sAll i.flowRate t.efficiency, sAll o.flowRate (.s (-1))] ++ extra)

/-- The equation of the second direction and that of equal sizes (components.py:348-357): `_investment.size` raises
`AttributeError` if a flow has no investment, `out2.model` if there is no second output. -/
def transSecond (t : TransData) (i1 : FlowOut) (i2 o2 : Option FlowOut) : Except Err (List ConReq) :=
  match i2 with
  | none => .ok []
  | some i2 =>
    match o2 with
    | none => .error .attribute
    | some o2 => do
      let c2 ← transCon t "direction_2" i2 o2
      match t.in1.size with
      | .invest _ =>
        match i1.invest, i2.invest with
        | some a, some b =>
          return [c2, mkEq t.label "equal_size_in_both_directions" [sAll a.size (.s 1), sAll b.size (.s (-1))]]
        | _, _ => .error .attribute
      | _ => return [c2]

/-- The result of a `TransmissionModel` (components.py:322-326). -/
structure TransOut where
  comp : CompOut
  in1 : FlowOut
  out1 : FlowOut
  in2 : Option FlowOut
  out2 : Option FlowOut

/-- The models of the flows of a transmission (components.py:343, elements.py:460-489). -/
def transFlows (o : CompOut) : Except Err (FlowOut × Option FlowOut × FlowOut × Option FlowOut) :=
  match o.inputs, o.outputs with
  | a :: as, b :: bs => .ok (a.2, as.head?.map (·.2), b.2, bs.head?.map (·.2))
  | _, _ => .error .exception

/-- `TransmissionModel.do_modeling` (components.py:328-357). -/
def transmissionModel (sys : Sys) (t : TransData) : Except Err TransOut := do
  let o ← compModel sys (t.comp sys.cfg)
  let (i1, i2, o1, o2) ← transFlows o
  let c1 ← transCon t "direction_1" i1 o1
  let c2 ← transSecond t i1 i2 o2
  return { comp := { o with cons := o.cons ++ [c1] ++ c2 }, in1 := i1, out1 := o1, in2 := i2, out2 := o2 }

/-! ## Sources, sinks and named converters -/

/-- `SourceAndSink` (components.py:540-580). -/
def sourceAndSink (label : String) (source sink : FlowData) (prevent : Bool := true) : CompData :=
  { label, inputs := [sink], outputs := [source], prevent := if prevent then [sink.label, source.label] else [] }

/-- `Source` (components.py:583-596) -/
def source (label : String) (f : FlowData) : CompData := { label, inputs := [], outputs := [f] }

/-- `Sink` (components.py:599-614) -/
def sink (label : String) (f : FlowData) : CompData := { label, inputs := [f], outputs := [] }

/-- `Boiler`, `Power2Heat`, `HeatPump` (linear_converters.py:18-138): `{in: eta, out: 1}`. -/
def simpleConverter (label : String) (eta : Num) (i o : FlowData) (onOff : Option OnOffParams) : ConvData :=
  { comp := { label, inputs := [i], outputs := [o], onOff }, factors := [[(i.label, eta), (o.label, .s 1)]] }

/-- `CoolingTower` (linear_converters.py:141-179). -/
def coolingTower (label : String) (demand : Num) (pel qth : FlowData) (onOff : Option OnOffParams) : ConvData :=
  { comp := { label, inputs := [pel, qth], outputs := [], onOff },
    factors := [[(pel.label, .s 1), (qth.label, demand.map (fun x => -x))]] }

/-- `CHP` (linear_converters.py:182-235). -/
def chp (label : String) (etaTh etaEl : Num) (qfu pel qth : FlowData) (onOff : Option OnOffParams) : ConvData :=
  { comp := { label, inputs := [qfu], outputs := [qth, pel], onOff },
    factors := [[(qfu.label, etaTh), (qth.label, .s 1)], [(qfu.label, etaEl), (pel.label, .s 1)]] }

/-- `HeatPumpWithSource` (linear_converters.py:238-284): `COP / (COP - 1)`.  Simplification: `COP = 1` is an error. -/
def heatPumpWithSource (label : String) (cop : Num) (pel qab qth : FlowData) (onOff : Option OnOffParams) :
    Except Err ConvData := do
  let inv ← (cop.map (· - 1)).inv
  let f ← Num.mul cop inv
  return { comp := { label, inputs := [pel, qab], outputs := [qth], onOff },
           factors := [[(pel.label, cop), (qth.label, .s 1)], [(qab.label, f), (qth.label, .s 1)]] }

end Flix
