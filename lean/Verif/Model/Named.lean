import Verif.Model.AggRun

/-!
# Model of the constructors of the named converters (linear_converters.py)

`Model/Components.lean` has the converters they describe; here are the constructors themselves: which arguments they take, what they
calculate with them and which warnings they log.
-/

namespace Flix

/-- `Numeric_TS` (core.py:69-71): a number or array, or a `TimeSeriesData` (core.py:20-66) around one.  Simplification: the weights
and groups of `TimeSeriesData` play no part here. -/
inductive Given
  | num (a : Num)
  | series (a : Num)
  deriving DecidableEq, Repr

/-- The data that the model uses (linear_converters.py:310-311; core.py:100-105). -/
def Given.data : Given → Num
  | .num a => a
  | .series a => a

/-- The operand of an arithmetic operator: `TimeSeriesData` defines none, so that Python raises `TypeError` (core.py:20-66). -/
def Given.operand : Given → Except Err Num
  | .num a => .ok a
  | .series _ => .error .type

/-- A logged warning (linear_converters.py:316-325): the label of the parameter, whether the lower bound is meant, and the bound. -/
structure Warned where
  element : String
  parameter : String
  lower : Bool
  bound : ℚ
  deriving DecidableEq, Repr

/-- `check_bounds` (linear_converters.py:287-325); the bounds are numbers at all its callers. -/
def checkBounds (value : Given) (parameter element : String) (lo hi : ℚ) : List Warned :=
  (if value.data.values.all (fun x => decide (lo < x)) then [] else [⟨element, parameter, true, lo⟩]) ++
  (if value.data.values.all (fun x => decide (x < hi)) then [] else [⟨element, parameter, false, hi⟩])

/-- A created converter and the warnings of its constructor (linear_converters.py:18-284). -/
structure Created where
  conv : ConvData
  warnings : List Warned

/-- `Boiler.__init__` (linear_converters.py:19-57). -/
def Boiler.create (label : String) (eta : Given) (qfu qth : FlowData) (q : Option OnOffParams) : Except Err Created :=
  .ok ⟨simpleConverter label eta.data qfu qth q, checkBounds eta "eta" label 0 1⟩

/-- `Power2Heat.__init__` (linear_converters.py:61-98). -/
def Power2Heat.create (label : String) (eta : Given) (pel qth : FlowData) (q : Option OnOffParams) : Except Err Created :=
  .ok ⟨simpleConverter label eta.data pel qth q, checkBounds eta "eta" label 0 1⟩

/-- `HeatPump.__init__` (linear_converters.py:102-138). -/
def HeatPump.create (label : String) (cop : Given) (pel qth : FlowData) (q : Option OnOffParams) : Except Err Created :=
  .ok ⟨simpleConverter label cop.data pel qth q, checkBounds cop "COP" label 1 20⟩

/-- `CoolingTower.__init__` (linear_converters.py:142-179): `-specific_electricity_demand`. -/
def CoolingTower.create (label : String) (demand : Given) (pel qth : FlowData) (q : Option OnOffParams) : Except Err Created := do
  let d ← demand.operand
  return ⟨coolingTower label d pel qth q, checkBounds demand "specific_electricity_demand" label 0 1⟩

/-- `CHP.__init__` (linear_converters.py:183-235): `eta_el + eta_th`. -/
def CHP.create (label : String) (etaTh etaEl : Given) (qfu pel qth : FlowData) (q : Option OnOffParams) : Except Err Created := do
  let el ← etaEl.operand
  let th ← etaTh.operand
  let both ← Num.add el th
  return ⟨chp label etaTh.data etaEl.data qfu pel qth q,
    checkBounds etaTh "eta_th" label 0 1 ++ checkBounds etaEl "eta_el" label 0 1 ++ checkBounds (.num both) "eta_th+eta_el" label 0 1⟩

/-- `HeatPumpWithSource.__init__` (linear_converters.py:239-284): `COP / (COP - 1)`; the label in the warning is `eta_th`. -/
def HeatPumpWithSource.create (label : String) (cop : Given) (pel qab qth : FlowData) (q : Option OnOffParams) : Except Err Created := do
  let c ← cop.operand
  let conv ← heatPumpWithSource label c pel qab qth q
  return ⟨conv, checkBounds cop "eta_th" label 1 20⟩

end Flix
