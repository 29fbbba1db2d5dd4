import Verif.Model.Tree

/-!
# Time: `FlowSystem.__init__`, `get_time_data_from_indices`, `create_datetime_array`, `check_time_series`

A `datetime64` array is its unit and the numbers of ticks since 1970.  Parsing of date texts is not modelled: a date is given by its unit and
ticks.
-/

namespace Flix

/-- Units of `datetime64`/`timedelta64`.  Units below `ns` are left out (flow_system.py:31, 335). -/
inductive TUnit
  | Y | M | W | D | h | m | s | ms | us | ns
  deriving DecidableEq, Repr

/-- Nanoseconds per tick; years and months have no fixed length (numpy behind flow_system.py:263-264). -/
def TUnit.nanos : TUnit → Option Nat
  | .Y => none
  | .M => none
  | .W => some 604800000000000
  | .D => some 86400000000000
  | .h => some 3600000000000
  | .m => some 60000000000
  | .s => some 1000000000
  | .ms => some 1000000
  | .us => some 1000
  | .ns => some 1

/-- `np.timedelta64(1, unit) / np.timedelta64(1, 'h')`; numpy raises a `TypeError` for years and months
(flow_system.py:264). -/
def TUnit.hours (u : TUnit) : Except Err ℚ :=
  match u.nanos with
  | some k => .ok ((k : ℚ) / 3600000000000)
  | none => .error .type

/-- A `datetime64` array (flow_system.py:51-53). -/
structure TArr where
  unit : TUnit
  ticks : List Int
  deriving DecidableEq, Repr

/-- `last_time_step_hours` as given (flow_system.py:32). -/
inductive LastStep
  | int (k : Int)
  | float (x : ℚ)
  deriving DecidableEq, Repr

/-- What `FlowSystem.__init__` stores about time (flow_system.py:51-63). -/
structure TimeData where
  unit : TUnit
  ticks : List Int
  withEnd : List Int
  prevDt : Num
  deriving DecidableEq, Repr

/-- `astype('datetime64[us]')` of an `ns` array (flow_system.py:52-53): rounds down. -/
def TArr.cast (ts : TArr) : TArr := if ts.unit = .ns then ⟨.us, ts.ticks.map (· / 1000)⟩ else ts

/-- `xs[i]` of Python and numpy: negative indices count from the end (flow_system.py:250-256). -/
def pyGetI {α} (xs : List α) (i : Int) : Except Err α :=
  match (if i < 0 then if 0 ≤ i + xs.length then xs[(i + xs.length).toNat]? else none else xs[i.toNat]?) with
  | some x => .ok x
  | none => .error .index

/-- `time_series[-1] + self.last_time_step_hours` (flow_system.py:55-58): an integer is a number of ticks, a float a `TypeError`. -/
def endTick (ts : TArr) : Option LastStep → Except Err Int
  | none => do
    let a ← pyGetI ts.ticks (-1)
    let b ← pyGetI ts.ticks (-2)
    let c ← pyGetI ts.ticks (-1)
    return c + (a - b)
  | some (.int k) => do
    let a ← pyGetI ts.ticks (-1)
    return a + k
  | some (.float _) => do
    let _ ← pyGetI ts.ticks (-1)
    throw .type

/-- Differences of neighbours (flow_system.py:263). -/
def diffs (xs : List Int) : List Int := List.zipWith (fun a b => b - a) xs xs.tail

/-- `previous_dt_in_hours` (flow_system.py:59-63). -/
def previousDt (ts : TArr) : Option Num → Except Err Num
  | some d => .ok d
  | none => do
    let b ← pyGetI ts.ticks 1
    let a ← pyGetI ts.ticks 0
    let w ← ts.unit.hours
    return .s ((b - a : Int) * w)

/-- `utils.check_time_series` (utils.py:51-66); the warning about different widths is not modelled. -/
def checkTimeSeries (u : TUnit) (xs : List Int) : Except Err Unit := do
  let _ ← u.hours
  if (diffs xs).any (· < 0) then throw .exception else return ()

/-- `FlowSystem.__init__` (flow_system.py:29-65). -/
def TimeData.init (ts : TArr) (last : Option LastStep) (prev : Option Num) : Except Err TimeData := do
  let e ← endTick ts.cast last
  let p ← previousDt ts.cast prev
  let _ ← checkTimeSeries ts.cast.unit (ts.cast.ticks ++ [e])
  return { unit := ts.cast.unit, ticks := ts.cast.ticks, withEnd := ts.cast.ticks ++ [e], prevDt := p }

/-- Result of `get_time_data_from_indices` (flow_system.py:269). -/
structure TimeSel where
  ticks : List Int
  withEnd : List Int
  dt : List ℚ
  total : ℚ
  deriving DecidableEq, Repr

/-- Default `range(len(self.time_series))` (flow_system.py:245-247). -/
def TimeData.indices (d : TimeData) : Option (List Int) → List Int
  | some idx => idx
  | none => (List.range d.ticks.length).map (fun (i : Nat) => (i : Int))

/-- The time stamp after the last selected one (flow_system.py:252-257). -/
def TimeData.endTime (d : TimeData) (last : Int) : Except Err Int :=
  if last + 1 < d.withEnd.length then pyGetI d.withEnd (last + 1) else .error .index

/-- `get_time_data_from_indices` (flow_system.py:228-269).  A `range` and a list of integers behave alike. -/
def TimeData.select (d : TimeData) (idx : Option (List Int)) : Except Err TimeSel := do
  let ts ← (d.indices idx).mapM (pyGetI d.ticks)
  let last ← pyGetI (d.indices idx) (-1)
  let e ← d.endTime last
  let w ← d.unit.hours
  let dt := (diffs (ts ++ [e])).map fun (k : Int) => (k : ℚ) * w
  return { ticks := ts, withEnd := ts ++ [e], dt := dt, total := dt.sum }

/-- The time part of `SystemModel.__init__` (structure.py:44-51). -/
def TimeData.sys (d : TimeData) (cfg : Cfg) (idx : Option (List Int)) : Except Err Sys := do
  let t ← d.select idx
  return { n := t.ticks.length, dt := t.dt, total := t.total, prevDt := d.prevDt, cfg := cfg }

/-- The unit letter of a frequency; other letters are no numpy unit (flow_system.py:335). -/
def unitOfChar : Char → Except Err TUnit
  | 'Y' => .ok .Y
  | 'M' => .ok .M
  | 'W' => .ok .W
  | 'D' => .ok .D
  | 'h' => .ok .h
  | 'm' => .ok .m
  | 's' => .ok .s
  | _ => .error .type

/-- `int(text)` for a text of ASCII digits (flow_system.py:336). -/
def digitsVal (cs : List Char) : Nat := cs.foldl (fun a c => 10 * a + (c.toNat - '0'.toNat)) 0

/-- `freq` (flow_system.py:335-337): the last character is the unit, the rest the interval if it consists of digits, else 1.
`str.isdigit` also accepts some characters outside ASCII; those are not modelled. -/
def parseFreq (freq : List Char) : Except Err (Nat × TUnit) := do
  let c ← pyGetI freq (-1)
  let u ← unitOfChar c
  return (if freq.dropLast ≠ [] ∧ freq.dropLast.all (·.isDigit) then digitsVal freq.dropLast else 1, u)

/-- A single time stamp (flow_system.py:340). -/
structure TStamp where
  unit : TUnit
  tick : Int
  deriving DecidableEq, Repr

/-- The finer of two units of fixed length: the unit numpy uses for results
(numpy behind flow_system.py:345-348). -/
def finer (u v : TUnit) : Except Err TUnit :=
  match u.nanos, v.nanos with
  | some a, some b => .ok (if a ≤ b then u else v)
  | _, _ => .error .type

/-- Ticks of `u` as ticks of the unit `v` (numpy behind flow_system.py:345-348). -/
def toUnit (u v : TUnit) (k : Int) : Except Err Int :=
  match u.nanos, v.nanos with
  | some a, some b => .ok (k * (a / b : Nat))
  | _, _ => .error .type

/-- Length of `np.arange` on dates: the number of `i` with `start + i*step < end` (flow_system.py:345). -/
def arangeLen (a b step : Int) : Nat := if a < b then ((b - a + step - 1) / step).toNat else 0

/-- The branch with `end` (flow_system.py:343-345). -/
def datesUntil (start e : TStamp) (f : Nat × TUnit) : Except Err TArr := do
  let u1 ← finer start.unit e.unit
  let u ← finer u1 f.2
  let a ← toUnit start.unit u start.tick
  let b ← toUnit e.unit u e.tick
  let k ← toUnit f.2 u f.1
  if k = 0 then throw .value else return ⟨u, (List.range (arangeLen a b k)).map fun (i : Nat) => a + i * k⟩

/-- The branch with `steps` (flow_system.py:347-348). -/
def datesSteps (start : TStamp) (n : Nat) (f : Nat × TUnit) : Except Err TArr := do
  let u ← finer start.unit f.2
  let a ← toUnit start.unit u start.tick
  let k ← toUnit f.2 u f.1
  return ⟨u, (List.range n).map fun (i : Nat) => a + i * k⟩

/-- The choice of the branch (flow_system.py:343-351); `steps=0` counts as no steps, `range` of a negative number is empty. -/
def datesChoose (start : TStamp) (steps : Option Int) (f : Nat × TUnit) : Option TStamp → Except Err TArr
  | some e => datesUntil start e f
  | none =>
    match steps with
    | none => .error .value
    | some n => if n = 0 then .error .value else if n < 0 then .ok ⟨start.unit, []⟩ else datesSteps start n.toNat f

/-- `create_datetime_array` (flow_system.py:295-351).  `start` and `stop` (`end`) are dates with the unit numpy gives them;
an empty `end` text counts as none. -/
def createDatetimeArray (start : TStamp) (steps : Option Int) (freq : String) (stop : Option TStamp) : Except Err TArr := do
  let f ← parseFreq freq.toList
  datesChoose start steps f stop

end Flix
