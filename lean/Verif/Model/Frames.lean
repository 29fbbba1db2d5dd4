import Verif.Model.Results

/-!
# `CalculationResults.to_dataframe` (results.py:133-198)
-/

namespace Flix

/-- `ComponentResults.to_dataframe` (results.py:434-446) for the flow rates: columns of the inputs, then of the outputs, each with its factor. -/
def compTable (σ : Assignment) (n : Nat) (c : ResComp) (inF outF : Option ℚ) : Except Err (List (String × List ℚ)) := do
  let fs ← c.flowResults σ n
  let ins ← inF.elim (.ok []) fun k => (fs.filter (·.isInput)).mapM (FlowRes.column k)
  let outs ← outF.elim (.ok []) fun k => (fs.filter fun f => !f.isInput).mapM (FlowRes.column k)
  dataFrame (pyUpdate (pyUpdate [] ins) outs)

/-- `FlowResults.to_dataframe` (results.py:411-412): one column, named like the variable. -/
def flowTable (f : FlowRes) : Except Err (List (String × List ℚ)) := do
  let d ← f.data.dict?.elim (.error .type) .ok
  let v ← dictGet d "flow_rate"
  dataFrame [("flow_rate", v)]

/-- Entries of the dictionary of components and buses (results.py:133-198). -/
inductive FoundElement
  | comp (c : ResComp)
  | bus (b : BusData)

/-- `{**self.component_results, **self.bus_results}` (results.py:172), keyed by label (results.py:83-92, 106-126). -/
def elementDict (cfg : Cfg) (n : Nat) (s : System) : List (String × FoundElement) :=
  pyUpdate (pyUpdate [] (s.comps.map fun c => ((c.res cfg n).label, .comp (c.res cfg n)))) (s.buses.map fun b => (b.label, .bus b))

/-- A table and its index, if `to_dataframe` sets one (results.py:172-198). -/
structure Frame where
  cols : List (String × List ℚ)
  index : Option (List Int)
  deriving DecidableEq, Repr

/-- `len(df)` of a table with columns (results.py:190, 193). -/
def frameRows : List (String × List ℚ) → Nat
  | [] => 0
  | q :: _ => q.2.length

/-- `df.loc[len(df)] = df.iloc[-1]` (results.py:191). -/
def repeatLast (cols : List (String × List ℚ)) : List (String × List ℚ) := cols.map fun q => (q.1, q.2 ++ q.2.getLast?.toList)

/-- `df.index = times`: another number of rows is refused by pandas (results.py:192-196). -/
def setIndex (cols : List (String × List ℚ)) (times : List Int) : Except Err Frame :=
  if frameRows cols = times.length then .ok ⟨cols, some times⟩ else .error .value

/-- The end of `to_dataframe` (results.py:186-198): `times` is `time_with_end`. -/
def frameOf (times : List Int) (withLast : Bool) (cols : List (String × List ℚ)) : Except Err Frame :=
  if frameRows cols = 0 then .ok ⟨cols, none⟩
  else if withLast then
    setIndex (if frameRows cols = times.dropLast.length then repeatLast cols else cols) times
  else if frameRows cols = times.length then setIndex cols times
  else setIndex cols times.dropLast

/-- The choice of the table (results.py:172-182). -/
def elementTable (cfg : Cfg) (σ : Assignment) (n : Nat) (s : System) (flows : List (String × FlowRes)) (label : String) (inF outF : Option ℚ) :
    Except Err (List (String × List ℚ)) :=
  match pyLookup (elementDict cfg n s) label, pyLookup flows label with
  | some _, some _ => .error .exception
  | some (.comp c), none => compTable σ n c inF outF
  | some (.bus b), none => busTable cfg σ n s b inF outF
  | none, some f => flowTable f
  | none, none => .error .value

/-- `CalculationResults.to_dataframe` (results.py:133-198) for `variable_name='flow_rate'`; other entries of a flow's results are numbers or
dictionaries, of which no table over time can be made.  The results of all flows are made when the results are loaded (results.py:83-131). -/
def toDataframe (cfg : Cfg) (σ : Assignment) (n : Nat) (times : List Int) (s : System) (label : String) (inF outF thr : Option ℚ) (withLast : Bool) :
    Except Err Frame := do
  let flows ← allFlowResults σ n (s.comps.map (Comp.res cfg n))
  let df ← elementTable cfg σ n s flows label inF outF
  frameOf times withLast (thr.elim df fun x => aboveThreshold x df)

end Flix
