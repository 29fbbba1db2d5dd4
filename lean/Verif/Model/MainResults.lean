import Verif.Model.System
import Verif.Model.Registry
import Verif.Model.Aggregation

/-!
# `SystemModel.main_results` and the warnings of `SystemModel.solve` (structure.py:66-119, 161-195)
-/

namespace Flix

/-- `{'operation': ..., 'invest': ..., 'sum': ...}` (structure.py:167-171). -/
structure EffectRes where
  operation : ℚ
  invest : ℚ
  sum : ℚ
  deriving DecidableEq, Repr

/-- The dictionary `main_results`; `lower bound` (taken from the solver) is left out (structure.py:161-194). -/
structure MainResults where
  effects : List (String × EffectRes)
  penalty : ℚ
  objective : ℚ
  busesWithExcess : List String
  invested : List (String × ℚ)
  notInvested : List (String × ℚ)

/-- `f'{effect.label} [{effect.unit}]'` (structure.py:167). -/
def effectKey (label unit : String) : String := label ++ " [" ++ unit ++ "]"

/-- The entry of one effect (structure.py:167-171). -/
def effectEntry (unit : String → String) (σ : Assignment) (ev : EffectVars) : String × EffectRes :=
  (effectKey ev.data.label (unit ev.data.label), ⟨σ ev.operation.sum.label 0, σ ev.invest.sum.label 0, σ ev.all.sum.label 0⟩)

/-- `np.sum(variable.result) > 1e-3` for a variable that may be missing (structure.py:175-180). -/
def exceeds (n : Nat) (σ : Assignment) : Option Var → Bool
  | none => false
  | some x => decide (((List.range n).map (σ x.label)).sum > 1 / 1000)

/-- structure.py:175-180; `bus.with_excess` (elements.py:139-141) is whether the penalty is given. -/
def busesWithExcess (n : Nat) (σ : Assignment) (buses : List (BusData × BusOut)) : List String :=
  buses.filterMap fun q => if q.1.excessPenalty.isSome && (exceeds n σ q.2.excessInput || exceeds n σ q.2.excessOutput) then some q.1.label else none

/-- The `InvestmentModel`s among the sub models of a component: `element.label_full` and the label of `size`.  Breadth first
(structure.py:479-486): the one of the storage itself comes before those of the flows. -/
def investModels (c : Comp) (label : String) (o : CompOut) : List (String × String) :=
  (match c with
   | .storage s => match s.capacity with
     | .invest _ => [(s.label, s.label ++ "__" ++ "Investment" ++ "_" ++ "size")]
     | .num _ => []
   | _ => []) ++
  o.flows.filterMap fun q => q.2.invest.map fun i => (flowFull label q.1.label, i.size.label)

/-- One round of the loop over the sub models (structure.py:186-193). -/
def investEntry (σ : Assignment) (acc : List (String × ℚ) × List (String × ℚ)) (q : String × String) : List (String × ℚ) × List (String × ℚ) :=
  if σ q.2 0 > 1 / 1000 then (pySet acc.1 q.1 (σ q.2 0), acc.2) else (acc.1, pySet acc.2 q.1 (σ q.2 0))

/-- `main_results` (structure.py:161-195) of a solved model.  `unit` gives the unit of an effect. -/
def mainResults (sys : Sys) (unit : String → String) (σ : Assignment) (s : System) (o : SysOut) : Except Err MainResults := do
  let terms ← objectiveTerms o.solver.objective
  let inv := ((s.comps.zip o.comps).flatMap fun q => investModels q.1 q.1.name q.2).foldl (investEntry σ) ([], [])
  return {
    effects := pyUpdate [] (o.coll.effects.map (effectEntry unit σ))
    penalty := σ o.coll.penalty.sum.label 0
    objective := termsVal σ terms
    busesWithExcess := busesWithExcess sys.n σ (s.buses.zip o.buses)
    invested := inv.1
    notInvested := inv.2 }

/-- The buses `solve` warns about (structure.py:66, 114-115): the parameter `excess_threshold` is not used. -/
def warnedBuses (_excessThreshold : ℚ) (r : MainResults) : List String := r.busesWithExcess

/-- Whether `solve` warns about the total penalty (structure.py:117-118). -/
def warnsPenalty (r : MainResults) : Bool := decide (r.penalty > 10)

end Flix
