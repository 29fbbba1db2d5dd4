import Verif.Model.Run

/-!
# What running a calculation should do
-/

namespace Flix

/-- What the manual of each solver calls the accepted gap. -/
def SolverClass.gapName : SolverClass → String
  | .gurobi => "mipgap"
  | .cplex => "mipgap"
  | .highs => "mip_rel_gap"
  | .cbc => "ratio"
  | .glpk => "mipgap"

/-- The name under which Pyomo knows each solver. -/
def SolverClass.pyomoName : SolverClass → String
  | .gurobi => "gurobi"
  | .cplex => "cplex"
  | .highs => "appsi_highs"
  | .cbc => "cbc"
  | .glpk => "glpk"

/-- What the manual of each solver calls the limit of time; `GlpkSolver` takes none. -/
def SolverClass.limitName : SolverClass → Option String
  | .gurobi => some "TimeLimit"
  | .cplex => some "timelimit"
  | .highs => some "time_limit"
  | .cbc => some "sec"
  | .glpk => none

/-- The Pyomo variables of a model hold the values of `σ`. -/
def Held.Loads (h : Held) (m : SolverModel) (σ : Assignment) : Prop := ∀ x ∈ m.vars, ∀ i < x.length, h x.label i = some (σ x.label i)

/-- A result shows the values `f 0, …, f (n - 1)`: a number if there is one, an array otherwise. -/
def RTree.ShowsValues (t : RTree) (n : Nat) (f : Nat → ℚ) : Prop :=
  (n = 1 → t = .scal (f 0)) ∧ (n ≠ 1 → ∃ xs, t = .arr xs ∧ xs.length = n ∧ ∀ i < n, xs[i]? = some (f i))

/-- Every variable of the model has the values of `σ` as its result. -/
def RunState.Shows (r : RunState) (m : SolverModel) (σ : Assignment) : Prop :=
  ∀ x ∈ m.vars, ∃ t, r.res x.label = some t ∧ t.ShowsValues x.length (σ x.label)

/-- A call after which the calculation remembers results: reading them, or saving them to a file. -/
def RunOp.Reads : RunOp → Prop
  | .model _ _ => False
  | .solve _ save _ => save ≠ .no
  | .results => True

/-- A call that saves nothing. -/
def RunOp.Unsaved : RunOp → Prop
  | .solve _ save _ => save = .no
  | _ => True

/-- A program that finds the solution `σ`, whatever it is asked. -/
def External.finds (σ : Assignment) : External := fun _ _ _ => { held := fun l i => some (σ l i) }

/-- A program that ends without a solution and without an exception, so that Pyomo leaves the values as they are. -/
def External.givesUp : External := fun _ _ h => { held := h, status := "warning", condition := "infeasible", message := "infeasible" }

/-- A program that cannot be started. -/
def External.missing : External := fun _ _ h => { held := h, err := some .exception }

end Flix
