import Verif.Model.Aggregation
import Mathlib.Data.Finset.Card
import Mathlib.Data.Finset.Range

/-!
# Which steps are meant to be equal in an aggregated calculation
-/

namespace Flix

/-- Steps `a` and `b` are at the same position (not the first) of two periods of the same cluster. -/
def ClusterData.SamePlace (c : ClusterData) (a b : Nat) : Prop :=
  ∃ p q k j, c.order[p]? = some k ∧ c.order[q]? = some k ∧ j < c.len ∧ 0 < j ∧ a = p * c.len + j ∧ b = q * c.len + j ∧ a < c.total ∧ b < c.total

/-- The representative of step `b`: the same position of the first period of the cluster; `none` if `b` is the first step of its
period or its period is the first one of the cluster. -/
def ClusterData.rep (c : ClusterData) (b : Nat) : Option Nat :=
  match c.order[b / c.len]? with
  | none => none
  | some k => if b % c.len = 0 ∨ c.order.idxOf k = b / c.len then none else some (c.order.idxOf k * c.len + b % c.len)

/-- The steps that have a representative. -/
def ClusterData.copies (c : ClusterData) : Finset Nat := (Finset.range c.total).filter fun b => (c.rep b).isSome

/-- The steps at which a variable differs from its representative. -/
def ClusterData.deviations (c : ClusterData) (σ : Assignment) (x : String) : Finset Nat :=
  c.copies.filter fun b => ∃ a ∈ c.rep b, σ x a ≠ σ x b

/-- Steps switched from 0 to 1 relative to the representative. -/
def ClusterData.ups (c : ClusterData) (σ : Assignment) (x : String) : Finset Nat :=
  c.copies.filter fun b => ∃ a ∈ c.rep b, σ x a = 0 ∧ σ x b = 1

/-- Steps switched from 1 to 0. -/
def ClusterData.downs (c : ClusterData) (σ : Assignment) (x : String) : Finset Nat :=
  c.copies.filter fun b => ∃ a ∈ c.rep b, σ x a = 1 ∧ σ x b = 0

end Flix
