import Verif.Model.Math

/-!
# Intended meaning of constraints

Independent of how constraints are stored, checked and translated: every summand contributes
`factor[i] * variable[index i]` to row `i`, where scalars and one-element lists are used for every row.
-/

namespace Flix

/-- Entry `i` of a number or series; a scalar or one-element series is the same for every `i`. -/
def Num.at : Num → Nat → ℚ
  | .s x, _ => x
  | .v [x], _ => x
  | .v xs, i => xs.getD i 0

/-- Entry `i` of a list of indices; a one-element list is the same for every `i`. -/
def idxAt : List Nat → Nat → Nat
  | [k], _ => k
  | l, i => l.getD i 0

/-- The list of indices meant by an optional argument. -/
def idxOf (x : Var) (indices : Option (List Nat)) : List Nat := indices.getD (List.range x.length)

/-- What a call means for the left side of row `i`. -/
def Op.lhs (σ : Assignment) (i : Nat) : Op → ℚ
  | .summand x f idx false => f.at i * σ x.label (idxAt (idxOf x idx) i)
  | .summand x f idx true =>
    ((List.range (if f.len = 1 then (idxOf x idx).length else f.len)).map
      fun k => f.at k * σ x.label (idxAt (idxOf x idx) k)).sum
  | .const _ => 0

/-- What a call means for the right side of row `i`. -/
def Op.rhs (i : Nat) : Op → ℚ
  | .summand .. => 0
  | .const c => c.at i

/-- How many rows a call speaks about (1: the same for all rows). -/
def Op.len : Op → Nat
  | .summand _ _ _ true => 1
  | .summand x f idx false => if f.len = 1 then (idxOf x idx).length else f.len
  | .const c => c.len

/-- The number of rows described by a list of calls. -/
def opsLen (ops : List Op) : Nat := ops.foldl (fun L op => if L = 1 then op.len else L) 1

def opsLhs (σ : Assignment) (i : Nat) (ops : List Op) : ℚ := (ops.map (Op.lhs σ i)).sum

def opsRhs (i : Nat) (ops : List Op) : ℚ := (ops.map (Op.rhs i)).sum

/-- The meaning of a constraint for an assignment: every row holds. -/
def ConReq.Sem (σ : Assignment) (r : ConReq) : Prop :=
  ∀ i < opsLen r.ops, r.kind.rel (opsLhs σ i r.ops) (opsRhs i r.ops)

/-- Sums (`as_sum=True`) over the whole variable, with a scalar factor or one factor per index. -/
def Op.WholeSum : Op → Prop
  | .summand x f idx true => idx = none ∧ (f.len = 1 ∨ f.len = x.length)
  | _ => True

/-- A call that is well-shaped for a constraint with `n` rows: scalars, or series with one entry per row;
indices inside the variable; sums over the whole variable. -/
def Op.Good (n : Nat) : Op → Prop
  | .summand x f idx false =>
    (∀ k ∈ idxOf x idx, k < x.length) ∧
    (f.isScalar = true ∨ f.len = (idxOf x idx).length ∨ ((idxOf x idx).length = 1 ∧ f.len = n)) ∧
    ((idxOf x idx).length = 1 ∨ (idxOf x idx).length = n)
  | .summand x f idx true => idx = none ∧ (f.isScalar = true ∨ f.len = x.length)
  | .const k => k.isScalar = true ∨ k.len = n

end Flix
