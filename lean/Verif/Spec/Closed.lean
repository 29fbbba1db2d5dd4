import Verif.Spec.System

/-!
# Which variables a constraint talks about
-/

namespace Flix

/-- The call adds a summand with the variable `x`. -/
def Op.Mentions (op : Op) (x : Var) : Prop := ∃ f i a, op = .summand x f i a

/-- A call of the constraint adds a summand with the variable `x`. -/
def ConReq.Mentions (r : ConReq) (x : Var) : Prop := ∃ op ∈ r.ops, op.Mentions x

/-- `x` is a variable of the model or of a sub model at any depth. -/
def MTree.HasVar (t : MTree) (x : Var) : Prop := ∃ m, MTree.Within m t ∧ x ∈ m.vars

/-- `r` is a constraint of the model or of a sub model at any depth. -/
def MTree.HasCon (t : MTree) (r : ConReq) : Prop := ∃ m, MTree.Within m t ∧ r ∈ m.cons

end Flix
