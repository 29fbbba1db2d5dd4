import Verif.Model.Tree

/-!
# What a tree of element models contains
-/

namespace Flix

mutual
  /-- The model itself and all its sub models, parents first. -/
  def MTree.nodes : MTree → List MTree
    | .node vs cs ss => .node vs cs ss :: MTree.nodesAll ss
  def MTree.nodesAll : List MTree → List MTree
    | [] => []
    | t :: ts => t.nodes ++ MTree.nodesAll ts
end

/-- Own variables of a model. -/
def MTree.vars : MTree → List Var
  | .node vs _ _ => vs

/-- Own constraints of a model. -/
def MTree.cons : MTree → List ConReq
  | .node _ cs _ => cs

/-- `m` is `t` or a sub model at any depth. -/
inductive MTree.Within : MTree → MTree → Prop
  | refl (t : MTree) : MTree.Within t t
  | sub {m s : MTree} {vs : List Var} {cs : List ConReq} {ss : List MTree} : s ∈ ss → MTree.Within m s → MTree.Within m (.node vs cs ss)

end Flix
