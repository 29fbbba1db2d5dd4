import Verif.Spec.Named
import Verif.Model.Report

/-!
# Names under which nothing is lost in nested results
-/

namespace Flix

/-- Labels of sub models and variables of components (features.py:38, 190, 672, 918, components.py:440, 450): a flow with such a label takes their place in the
results. -/
def reservedLabels : List String :=
  ["OnOff", "PreventSimultaneousUsage", "MultipleSegments", "Investment", "charge_state", "netto_discharge"]

/-- The labels of a system are usable and different, no flow is named like a part of a component and no effect like the penalty. -/
structure System.Reportable (s : System) : Prop where
  names : ∀ l ∈ s.labels, IsName l
  distinct : s.labels.Nodup
  flowNames : ∀ c ∈ s.comps, ∀ f ∈ c.flows, IsName f.label
  flowDistinct : ∀ c ∈ s.comps, (c.flows.map (·.label)).Nodup
  flowFree : ∀ c ∈ s.comps, ∀ f ∈ c.flows, f.label ∉ reservedLabels
  effectFree : ∀ e ∈ s.effects, e.label ≠ "penalty"

/-- The value at a path of keys. -/
def DTree.get {α : Type} : DTree α → List String → Option (DTree α)
  | t, [] => some t
  | .dict kvs, k :: p => (kvs.lookup k).bind fun v => v.get p
  | .list _, _ :: _ => none

end Flix
