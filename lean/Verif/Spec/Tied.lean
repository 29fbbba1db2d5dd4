import Verif.Spec.Contrib

/-!
# Declarations without loose ends

Pyomo refuses a constraint whose rows mention no variable at all.  What has to be declared so that every row mentions one.
-/

namespace Flix

/-- Segments of a necessary investment are segments. -/
def InvestParams.Tied (q : InvestParams) : Prop := ∀ xs es, q.effectsInSegments = some (xs, es) → q.optional = true ∨ ∀ e ∈ es, e.2 ≠ []

def FlowData.Tied (f : FlowData) : Prop := ∀ q, f.size = .invest q → q.Tied

/-- The conversion of a converter talks about flows of the converter. -/
structure ConvData.Tied (c : ConvData) : Prop where
  factors : ∀ fs ∈ c.factors, ∃ q ∈ fs, ∃ f ∈ c.comp.inputs ++ c.comp.outputs, f.label = q.1
  segments : c.factors = [] → c.comp.onOff ≠ none ∨ ∀ r ∈ c.segments, r.2 ≠ []

structure Comp.Tied (c : Comp) : Prop where
  flows : ∀ f ∈ c.flows, f.Tied
  converter : ∀ d, c = .converter d → d.Tied
  storage : ∀ s q, c = .storage s → s.capacity = .invest q → q.Tied

/-- Every bus has a flow, or a penalty for excess. -/
structure System.Tied (s : System) : Prop where
  comps : ∀ c ∈ s.comps, c.Tied
  buses : ∀ b ∈ s.buses, b.excessPenalty ≠ none ∨ ∃ c ∈ s.comps, ∃ f ∈ c.flows, f.bus = b.label

end Flix
