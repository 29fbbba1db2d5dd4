import Verif.Model.Components
import Verif.Spec.Linear

/-! # Specification vocabulary for components: values of flows by their labels -/

namespace Flix

/-- Label of the flow rate of a flow of a component. -/
def rateL (comp flow : String) : String := comp ++ "__" ++ flow ++ "_" ++ "flow_rate"

/-- The factor-weighted sum over the flows of one side; a flow without a factor does not count. -/
def convSide (σ : Assignment) (comp : String) (flows : List FlowData) (fs : Factors) (t : Nat) : ℚ :=
  (flows.map fun f => (((fs.get f.label).map fun φ => φ.at t).getD 0) * σ (rateL comp f.label) t).sum

end Flix
