import Verif.Spec.EffLimits

/-!
# Another effect as the objective
-/

namespace Flix

/-- The effect as the objective if it is the effect `x`, and otherwise not. -/
def EffectData.aim (x : String) (e : EffectData) : EffectData := { e with isObjective := decide (e.label = x) }

/-- The flow system with the effect `x` as its objective. -/
def System.aim (x : String) (s : System) : System := { s with effects := s.effects.map (EffectData.aim x) }

/-- What the effect `x` amounts to altogether, with the penalties of the buses. -/
def System.amount (sys : Sys) (s : System) (x : String) (σ : Assignment) : ℚ := operationOf sys x σ + investmentOf x σ + (s.buses.map fun b => b.penaltyCost sys σ).sum

/-- A flow system with the effect `x` and with the effect `y` as its objective. -/
structure Aims (sys : Sys) (s : System) (x y : String) (o o' : SysOut) : Prop where
  valid : sys.Valid
  steps : sys.n ≠ 0
  fits : s.Fits sys.n
  model : systemModel sys (s.aim x) = .ok o
  model' : systemModel sys (s.aim y) = .ok o'

end Flix
