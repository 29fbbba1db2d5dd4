import Verif.Spec.Aim

/-!
# A cap on the total of one effect
-/

namespace Flix

/-- The limits `L`, and at most `m` of the effect `y` in total. -/
def cappedAt (y : String) (m : ℚ) (L : String → EffLimits) : String → EffLimits := fun l => if l = y then { L y with maxTotal := some m } else L l

/-- A flow system in which missing and surplus energy is not allowed, with the limits `L`, no cap on the effect `y` among them: once for the objective `x` (`o`), once for the objective `y` (`o'`), and
once for the objective `x` with at most `m` of `y` (`oc`). -/
structure Capped (sys : Sys) (s : System) (L : String → EffLimits) (x y : String) (m : ℚ) (o o' oc : SysOut) : Prop where
  valid : sys.Valid
  steps : sys.n ≠ 0
  fits : (s.limit L).Fits sys.n
  exact : ∀ b ∈ s.buses, b.excessPenalty = none
  there : ∃ e ∈ s.effects, e.label = y
  uncapped : (L y).maxTotal = none
  model : systemModel sys ((s.limit L).aim x) = .ok o
  model' : systemModel sys ((s.limit L).aim y) = .ok o'
  capped : systemModel sys ((s.limit (cappedAt y m L)).aim x) = .ok oc

end Flix
