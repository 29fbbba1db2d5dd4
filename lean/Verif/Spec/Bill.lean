import Verif.Lemmas.Prices

/-!
# A flow system at old and new prices of one flow
-/

namespace Flix

/-- The flow system at other prices of one flow: what the theorems below have in common. -/
structure Repriced (sys : Sys) (s : System) (c f : String) (new : EffDict) (d : Nat → ℚ) (e : EffectData) (o o' : SysOut) : Prop where
  valid : sys.Valid
  before : sys.prevDt.Nonneg
  steps : sys.n ≠ 0
  fits : s.Fits sys.n
  fits' : (s.mapFlow c f (FlowData.priced new)).Fits sys.n
  proper : ∀ k ∈ s.comps, k.Proper sys ∧ k.CapacityNonneg
  proper' : ∀ k ∈ (s.mapFlow c f (FlowData.priced new)).comps, k.Proper sys ∧ k.CapacityNonneg
  model : systemModel sys s = .ok o
  model' : systemModel sys (s.mapFlow c f (FlowData.priced new)) = .ok o'
  objective : s.effects.find? (·.isObjective) = some e
  plain : ∀ x ∈ s.effects, x.label = e.label → x.Plain
  flow : s.HasFlow c f
  labels : (s.comps.map Comp.label).Nodup
  flowLabels : ∀ k ∈ s.comps, (k.flows.map (·.label)).Nodup
  dearer : ∀ k ∈ s.comps, k.label = c → ∀ x ∈ k.flows, x.label = f → DearerBy s.effects sys.n e.label d x.effectsPerFlowHour new

end Flix
