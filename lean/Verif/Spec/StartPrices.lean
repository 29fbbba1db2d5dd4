import Verif.Lemmas.Prices

/-!
# Other prices of starts, of running hours and of decisions to invest
-/

namespace Flix

/-- The states with other prices per start. -/
def OnOffParams.startsAt (new : EffDict) (q : OnOffParams) : OnOffParams := { q with effectsPerSwitchOn := new }

/-- The states with other prices per running hour. -/
def OnOffParams.hoursAt (new : EffDict) (q : OnOffParams) : OnOffParams := { q with effectsPerRunningHour := new }

/-- The flow with its states changed, if it has some. -/
def FlowData.restate (g : OnOffParams → OnOffParams) (x : FlowData) : FlowData := { x with onOff := x.onOff.map g }

/-- The component with its states changed, if it has some. -/
def Comp.restate (g : OnOffParams → OnOffParams) : Comp → Comp
  | .plain c => .plain { c with onOff := c.onOff.map g }
  | .converter c => .converter { c with comp := { c.comp with onOff := c.comp.onOff.map g } }
  | .storage x => .storage x
  | .transmission t => .transmission { t with onOff := t.onOff.map g }

/-- The flow system with the states of the component `c` changed. -/
def System.restate (c : String) (g : OnOffParams → OnOffParams) (s : System) : System := { s with comps := s.comps.map fun k => if k.label = c then k.restate g else k }

/-- The flow with other prices of the decision to invest. -/
def FlowData.decidedAt (new : EffDict) (x : FlowData) : FlowData :=
  { x with size := match x.size with | .invest q => .invest { q with fixEffects := new } | z => z }

/-- Starts of the element `el`. -/
def startsOf (sys : Sys) (el : String) (σ : Assignment) : ℚ := ∑ t ∈ Finset.range sys.n, σ (el ++ "__OnOff" ++ "_" ++ "switchOn") t

/-- Running hours of the element `el`. -/
def runningOf (sys : Sys) (el : String) (σ : Assignment) : ℚ := ∑ t ∈ Finset.range sys.n, sys.width t * σ (el ++ "__OnOff" ++ "_" ++ "on") t

/-- 1 if the flow is invested in, 0 if not. -/
def investedIn (c f : String) (σ : Assignment) : ℚ := σ (c ++ "__" ++ f ++ "__" ++ "Investment" ++ "_" ++ "isInvested") 0

/-- The flow system at other prices, with what the comparison of cheapest solutions needs. -/
structure OtherPrices (sys : Sys) (s s' : System) (e : EffectData) (o o' : SysOut) : Prop where
  valid : sys.Valid
  before : sys.prevDt.Nonneg
  steps : sys.n ≠ 0
  fits : s.Fits sys.n
  fits' : s'.Fits sys.n
  proper : ∀ k ∈ s.comps, k.Proper sys ∧ k.CapacityNonneg
  proper' : ∀ k ∈ s'.comps, k.Proper sys ∧ k.CapacityNonneg
  model : systemModel sys s = .ok o
  model' : systemModel sys s' = .ok o'
  objective : s.effects.find? (·.isObjective) = some e
  plain : ∀ x ∈ s.effects, x.label = e.label → x.Plain

/-- The flow system has the component `c`. -/
def System.HasComp (c : String) (s : System) : Prop := ∃ k ∈ s.comps, k.label = c

end Flix
