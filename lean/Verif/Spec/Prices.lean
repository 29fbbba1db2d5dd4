import Verif.Props.System

/-!
# Other prices of a flow

Systems that differ only in what a flow hour of a flow costs, or what its size costs.
-/

namespace Flix

/-- The component with its flows changed by `g`. -/
def Comp.mapFlows (g : FlowData → FlowData) : Comp → Comp
  | .plain c => .plain { c with inputs := c.inputs.map g, outputs := c.outputs.map g }
  | .converter c => .converter { c with comp := { c.comp with inputs := c.comp.inputs.map g, outputs := c.comp.outputs.map g } }
  | .storage s => .storage { s with charging := g s.charging, discharging := g s.discharging }
  | .transmission t => .transmission { t with in1 := g t.in1, out1 := g t.out1, in2 := t.in2.map g, out2 := t.out2.map g }

/-- The flow system with the flow `f` of the component `c` changed by `g`. -/
def System.mapFlow (c f : String) (g : FlowData → FlowData) (s : System) : System :=
  { s with comps := s.comps.map fun k => if k.label = c then k.mapFlows (fun x => if x.label = f then g x else x) else k }

/-- The flow with other prices per flow hour. -/
def FlowData.priced (new : EffDict) (x : FlowData) : FlowData := { x with effectsPerFlowHour := new }

/-- The flow with other prices per unit of its size, if the size is to be found. -/
def FlowData.sized (new : EffDict) (x : FlowData) : FlowData :=
  { x with size := match x.size with | .invest q => .invest { q with specificEffects := new } | z => z }

/-- The storage with other prices per unit of its capacity, if the capacity is to be found. -/
def StorageData.sized (new : EffDict) (x : StorageData) : StorageData :=
  { x with capacity := match x.capacity with | .invest q => .invest { q with specificEffects := new } | z => z }

/-- The component, with other prices per unit of the capacity if it is the storage `c`. -/
def Comp.sized (c : String) (new : EffDict) : Comp → Comp
  | .storage x => if x.label = c then .storage (x.sized new) else .storage x
  | k => k

/-- The flow system with other prices per unit of the capacity of the storage `c`. -/
def System.mapCapacity (c : String) (new : EffDict) (s : System) : System := { s with comps := s.comps.map (Comp.sized c new) }

/-- The flow system has the storage `c`. -/
def System.HasStorage (c : String) (s : System) : Prop := ∃ x, Comp.storage x ∈ s.comps ∧ x.label = c

/-- The flow system has the flow `f` of the component `c`. -/
def System.HasFlow (c f : String) (s : System) : Prop := ∃ k ∈ s.comps, k.label = c ∧ ∃ x ∈ k.flows, x.label = f

/-- An effect without limits and without shares in other effects. -/
structure EffectData.Plain (e : EffectData) : Prop where
  operation : e.shareOperation = []
  invest : e.shareInvest = []
  minOperation : e.minOperation = none
  maxOperation : e.maxOperation = none
  minInvest : e.minInvest = none
  maxInvest : e.maxInvest = none
  minPerHour : e.minOperationPerHour = none
  maxPerHour : e.maxOperationPerHour = none
  minTotal : e.minTotal = none
  maxTotal : e.maxTotal = none

/-- The values `new` are the values `old`, only that the effect `e` is dearer by `d t` in step `t`. -/
def DearerBy (es : List EffectData) (n : Nat) (e : String) (d : Nat → ℚ) (old new : EffDict) : Prop :=
  ∀ l, ∀ t < n, effVal es new l t = effVal es old l t + if l = e then d t else 0

/-- Flow hours over the horizon. -/
def hoursOf (sys : Sys) (c f : String) (σ : Assignment) : ℚ := ∑ t ∈ Finset.range sys.n, sys.width t * σ (c ++ "__" ++ f ++ "_" ++ "flow_rate") t

/-- What the rise `d` adds to the bill. -/
def addedBill (sys : Sys) (c f : String) (d : Nat → ℚ) (σ : Assignment) : ℚ := ∑ t ∈ Finset.range sys.n, d t * (sys.width t * σ (c ++ "__" ++ f ++ "_" ++ "flow_rate") t)

/-- The capacity found. -/
def capacityOf (c : String) (σ : Assignment) : ℚ := σ (c ++ "__" ++ "Investment" ++ "_" ++ "size") 0

/-- The size found. -/
def flowSize (c f : String) (σ : Assignment) : ℚ := σ (c ++ "__" ++ f ++ "__" ++ "Investment" ++ "_" ++ "size") 0

end Flix
