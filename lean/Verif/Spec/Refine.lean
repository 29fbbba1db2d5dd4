import Verif.Model.System
import Verif.Spec.Contrib
import Verif.Spec.Runs

/-!
# The same system on a finer time grid

Every step of the grid is divided into one or more steps; what is declared for a step holds for all its parts.
-/

namespace Flix

/-- `fine` divides every step of `sys`: the parts of step `t` are the steps from number `s t` up to `s (t + 1)`, `φ j` is the step that `j` is a part
of.  The parts may have different widths. -/
structure Finer (φ s : Nat → Nat) (sys fine : Sys) : Prop where
  zero : s 0 = 0
  last : s sys.n = fine.n
  more : ∀ t < sys.n, s t < s (t + 1)
  part : ∀ t < sys.n, ∀ j, s t ≤ j → j < s (t + 1) → φ j = t
  width : ∀ t < sys.n, ∑ j ∈ Finset.Ico (s t) (s (t + 1)), fine.dt.getD j 0 = sys.dt.getD t 0
  cfg : fine.cfg = sys.cfg
  before : fine.prevDt = sys.prevDt

/-- A series with `N` entries: every entry for all parts of its step. -/
def Num.spread (N : Nat) (φ : Nat → Nat) : Num → Num
  | .s x => .s x
  | .v xs => .v ((List.range N).map fun j => xs.getD (φ j) 0)

def EffDict.spread (N : Nat) (φ : Nat → Nat) (d : EffDict) : EffDict := d.map fun q => (q.1, q.2.spread N φ)

def OnOffParams.spread (N : Nat) (φ : Nat → Nat) (q : OnOffParams) : OnOffParams :=
  { q with
    effectsPerSwitchOn := q.effectsPerSwitchOn.spread N φ
    effectsPerRunningHour := q.effectsPerRunningHour.spread N φ
    consecOnMin := q.consecOnMin.map (·.spread N φ)
    consecOnMax := q.consecOnMax.map (·.spread N φ)
    consecOffMin := q.consecOffMin.map (·.spread N φ)
    consecOffMax := q.consecOffMax.map (·.spread N φ) }

def FlowData.spread (N : Nat) (φ : Nat → Nat) (f : FlowData) : FlowData :=
  { f with
    relMin := f.relMin.spread N φ
    relMax := f.relMax.spread N φ
    fixedProfile := f.fixedProfile.map (·.spread N φ)
    effectsPerFlowHour := f.effectsPerFlowHour.spread N φ
    onOff := f.onOff.map (·.spread N φ) }

def CompData.spread (N : Nat) (φ : Nat → Nat) (c : CompData) : CompData :=
  { c with
    inputs := c.inputs.map (·.spread N φ)
    outputs := c.outputs.map (·.spread N φ)
    onOff := c.onOff.map (·.spread N φ) }

def ConvData.spread (N : Nat) (φ : Nat → Nat) (c : ConvData) : ConvData where
  comp := c.comp.spread N φ
  factors := c.factors.map fun (fs : Factors) => fs.map fun q => (q.1, q.2.spread N φ)
  segments := c.segments.map fun r => (r.1, r.2.map fun q => (q.1.spread N φ, q.2.spread N φ))

/-- The limits of the content stay as they are: they are meant to be numbers. -/
def StorageData.spread (N : Nat) (φ : Nat → Nat) (s : StorageData) : StorageData :=
  { s with
    charging := s.charging.spread N φ
    discharging := s.discharging.spread N φ
    etaCharge := s.etaCharge.spread N φ
    etaDischarge := s.etaDischarge.spread N φ
    relLoss := s.relLoss.spread N φ }

def TransData.spread (N : Nat) (φ : Nat → Nat) (t : TransData) : TransData :=
  { t with
    in1 := t.in1.spread N φ
    out1 := t.out1.spread N φ
    in2 := t.in2.map (·.spread N φ)
    out2 := t.out2.map (·.spread N φ)
    relLosses := t.relLosses.map (·.spread N φ)
    absLosses := t.absLosses.map (·.spread N φ)
    onOff := t.onOff.map (·.spread N φ) }

def Comp.spread (N : Nat) (φ : Nat → Nat) : Comp → Comp
  | .plain c => .plain (c.spread N φ)
  | .converter c => .converter (c.spread N φ)
  | .storage s => .storage (s.spread N φ)
  | .transmission t => .transmission (t.spread N φ)

def EffectData.spread (N : Nat) (φ : Nat → Nat) (e : EffectData) : EffectData :=
  { e with
    shareOperation := e.shareOperation.map fun q => (q.1, q.2.spread N φ)
    minOperationPerHour := e.minOperationPerHour.map (·.spread N φ)
    maxOperationPerHour := e.maxOperationPerHour.map (·.spread N φ) }

def BusData.spread (N : Nat) (φ : Nat → Nat) (b : BusData) : BusData := { b with excessPenalty := b.excessPenalty.map (·.spread N φ) }

/-- The system with all series on the finer grid. -/
def System.spread (N : Nat) (φ : Nat → Nat) (s : System) : System where
  effects := s.effects.map (·.spread N φ)
  comps := s.comps.map (·.spread N φ)
  buses := s.buses.map (·.spread N φ)

/-! ## Systems whose time grid should not matter -/

/-- Storages keep their content, have fixed limits and no condition between first and last content; transmissions have given sizes. -/
def Comp.Gridless (n : Nat) : Comp → Prop
  | .plain _ => True
  | .converter _ => True
  | .storage s => s.relMinCharge.isScalar = true ∧ s.relMaxCharge.isScalar = true ∧ s.initial ≠ .lastValueOfSim ∧ ∀ t < n, s.relLoss.at t = 0
  | .transmission t => ∀ f ∈ t.in1 :: t.out1 :: (t.in2.toList ++ t.out2.toList), ∀ q, f.size ≠ .invest q

/-- Nothing is decided per step: no states, no exclusion of flows, no segments and no losses that occur only when something is sent. -/
def Comp.Convex : Comp → Prop
  | .plain c => (∀ f ∈ c.inputs ++ c.outputs, f.onOff = none) ∧ c.onOff = none ∧ c.prevent = []
  | .converter c => (∀ f ∈ c.comp.inputs ++ c.comp.outputs, f.onOff = none) ∧ c.comp.onOff = none ∧ c.comp.prevent = [] ∧ c.factors ≠ []
  | .storage s => s.charging.onOff = none ∧ s.discharging.onOff = none ∧ s.preventSimultaneous = false
  | .transmission t => (∀ f ∈ t.in1 :: t.out1 :: (t.in2.toList ++ t.out2.toList), f.onOff = none) ∧ t.onOff = none ∧ (t.in2 = none ∨ t.preventBoth = false) ∧
      t.absLosses = none

end Flix
