import Verif.Spec.Contrib
import Verif.Spec.Named
import Verif.Lemmas.Flow
import Verif.Lemmas.Storage
import Verif.Lemmas.Transmission

/-!
# Declarations that make sense

What has to be declared so that a model can be built: shapes, known effects, usable histories.
-/

namespace Flix

/-! ## Histories -/

/-- The number of steps before the horizon that given previous values stand for. -/
def historyLen : List Num → Nat
  | [] => 1
  | .s _ :: ps => ps.length + 1
  | .v xs :: _ => xs.length

/-- Previous values that can be used together: numbers only, or series of one length. -/
def SameShape (ps : List Num) : Prop := (∀ p ∈ ps, p.isScalar = true) ∨ ∃ k, 0 < k ∧ ∀ p ∈ ps, p.isScalar = false ∧ p.len = k

/-- Limits of the lengths of runs are given. -/
def OnOffParams.HasRuns (q : OnOffParams) : Prop := q.consecOnMin ≠ none ∨ q.consecOnMax ≠ none ∨ q.consecOffMin ≠ none ∨ q.consecOffMax ≠ none

/-- On/off parameters with values of the right shapes, and previous flow rates that go with them and with the widths of the steps before. -/
structure OnOffParams.Sane (sys : Sys) (ps : List Num) (q : OnOffParams) : Prop where
  fits : q.Fits sys.n
  eff : q.EffFits sys.n
  shape : SameShape ps
  runs : q.HasRuns → ∀ l, sys.prevDt = .v l → historyLen ps ≤ l.length

/-! ## Investments -/

/-- Investment parameters: numbers as effects, segments of the same number for all effects. -/
structure InvestParams.Sane (q : InvestParams) : Prop where
  eff : q.EffFits
  segs : ∀ xs es, q.effectsInSegments = some (xs, es) → es ≠ [] ∧ ∀ e ∈ es, e.2.length = xs.length

/-! ## Elements -/

structure FlowData.Sane (sys : Sys) (f : FlowData) : Prop where
  fits : f.Fits sys.n
  eff : f.EffFits sys.n
  invest : ∀ q, f.size = .invest q → q.Sane
  past : f.previousFlowRate ≠ some (.v [])
  onOff : ∀ q, f.onOff = some q → q.Sane sys f.previousFlowRate.toList

/-- What all components need: sensible flows, and at least one if the component can be off. -/
structure FlowsSane (sys : Sys) (fs : List FlowData) (q : Option OnOffParams) : Prop where
  flows : ∀ f ∈ fs, f.Sane sys
  onOff : ∀ p, q = some p → fs ≠ [] ∧ p.Sane sys (fs.filterMap (·.previousFlowRate))

structure CompData.Sane (sys : Sys) (c : CompData) : Prop where
  flows : FlowsSane sys (c.inputs ++ c.outputs) c.onOff
  prevent : c.prevent = [] ∨ 2 ≤ c.prevent.length ∧ ∀ l ∈ c.prevent, ∃ f ∈ c.inputs ++ c.outputs, f.label = l

structure ConvData.Sane (sys : Sys) (c : ConvData) : Prop where
  comp : c.comp.Sane sys
  rule : (c.factors ≠ [] ∧ ∀ fs ∈ c.factors, ∀ q ∈ fs, q.2.Fits sys.n) ∨
    (c.factors = [] ∧ c.comp.inputs ++ c.comp.outputs ≠ [] ∧ (∀ f ∈ c.comp.inputs ++ c.comp.outputs, ∃ r ∈ c.segments, r.1 = f.label) ∧
      ∃ k, ∀ r ∈ c.segments, r.2.length = k ∧ ∀ p ∈ r.2, p.1.Fits sys.n ∧ p.2.Fits sys.n)

structure StorageData.Sane (sys : Sys) (s : StorageData) : Prop where
  charging : s.charging.Sane sys
  discharging : s.discharging.Sane sys
  fits : s.Fits sys.n
  eta : ∀ t < sys.n, s.etaDischarge.at t ≠ 0
  initial : s.initial ≠ .other
  capacity : ∀ q, s.capacity = .invest q → q.Sane

structure TransData.Sane (sys : Sys) (t : TransData) : Prop where
  flows : FlowsSane sys ((t.in1 :: t.in2.toList) ++ t.out1 :: t.out2.toList) t.onOff
  fits : t.Fits sys.n
  both : t.in2 ≠ none → t.out2 ≠ none
  abs : ∀ a, t.absLosses = some a → (∃ k < sys.n, a.at k ≠ 0) ∨ t.onOff ≠ none ∨ ∀ f ∈ t.in1 :: t.in2.toList, f.onOff ≠ none

/-- The conditions for a component of any kind. -/
def Comp.Sane (sys : Sys) : Comp → Prop
  | .plain c => c.Sane sys
  | .converter c => c.Sane sys
  | .storage s => s.Sane sys
  | .transmission t => t.Sane sys

/-! ## Systems -/

/-- The conditions for a system: sensible components whose effects are declared effects, penalties and effects of the right shapes,
an objective. -/
structure System.Sane (sys : Sys) (s : System) : Prop where
  comps : ∀ c ∈ s.comps, c.Sane sys
  known : ∀ c ∈ s.comps, c.Known s.effects
  buses : ∀ b ∈ s.buses, ∀ pen, b.excessPenalty = some pen → pen.Fits sys.n
  effects : ∀ e ∈ s.effects, e.Fits sys.n ∧ e.Known s.effects
  objective : ∃ e ∈ s.effects, e.isObjective = true

end Flix
