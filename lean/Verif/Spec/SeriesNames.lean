import Verif.Spec.Named

/-!
# Which time series of a converter share a label

Said without the labels: only about which data of a converter change over time.
-/

namespace Flix

/-- The data has two different values, so it changes over time. -/
def Num.Varies (a : Num) : Prop := ∃ xs, a = .v xs ∧ ∃ x ∈ xs, ∃ y ∈ xs, x ≠ y

/-- All values of the support points of a converter. -/
def ConvData.points (c : ConvData) : List Num := c.segments.flatMap fun q => q.2.flatMap fun p => [p.1, p.2]

/-- No flow has factors that change over time in two equations, and no two support points change over time. -/
structure ConvData.OneEach (c : ConvData) : Prop where
  factors : c.factors.Pairwise fun d d' => ∀ q ∈ d, ∀ q' ∈ d', q.1 = q'.1 → ¬ (q.2.Varies ∧ q'.2.Varies)
  points : c.factors = [] → c.points.Pairwise fun a b => ¬ (a.Varies ∧ b.Varies)

/-- The factors of a converter are dictionaries whose keys are flows of the converter (components.py:80-86). -/
def ConvData.Keyed (c : ConvData) : Prop := ∀ d ∈ c.factors, (d.map (·.1)).Nodup ∧ ∀ q ∈ d, ∃ f ∈ c.comp.inputs ++ c.comp.outputs, f.label = q.1

/-- What the dictionaries of a declared system refer to exists, and the alias used for the standard effect is not the label of an effect. -/
structure System.Referred (s : System) : Prop where
  comps : ∀ c ∈ s.comps, c.Known s.effects
  effects : ∀ e ∈ s.effects, e.Known s.effects
  factors : ∀ c, Comp.converter c ∈ s.comps → c.Keyed
  standard : "Standard_Effect" ∉ s.effects.map (·.label)

end Flix
