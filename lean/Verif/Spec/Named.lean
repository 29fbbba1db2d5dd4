import Verif.Spec.Contrib
import Verif.Model.Registry

/-!
# Names that can be used

What the labels and the keys of dictionaries of effects of a declared system have to satisfy so that nothing is confused.
-/

namespace Flix

/-- A usable label: valid and not empty. -/
structure IsName (s : String) : Prop where
  valid : labelIsValid s = true
  ne : s ≠ ""

/-- Every key of a dictionary of effects names a declared effect, and no effect is named twice. -/
structure EffDict.Known (es : List EffectData) (d : EffDict) : Prop where
  known : ∀ q ∈ d, ∃ e ∈ es, names es e.label q.1 = true
  once : d.Pairwise fun p q => ∀ l, names es l p.1 = true → names es l q.1 = false

structure OnOffParams.Known (es : List EffectData) (q : OnOffParams) : Prop where
  starts : EffDict.Known es q.effectsPerSwitchOn
  hours : EffDict.Known es q.effectsPerRunningHour

structure InvestParams.Known (es : List EffectData) (q : InvestParams) : Prop where
  fix : EffDict.Known es q.fixEffects
  specific : EffDict.Known es q.specificEffects
  divest : EffDict.Known es q.divestEffects
  segs : ∀ xs rs, q.effectsInSegments = some (xs, rs) → (rs.map (·.1)).Nodup ∧ ∀ r ∈ rs, r.1 ∈ es.map (·.label)

structure FlowData.Known (es : List EffectData) (f : FlowData) : Prop where
  hours : EffDict.Known es f.effectsPerFlowHour
  onOff : ∀ q, f.onOff = some q → q.Known es
  invest : ∀ q, f.size = .invest q → q.Known es

structure Comp.Known (es : List EffectData) (c : Comp) : Prop where
  flows : ∀ f ∈ c.flows, f.Known es
  onOff : ∀ q, c.onOff = some q → q.Known es
  capacity : ∀ s, c = .storage s → ∀ q, s.capacity = .invest q → q.Known es

structure EffectData.Known (es : List EffectData) (e : EffectData) : Prop where
  operation : (e.shareOperation.map (·.1)).Nodup ∧ ∀ q ∈ e.shareOperation, q.1 ∈ es.map (·.label)
  invest : (e.shareInvest.map (·.1)).Nodup ∧ ∀ q ∈ e.shareInvest, q.1 ∈ es.map (·.label)

/-- The labels of the elements that are not flows. -/
def System.labels (s : System) : List String := s.comps.map Comp.label ++ s.buses.map (·.label) ++ s.effects.map (·.label)

/-- The labels of a system are usable and different; `"Effects"` is the label of the collection of effects (effects.py:263-303). -/
structure System.Named (s : System) : Prop where
  names : ∀ l ∈ s.labels, IsName l
  distinct : (s.labels ++ ["Effects"]).Nodup
  flowNames : ∀ c ∈ s.comps, ∀ f ∈ c.flows, IsName f.label
  flowDistinct : ∀ c ∈ s.comps, (c.flows.map (·.label)).Nodup
  noClash : ∀ a b, Comp.storage a ∈ s.comps → Comp.storage b ∈ s.comps → a.initial ≠ .none → b.label ≠ a.label ++ "_initial"

end Flix
