import Verif.Model.AggRun
import Verif.Spec.SeriesNames

/-!
# A system in which the time series have other data
-/

namespace Flix

/-- Every number that may change over time left out. -/
def OnOffParams.bare (p : OnOffParams) : OnOffParams :=
  { p with effectsPerSwitchOn := p.effectsPerSwitchOn.map fun q => (q.1, .s 0), effectsPerRunningHour := p.effectsPerRunningHour.map fun q => (q.1, .s 0),
           consecOnMin := p.consecOnMin.map fun _ => .s 0, consecOnMax := p.consecOnMax.map fun _ => .s 0,
           consecOffMin := p.consecOffMin.map fun _ => .s 0, consecOffMax := p.consecOffMax.map fun _ => .s 0 }

def FlowData.bare (f : FlowData) : FlowData :=
  { f with relMin := .s 0, relMax := .s 0, fixedProfile := f.fixedProfile.map fun _ => .s 0,
           effectsPerFlowHour := f.effectsPerFlowHour.map fun q => (q.1, .s 0), onOff := f.onOff.map OnOffParams.bare }

def CompData.bare (c : CompData) : CompData :=
  { c with inputs := c.inputs.map FlowData.bare, outputs := c.outputs.map FlowData.bare, onOff := c.onOff.map OnOffParams.bare }

/-- Support points are used only if there are no factors. -/
def ConvData.bare (c : ConvData) : ConvData where
  comp := c.comp.bare
  factors := c.factors.map fun (fs : Factors) => fs.map fun q => (q.1, .s 0)
  segments := match c.factors with
    | [] => c.segments.map fun r => (r.1, r.2.map fun _ => (.s 0, .s 0))
    | _ :: _ => c.segments

def Comp.bare : Comp → Comp
  | .plain c => .plain c.bare
  | .converter c => .converter c.bare
  | .storage s => .storage { s with charging := s.charging.bare, discharging := s.discharging.bare, relMinCharge := .s 0, relMaxCharge := .s 0,
                                    etaCharge := .s 0, etaDischarge := .s 0, relLoss := .s 0 }
  | .transmission t => .transmission { t with in1 := t.in1.bare, out1 := t.out1.bare, in2 := t.in2.map FlowData.bare, out2 := t.out2.map FlowData.bare,
                                              relLosses := t.relLosses.map fun _ => .s 0, absLosses := t.absLosses.map fun _ => .s 0,
                                              onOff := t.onOff.map OnOffParams.bare }

def System.bare (s : System) : System where
  effects := s.effects.map fun e => { e with shareOperation := e.shareOperation.map fun q => (q.1, .s 0),
                                             minOperationPerHour := e.minOperationPerHour.map fun _ => .s 0,
                                             maxOperationPerHour := e.maxOperationPerHour.map fun _ => .s 0 }
  comps := s.comps.map Comp.bare
  buses := s.buses.map fun b => { b with excessPenalty := b.excessPenalty.map fun _ => .s 0 }

/-- `b` is what a series `a` with the full label `l` is replaced by: the series of that name in `d` if it changes over time and there is one. -/
def Num.Replaced (d : List (String × List ℚ)) (l : String) (a b : Num) : Prop :=
  (a.Varies → ∀ ys, (l, ys) ∈ d → b = .v ys) ∧ (¬ (a.Varies ∧ ∃ ys, (l, ys) ∈ d) → b = a)

/-- `s'` is `s` with the series in `d` in place of those of `s` that change over time and have their names; all else is the same. -/
structure System.Replaced (d : List (String × List ℚ)) (s s' : System) : Prop where
  others : s'.bare = s.bare
  series : List.Forall₂ (fun q q' => q.1 = q'.1 ∧ List.Forall₂ (fun r r' => r.1 = r'.1 ∧ Num.Replaced d (q.1 ++ "__" ++ r.1) r.2 r'.2) q.2 q'.2)
    s.allSeries s'.allSeries

/-- The series that change over time: full label and values. -/
def System.HasSeries (s : System) (l : String) (xs : List ℚ) : Prop :=
  ∃ q ∈ s.allSeries, ∃ a, (a, Num.v xs) ∈ q.2 ∧ l = q.1 ++ "__" ++ a ∧ (Num.v xs).Varies

/-- `w` is the share of the series `l` among the series `ls`: one part of its group, or the weight it was given, or 1. -/
def Declared.Share (u : Declared) (ls : List String) (l : String) (w : ℚ) : Prop :=
  (∀ i g, u.object l = some i → u.group i = some g → w * ((ls.filter fun k => ∃ j ∈ u.object k, u.group j = some g).length : ℚ) = 1) ∧
  (∀ i x, u.object l = some i → u.group i = none → u.weight i = some x → x ≠ 0 → w = x) ∧
  ((∀ i ∈ u.object l, u.group i = none ∧ u.weight i = none) → w = 1)

/-- The data of the object `i` of the user is `a`: every series made of it has this data. -/
def Declared.Holds (u : Declared) (s : System) (i : Nat) (a : Num) : Prop :=
  ∀ p ∈ s.allSeries, ∀ r ∈ p.2, u.object (p.1 ++ "__" ++ r.1) = some i → r.2 = a

/-- The object `i` is used for a series of the system. -/
def Declared.Used (u : Declared) (s : System) (i : Nat) : Prop := ∃ p ∈ s.allSeries, ∃ r ∈ p.2, u.object (p.1 ++ "__" ++ r.1) = some i

/-- Every period is a cluster of its own. -/
def ClusterData.AllDifferent (c : ClusterData) : Prop := c.order.Nodup

end Flix
