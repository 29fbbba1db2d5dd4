import Verif.Spec.Larger
import Verif.Props.EnergyUnits
import Verif.Props.Units
import Verif.Props.Sensible

/-!
# The larger system as a change of two units

Making a system `k` times as large is counting effects in a unit of which `k` make an old one, and then energy as well.  The system in between:
-/

namespace Flix

variable {sys : Sys} {s : System} {k : ℚ}

/-! ## All effects in another unit -/

def InvestParams.costly (k : ℚ) (q : InvestParams) : InvestParams :=
  { q with fixEffects := EffDict.times k q.fixEffects, divestEffects := EffDict.times k q.divestEffects, specificEffects := EffDict.times k q.specificEffects }

def SizeArg.costly (k : ℚ) : SizeArg → SizeArg
  | .unset => .unset
  | .num x => .num x
  | .invest q => .invest (q.costly k)

def Size.costly (k : ℚ) : Size → Size
  | .num x => .num x
  | .invest q => .invest (q.costly k)

def FlowData.costly (k : ℚ) (f : FlowData) : FlowData :=
  { f with size := f.size.costly k, effectsPerFlowHour := EffDict.times k f.effectsPerFlowHour, onOff := f.onOff.map (OnOffParams.times k) }

def CompData.costly (k : ℚ) (c : CompData) : CompData :=
  { c with inputs := c.inputs.map (FlowData.costly k), outputs := c.outputs.map (FlowData.costly k), onOff := c.onOff.map (OnOffParams.times k) }

def StorageData.costly (k : ℚ) (s : StorageData) : StorageData :=
  { s with charging := s.charging.costly k, discharging := s.discharging.costly k, capacity := s.capacity.costly k }

def TransData.costly (k : ℚ) (t : TransData) : TransData :=
  { t with in1 := t.in1.costly k, out1 := t.out1.costly k, in2 := t.in2.map (FlowData.costly k), out2 := t.out2.map (FlowData.costly k), onOff := t.onOff.map (OnOffParams.times k) }

def Comp.costly (k : ℚ) : Comp → Comp
  | .plain c => .plain (c.costly k)
  | .converter c => .converter { c with comp := c.comp.costly k }
  | .storage s => .storage (s.costly k)
  | .transmission t => .transmission (t.costly k)

def BusData.costly (k : ℚ) (b : BusData) : BusData := { b with excessPenalty := b.excessPenalty.map (Num.map (k * ·)) }

def System.costly (k : ℚ) (s : System) : System where
  effects := s.effects.map (EffectData.times k)
  comps := s.comps.map (Comp.costly k)
  buses := s.buses.map (BusData.costly k)

/-! ## Both units -/

theorem num_back (h0 : k ≠ 0) (a : Num) : (a.map (k * ·)).map (· / k) = a := by
  cases a with
  | s x => simp [Num.map, h0]
  | v xs =>
    simp only [Num.map, List.map_map]
    congr 1
    conv_rhs => rw [← List.map_id xs]
    refine List.map_congr_left fun x _ => ?_
    simp [h0]

theorem dict_back (h0 : k ≠ 0) (d : EffDict) : EffDict.perUnit k (EffDict.times k d) = d := by
  unfold EffDict.perUnit EffDict.times
  rw [List.map_map]
  conv_rhs => rw [← List.map_id d]
  refine List.map_congr_left fun x _ => ?_
  simp [num_back h0]

theorem invest_both (h0 : k ≠ 0) {q : InvestParams} (h : q.effectsInSegments = none) : (q.costly k).inUnit k = q.times k := by
  simp [InvestParams.costly, InvestParams.inUnit, InvestParams.times, dict_back h0, h]

theorem flow_both (h0 : k ≠ 0) {f : FlowData} (h : ∀ q, f.size = .invest q → q.effectsInSegments = none) : (f.costly k).inUnit k = f.times k := by
  have e : (f.size.costly k).inUnit k = f.size.times k := by
    cases hs : f.size with
    | unset => rfl
    | num x => rfl
    | invest q => exact congrArg SizeArg.invest (invest_both h0 (h q hs))
  simp [FlowData.costly, FlowData.inUnit, FlowData.times, dict_back h0, e]

theorem flows_both (h0 : k ≠ 0) {fs : List FlowData} (h : ∀ f ∈ fs, ∀ q, f.size = .invest q → q.effectsInSegments = none) :
    (fs.map (FlowData.costly k)).map (FlowData.inUnit k) = fs.map (FlowData.times k) := by
  rw [List.map_map]
  exact List.map_congr_left fun f hf => flow_both h0 (h f hf)

theorem option_both (h0 : k ≠ 0) {o : Option FlowData} (h : ∀ f ∈ o.toList, ∀ q, f.size = .invest q → q.effectsInSegments = none) :
    (o.map (FlowData.costly k)).map (FlowData.inUnit k) = o.map (FlowData.times k) := by
  cases o with
  | none => rfl
  | some f => exact congrArg some (flow_both h0 (h f (by simp)))

theorem comp_both (h0 : k ≠ 0) {c : Comp} (h : c.NoPieces) : (c.costly k).inUnit k = c.times k := by
  have hl := flows_both h0 fun f (hf : f ∈ c.inputs) => h.1 f (List.mem_append_left _ hf)
  have hr := flows_both h0 fun f (hf : f ∈ c.outputs) => h.1 f (List.mem_append_right _ hf)
  cases c with
  | plain d =>
    simp only [Comp.inputs, Comp.outputs] at hl hr
    simp [Comp.costly, Comp.inUnit, Comp.times, CompData.costly, CompData.inUnit, CompData.times, -List.map_map, hl, hr]
  | converter d =>
    simp only [Comp.inputs, Comp.outputs] at hl hr
    simp [Comp.costly, Comp.inUnit, Comp.times, ConvData.inUnit, ConvData.times, CompData.costly, CompData.inUnit, CompData.times, -List.map_map, hl, hr]
  | storage t =>
    have e : (t.capacity.costly k).inUnit k = t.capacity.times k := by
      cases hs : t.capacity with
      | num x => rfl
      | invest q => exact congrArg Size.invest (invest_both h0 (h.2 t q rfl hs))
    have a := flow_both h0 (h.1 t.charging (by simp [Comp.flows, Comp.inputs]))
    have b := flow_both h0 (h.1 t.discharging (by simp [Comp.flows, Comp.outputs]))
    simp [Comp.costly, Comp.inUnit, Comp.times, StorageData.costly, StorageData.inUnit, StorageData.times, a, b, e]
  | transmission t =>
    have a := flow_both h0 (h.1 t.in1 (by simp [Comp.flows, Comp.inputs]))
    have b := flow_both h0 (h.1 t.out1 (by simp [Comp.flows, Comp.outputs]))
    have c2 := option_both h0 fun f (hf : f ∈ t.in2.toList) => h.1 f (by simp only [Comp.flows, Comp.inputs]; exact List.mem_append_left _ (List.mem_cons_of_mem _ hf))
    have d2 := option_both h0 fun f (hf : f ∈ t.out2.toList) => h.1 f (by simp only [Comp.flows, Comp.outputs]; exact List.mem_append_right _ (List.mem_cons_of_mem _ hf))
    simp [Comp.costly, Comp.inUnit, Comp.times, TransData.costly, TransData.inUnit, TransData.times, -Option.map_map, a, b, c2, d2]

theorem system_both (h0 : k ≠ 0) (h : ∀ c ∈ s.comps, c.NoPieces) : (s.costly k).inUnit k = s.times k := by
  have e1 : (s.comps.map (Comp.costly k)).map (Comp.inUnit k) = s.comps.map (Comp.times k) := by
    rw [List.map_map]
    exact List.map_congr_left fun c hc => comp_both h0 (h c hc)
  have e2 : (s.buses.map (BusData.costly k)).map (BusData.inUnit k) = s.buses := by
    rw [List.map_map]
    conv_rhs => rw [← List.map_id s.buses]
    refine List.map_congr_left fun b _ => ?_
    cases b with
    | mk l p => cases p <;> simp [BusData.costly, BusData.inUnit, num_back h0]
  simp only [System.costly, System.inUnit, System.times, e1, e2]

end Flix
