import Verif.Lemmas.SeriesNames
import Verif.Spec.AggRun

/-!
# Lemmas about other data for the time series of a system
-/

namespace Flix

/-- The series of an element with other data. -/
def ElSeries.via (g : String → Num → Num) (l : ElSeries) : ElSeries := l.map fun r => (r.1, g r.1 r.2)

theorem via_append (g : String → Num → Num) (a b : ElSeries) : ElSeries.via g (a ++ b) = ElSeries.via g a ++ ElSeries.via g b := List.map_append

theorem given_via (g : String → Num → Num) (l : String) (o : Option Num) : givenSeries l (o.map (g l)) = ElSeries.via g (givenSeries l o) := by
  cases o <;> rfl

theorem eff_via (g : String → Num → Num) (sf : String) (d : EffDict) : effSeries sf (d.withSeries sf g) = ElSeries.via g (effSeries sf d) := by
  simp [effSeries, EffDict.withSeries, ElSeries.via]

theorem onOff_via (g : String → Num → Num) (o : Option OnOffParams) : onOffSeries (o.map (·.withSeries g)) = ElSeries.via g (onOffSeries o) := by
  cases o with
  | none => rfl
  | some p => simp only [onOffSeries, Option.map_some, Option.getD_some, OnOffParams.series, OnOffParams.withSeries, via_append, given_via, eff_via]

theorem flow_via (g : String → Num → Num) (f : FlowData) : (f.withSeries g).series = ElSeries.via g f.series := by
  simp only [FlowData.series, FlowData.withSeries, via_append, given_via, eff_via, onOff_via]
  rfl

theorem point_via (g : String → Num → Num) (ss : List (String × List (Num × Num))) :
    pointSeries (ss.map fun r => (r.1, r.2.map fun q => (g "Stuetzstelle" q.1, g "Stuetzstelle" q.2))) = ElSeries.via g (pointSeries ss) := by
  simp only [pointSeries, ElSeries.via, List.map_map, List.map_flatten]
  induction ss with
  | nil => rfl
  | cons r rs ih => simp only [List.map_cons, List.flatten_cons, List.map_append, List.flatten_append, Function.comp_def, List.map_map, List.map_nil] at ih ⊢

theorem factor_via (g : String → Num → Num) (fs : List Factors) :
    factorSeries (fs.map fun (d : Factors) => d.map fun q => (q.1, g (q.1 ++ "_factor") q.2)) = ElSeries.via g (factorSeries fs) := by
  simp only [factorSeries, ElSeries.via, List.map_map, List.map_flatten, Function.comp_def]

theorem comp_name_with (g : String → String → Num → Num) (c : Comp) : (c.withSeries g).name = c.name := by cases c <;> rfl

theorem comp_via (g : String → String → Num → Num) (c : Comp) : (c.withSeries g).series = ElSeries.via (g c.name) c.series := by
  cases c with
  | plain c => exact onOff_via _ _
  | converter c =>
    simp only [Comp.withSeries, Comp.series, ConvData.series, ConvData.withSeries, CompData.withSeries, Comp.name, onOff_via, via_append]
    congr 1
    by_cases h : c.factors.isEmpty
    · simp only [List.isEmpty_iff] at h
      simp only [h, List.map_nil, List.isEmpty_nil, if_true, point_via]
    · have h' : (c.factors.map fun (fs : Factors) => fs.map fun q => (q.1, g c.comp.label (q.1 ++ "_factor") q.2)).isEmpty = false := by
        simpa using h
      simp only [h, h', Bool.false_eq_true, if_false]
      exact factor_via _ _
  | storage s => rfl
  | transmission t => simp only [Comp.withSeries, Comp.series, TransData.series, TransData.withSeries, Comp.name, onOff_via, via_append, given_via]

theorem flows_via (g : String → String → Num → Num) (c : Comp) : (c.withSeries g).userFlows = c.userFlows.map fun f => f.withSeries (g (flowFull c.name f.label)) := by
  cases c with
  | plain c => simp [Comp.withSeries, CompData.withSeries, Comp.userFlows, flowsWith, Comp.name]
  | converter c => simp [Comp.withSeries, ConvData.withSeries, CompData.withSeries, Comp.userFlows, flowsWith, Comp.name]
  | storage s => rfl
  | transmission t => cases h : t.in2 <;> cases h' : t.out2 <;> simp [Comp.withSeries, TransData.withSeries, Comp.userFlows, Comp.name, h, h']

theorem effect_via (g : String → Num → Num) (e : EffectData) : (e.withSeries g).series = ElSeries.via g e.series := by
  simp only [EffectData.series, EffectData.withSeries, via_append, given_via]
  congr 1
  simp [effSeries, ElSeries.via, String.append_assoc]

/-- The series of the new system are the new series. -/
theorem allSeries_with (g : String → String → Num → Num) (s : System) : (s.withSeries g).allSeries = s.allSeries.map fun q => (q.1, ElSeries.via (g q.1) q.2) := by
  have hb : ∀ b : BusData, (b.withSeries (g b.label)).series = ElSeries.via (g b.label) b.series := fun b => given_via _ _ _
  have l1 : ∀ (h : String → Num → Num) (b : BusData), (b.withSeries h).label = b.label := fun _ _ => rfl
  have l2 : ∀ (h : String → Num → Num) (b : EffectData), (b.withSeries h).label = b.label := fun _ _ => rfl
  have l3 : ∀ (h : String → Num → Num) (b : FlowData), (b.withSeries h).label = b.label := fun _ _ => rfl
  simp only [System.allSeries, System.withSeries, List.map_append, List.map_map, List.map_flatten, Function.comp_def, comp_name_with, comp_via, flows_via,
    flow_via, effect_via, hb, l1, l2, l3]

/-! ## All else stays -/

theorem onOff_bare (g : String → Num → Num) (p : OnOffParams) : (p.withSeries g).bare = p.bare := by
  simp [OnOffParams.bare, OnOffParams.withSeries, EffDict.withSeries, Function.comp_def]

theorem flow_bare (g : String → Num → Num) (f : FlowData) : (f.withSeries g).bare = f.bare := by
  simp [FlowData.bare, FlowData.withSeries, EffDict.withSeries, Function.comp_def, onOff_bare]

theorem compData_bare (g : String → String → Num → Num) (c : CompData) : (c.withSeries g).bare = c.bare := by
  simp [CompData.bare, CompData.withSeries, flowsWith, Function.comp_def, onOff_bare, flow_bare]

theorem comp_bare (g : String → String → Num → Num) (c : Comp) : (c.withSeries g).bare = c.bare := by
  cases c with
  | plain c => simp [Comp.bare, Comp.withSeries, compData_bare]
  | converter c =>
    simp only [Comp.bare, Comp.withSeries, ConvData.bare, ConvData.withSeries, compData_bare, List.map_map, Function.comp_def]
    cases h : c.factors <;> simp [Function.comp_def]
  | storage s => simp [Comp.bare, Comp.withSeries, StorageData.withSeries, flow_bare]
  | transmission t => simp [Comp.bare, Comp.withSeries, TransData.withSeries, flow_bare, onOff_bare, Function.comp_def]

theorem system_bare (g : String → String → Num → Num) (s : System) : (s.withSeries g).bare = s.bare := by
  simp [System.bare, System.withSeries, Function.comp_def, comp_bare, EffectData.withSeries, BusData.withSeries]

/-! ## The same data -/

theorem map_self {α} {f : α → α} {l : List α} (h : ∀ x ∈ l, f x = x) : l.map f = l := by
  conv_rhs => rw [← List.map_id l]
  exact List.map_congr_left h

theorem opt_self {α} {f : α → α} {o : Option α} (h : ∀ x, o = some x → f x = x) : o.map f = o := by
  cases o with
  | none => rfl
  | some x => simp [h x rfl]

/-- Nothing changes for the series of an element. -/
def Keeps (g : String → Num → Num) (l : ElSeries) : Prop := ∀ r ∈ l, g r.1 r.2 = r.2

theorem Keeps.left {g : String → Num → Num} {a b : ElSeries} (h : Keeps g (a ++ b)) : Keeps g a := fun r hr => h r (List.mem_append_left _ hr)
theorem Keeps.right {g : String → Num → Num} {a b : ElSeries} (h : Keeps g (a ++ b)) : Keeps g b := fun r hr => h r (List.mem_append_right _ hr)

theorem given_same {g : String → Num → Num} {l : String} {o : Option Num} (h : Keeps g (givenSeries l o)) : o.map (g l) = o :=
  opt_self fun x hx => h (l, x) (by simp [givenSeries, hx])

theorem eff_same {g : String → Num → Num} {sf : String} {d : EffDict} (h : Keeps g (effSeries sf d)) : d.withSeries sf g = d :=
  map_self fun q hq => Prod.ext rfl (h _ (List.mem_map.2 ⟨q, hq, rfl⟩))

theorem onOff_same {g : String → Num → Num} {o : Option OnOffParams} (h : Keeps g (onOffSeries o)) : o.map (·.withSeries g) = o := by
  refine opt_self fun p hp => ?_
  subst hp
  have h' : Keeps g p.series := h
  unfold OnOffParams.series at h'
  unfold OnOffParams.withSeries
  rw [eff_same h'.left.left.left.left.left, eff_same h'.left.left.left.left.right, given_same h'.left.left.left.right, given_same h'.left.left.right,
    given_same h'.left.right, given_same h'.right]

theorem flow_same {g : String → Num → Num} {f : FlowData} (h : Keeps g f.series) : f.withSeries g = f := by
  unfold FlowData.series at h
  unfold FlowData.withSeries
  rw [onOff_same h.right, eff_same h.left.right, given_same h.left.left.right, h.left.left.left ("relative_minimum", f.relMin) (by simp),
    h.left.left.left ("relative_maximum", f.relMax) (by simp)]

theorem comp_same {g : String → String → Num → Num} {c : Comp} (h : Keeps (g c.name) c.series)
    (hf : ∀ f ∈ c.userFlows, Keeps (g (flowFull c.name f.label)) f.series) : c.withSeries g = c := by
  have fl : ∀ fs : List FlowData, (∀ f ∈ fs, f ∈ c.userFlows) → flowsWith g c.name fs = fs := fun fs hfs => map_self fun f hm => flow_same (hf f (hfs f hm))
  cases c with
  | plain c =>
    simp only [Comp.withSeries, CompData.withSeries]
    have e1 := fl c.inputs fun f hm => List.mem_append_left _ hm
    have e2 := fl c.outputs fun f hm => List.mem_append_right _ hm
    simp only [Comp.name] at e1 e2
    rw [e1, e2, onOff_same (g := g c.label) h]
  | converter c =>
    have e1 := fl c.comp.inputs fun f hm => List.mem_append_left _ hm
    have e2 := fl c.comp.outputs fun f hm => List.mem_append_right _ hm
    simp only [Comp.name] at e1 e2
    have h' : Keeps (g c.comp.label) c.series := h
    unfold ConvData.series at h'
    simp only [Comp.withSeries, ConvData.withSeries, CompData.withSeries]
    rw [e1, e2, onOff_same h'.left]
    have h2 := h'.right
    congr 1
    by_cases hc : c.factors.isEmpty
    · simp only [hc, if_true] at h2 ⊢
      have : c.factors = [] := by simpa using hc
      have e3 : c.segments.map (fun r => (r.1, r.2.map fun q => (g c.comp.label "Stuetzstelle" q.1, g c.comp.label "Stuetzstelle" q.2))) = c.segments := by
        refine map_self fun r hr => Prod.ext rfl (map_self fun q hq => ?_)
        have m : ∀ x, x = q.1 ∨ x = q.2 → ("Stuetzstelle", x) ∈ pointSeries c.segments := by
          intro x hx
          unfold pointSeries
          refine List.mem_flatten.2 ⟨_, List.mem_map.2 ⟨q, List.mem_flatten.2 ⟨_, List.mem_map.2 ⟨r, hr, rfl⟩, hq⟩, rfl⟩, ?_⟩
          rcases hx with rfl | rfl <;> simp
        exact Prod.ext (h2 _ (m _ (.inl rfl))) (h2 _ (m _ (.inr rfl)))
      rw [e3]
      obtain ⟨comp, factors, segments⟩ := c
      simp only at this
      subst this
      rfl
    · simp only [hc, Bool.false_eq_true, if_false] at h2 ⊢
      have e3 : (c.factors.map fun (fs : Factors) => fs.map fun q => (q.1, g c.comp.label (q.1 ++ "_factor") q.2)) = c.factors := by
        refine map_self fun fs hfs => map_self fun q hq => Prod.ext rfl (h2 (q.1 ++ "_factor", q.2) ?_)
        unfold factorSeries
        exact List.mem_map.2 ⟨q, List.mem_flatten.2 ⟨fs, hfs, hq⟩, rfl⟩
      rw [e3]
  | storage s =>
    have h' : Keeps (g s.label) s.series := h
    have m : ∀ r ∈ s.series, g s.label r.1 r.2 = r.2 := h'
    unfold StorageData.series at m
    simp only [Comp.withSeries, StorageData.withSeries]
    have e1 := flow_same (hf s.charging (by simp [Comp.userFlows]))
    have e2 := flow_same (hf s.discharging (by simp [Comp.userFlows]))
    simp only [Comp.name] at e1 e2
    rw [e1, e2, m ("relative_minimum_charge_state", s.relMinCharge) (by simp), m ("relative_maximum_charge_state", s.relMaxCharge) (by simp),
      m ("eta_charge", s.etaCharge) (by simp), m ("eta_discharge", s.etaDischarge) (by simp), m ("relative_loss_per_hour", s.relLoss) (by simp)]
  | transmission t =>
    have h' : Keeps (g t.label) t.series := h
    unfold TransData.series at h'
    simp only [Comp.withSeries, TransData.withSeries]
    have e1 := flow_same (hf t.in1 (by simp [Comp.userFlows]))
    have e2 := flow_same (hf t.out1 (by simp [Comp.userFlows]))
    have e3 : t.in2.map (fun f => f.withSeries (g (flowFull t.label f.label))) = t.in2 := opt_self fun f hm => flow_same (hf f (by simp [Comp.userFlows, hm]))
    have e4 : t.out2.map (fun f => f.withSeries (g (flowFull t.label f.label))) = t.out2 := opt_self fun f hm => flow_same (hf f (by simp [Comp.userFlows, hm]))
    simp only [Comp.name] at e1 e2
    rw [e1, e2, e3, e4, onOff_same h'.left.left, given_same h'.left.right, given_same h'.right]

/-- If every series keeps its data, the system is the same. -/
theorem system_same {g : String → String → Num → Num} {s : System} (h : ∀ q ∈ s.allSeries, Keeps (g q.1) q.2) : s.withSeries g = s := by
  unfold System.allSeries at h
  simp only [List.mem_append, List.mem_map, List.mem_flatten] at h
  obtain ⟨es, cs, bs⟩ := s
  simp only at h
  simp only [System.withSeries]
  have e1 : es.map (fun e => e.withSeries (g e.label)) = es := by
    refine map_self fun e he => ?_
    have k : Keeps (g e.label) e.series := h (e.label, e.series) (.inl (.inl (.inr ⟨e, he, rfl⟩)))
    unfold EffectData.series at k
    unfold EffectData.withSeries
    rw [given_same k.left.left, given_same k.left.right]
    have : (e.shareOperation.map fun q => (q.1, g e.label (q.1 ++ "_specific_share_to_other_effects_operation") q.2)) = e.shareOperation := by
      refine map_self fun q hq => Prod.ext rfl (k.right (q.1 ++ "_specific_share_to_other_effects_operation", q.2) ?_)
      unfold effSeries
      refine List.mem_map.2 ⟨(some q.1, q.2), List.mem_map.2 ⟨q, hq, rfl⟩, ?_⟩
      simp [String.append_assoc]
    rw [this]
  have e2 : cs.map (·.withSeries g) = cs := map_self fun c hc => comp_same (h (c.name, c.series) (.inl (.inl (.inl ⟨c, hc, rfl⟩))))
    fun f hf => h (flowFull c.name f.label, f.series) (.inl (.inr ⟨_, ⟨c, hc, rfl⟩, List.mem_map.2 ⟨f, hf, rfl⟩⟩))
  have e3 : bs.map (fun b => b.withSeries (g b.label)) = bs := by
    refine map_self fun b hb => ?_
    have k : Keeps (g b.label) b.series := h (b.label, b.series) (.inr ⟨b, hb, rfl⟩)
    unfold BusData.withSeries
    rw [given_same k]
  rw [e1, e2, e3]

end Flix
