import Verif.Lemmas.PlanSound

/-! # What a solution of a component's model says is an admissible plan for the component -/

namespace Flix

variable {sys : Sys}

/-- The history of a component as its on/off model computes it is that of the given previous rates. -/
theorem comp_history {c : CompData} {o : CompOut} (h : compModel sys c = .ok o) (h2n : 2 ≤ sys.n) :
    previousOnValues sys.cfg.eps ((o.flows.map fun q => (q.2.flowRate, q.1.absBounds sys.cfg)).map (·.1)) =
      prevOnOfList sys.cfg.eps ((c.inputs ++ c.outputs).filterMap (·.previousFlowRate)) := by
  obtain ⟨r1, r2, _⟩ := comp_inv h
  have hall := List.rel_append r1 r2
  change List.Forall₂ _ (c.inputs ++ c.outputs) o.flows at hall
  unfold previousOnValues
  rw [previous_map (by
    intro d hd
    obtain ⟨d', hd', rfl⟩ := List.mem_map.1 hd
    obtain ⟨q, hq, rfl⟩ := List.mem_map.1 hd'
    obtain ⟨f, _, _, h2⟩ := forall₂_mem_right hall hq
    show 1 < q.2.flowRate.length
    rw [(flowRate_ok (flow_inv h2).1).2.1]; omega), ok_bind]
  congr 1
  have : (o.flows.map fun q => q.2.flowRate.previous) = (c.inputs ++ c.outputs).map (·.previousFlowRate) := by
    have hall' := hall
    generalize c.inputs ++ c.outputs = fs at hall'
    generalize o.flows = qs at hall'
    clear * - hall' h2n
    induction hall' with
    | nil => rfl
    | cons hd _ ih =>
      rename_i f q fs qs _
      rw [List.map_cons, List.map_cons, ih, (flowRate_ok (flow_inv hd.2).1).2.2.2.2.1, if_pos (by omega), declared_eq]
      rfl
  rw [List.map_map, List.map_map, show (((fun x : Var => x.previous) ∘ (fun x : Var × Num × Num => x.1)) ∘ fun q : FlowData × FlowOut => (q.2.flowRate, q.1.absBounds sys.cfg)) = fun q => q.2.flowRate.previous from rfl,
    this, List.filterMap_map]
  rfl

/-- The plan that a solution follows for a component. -/
def compPlanOf (c : CompData) (σ : Assignment) : CompPlan where
  flow l := planOf (flowFull c.label l) (((c.inputs ++ c.outputs).find? fun f => f.label == l).getD { label := l }) σ
  on := σ (stateL c.label)

/-- Static conditions on the declarations of a component. -/
structure CompData.Proper (sys : Sys) (c : CompData) : Prop where
  labels : ((c.inputs ++ c.outputs).map (·.label)).Nodup
  fits : ∀ f ∈ c.inputs ++ c.outputs, f.Fits sys.n
  sensible : ∀ f ∈ c.inputs ++ c.outputs, f.Sensible sys.cfg sys.n
  proper : ∀ f ∈ c.inputs ++ c.outputs, f.Proper sys.n
  onOff : ∀ q, c.onOff = some q → q.Fits sys.n ∧ q.NonnegLimits sys.n

theorem find_label {l : List FlowData} (hnd : (l.map (·.label)).Nodup) {f : FlowData} (hf : f ∈ l) : l.find? (fun g => g.label == f.label) = some f := by
  induction l with
  | nil => cases hf
  | cons g l ih =>
    rw [List.map_cons, List.nodup_cons] at hnd
    rcases List.mem_cons.1 hf with rfl | hm
    · simp
    · have hne : g.label ≠ f.label := fun he => hnd.1 (he ▸ List.mem_map_of_mem hm)
      rw [List.find?_cons_of_neg (by simpa using hne)]
      exact ih hnd.2 hm

theorem declared_sensible {c : CompData} {f : FlowData} (h : f.Sensible sys.cfg sys.n) : (c.declared f).Sensible sys.cfg sys.n :=
  ⟨h.size, h.low, h.invest⟩

theorem declared_proper {c : CompData} {f : FlowData} (h : f.Proper sys.n) : (c.declared f).Proper sys.n := by
  refine ⟨fun q hq => ?_, h.2⟩
  unfold CompData.declared at hq
  simp only at hq
  cases ho : f.onOff with
  | some q' =>
    rw [ho] at hq
    cases hq
    exact h.1 _ ho
  | none =>
    rw [ho] at hq
    split at hq
    · cases hq
      intro m hm
      simp at hm
    · cases hq

theorem comp_sound (hv : sys.Valid) {c : CompData} {o : CompOut} (hp : c.Proper sys) (h : compModel sys c = .ok o) {σ : Assignment} (hs : o.tree.Solves σ) :
    (compPlanOf c σ).Allows sys c ∧ (compPlanOf c σ).Realized c σ := by
  obtain ⟨s1, s2, _⟩ := (comp_solves h σ).2 hs
  obtain ⟨r1, r2, hon, _⟩ := comp_inv h
  have hall := List.rel_append r1 r2
  change List.Forall₂ _ (c.inputs ++ c.outputs) o.flows at hall
  have hplan : ∀ f ∈ c.inputs ++ c.outputs, (compPlanOf c σ).flow f.label = planOf (flowFull c.label f.label) (c.declared f) σ := by
    intro f hf
    unfold compPlanOf
    simp only [find_label hp.labels hf, Option.getD_some]
    rfl
  have hflow : ∀ f ∈ c.inputs ++ c.outputs, ((compPlanOf c σ).flow f.label).Allows sys (c.declared f) := by
    intro f hf
    obtain ⟨q, hq, _, hm⟩ := forall₂_mem_left hall hf
    rw [declared_eq] at hm
    rw [hplan f hf]
    exact flow_sound hv (declared_eq c f ▸ fillOnOff_fits (hp.fits f hf)) hm (s1 q hq) (declared_sensible (hp.sensible f hf)) (declared_proper (hp.proper f hf))
  refine ⟨⟨hflow, ?_, ?_, ?_⟩, ?_, ?_, ?_, ?_, ?_, ?_⟩
  · intro q hq
    obtain ⟨qf, qn⟩ := hp.onOff q hq
    unfold compOnOff at hon
    rw [hq] at hon
    obtain ⟨oo, hoo, hoe⟩ := map_ok.1 hon
    have hds : ∀ d ∈ o.flows.map (fun q => (q.2.flowRate, q.1.absBounds sys.cfg)), d.1.length = sys.n ∧ d.2.1.Fits sys.n ∧ d.2.2.Fits sys.n := by
      intro d hd
      obtain ⟨u, hu, rfl⟩ := List.mem_map.1 hd
      obtain ⟨f, hf, h1, h2⟩ := forall₂_mem_right hall hu
      rw [h1]
      exact ⟨(flowRate_ok (flow_inv h2).1).2.1, (fillOnOff_fits (hp.fits f hf) : (fillOnOff c f).Fits sys.n).absBounds sys.cfg⟩
    obtain ⟨h2n, _⟩ := onOff_iff hv qf hds hoo
    obtain ⟨hist, last, k1, k2, k3⟩ := schedule_sound hv qf hds hoo (s2 oo hoe.symm)
    rw [comp_history h h2n] at k1
    have hll : oo.on.label = stateL c.label := (onOff_on_length hoo).2.1
    rw [hll] at k3
    exact ⟨qf, qn, hist, last, k1, k2, k3⟩
  · intro hne t ht
    obtain ⟨q, hq⟩ := Option.ne_none_iff_exists'.1 hne
    obtain ⟨qf, qn⟩ := hp.onOff q hq
    obtain ⟨oo, ho, hst⟩ := C07_component hv hp.fits hq qf h hs
    have hll : oo.on.label = stateL c.label := by
      unfold compOnOff at hon
      rw [hq] at hon
      obtain ⟨oo', hoo, hoe⟩ := map_ok.1 hon
      rw [ho] at hoe; cases hoe
      exact (onOff_on_length hoo).2.1
    obtain ⟨hbin, _, hiff⟩ := hst t ht
    rw [hll] at hbin hiff
    have hrun : ∀ f ∈ c.inputs ++ c.outputs, ((compPlanOf c σ).flow f.label).r t = 0 ∨ sys.cfg.eps ≤ ((compPlanOf c σ).flow f.label).r t := by
      intro f hf
      have hd : (c.declared f).onOff ≠ none := by
        unfold CompData.declared
        simp only
        cases f.onOff <;> simp [hq]
      rcases (hflow f hf).follows.running hd t ht with h | h
      · exact .inl h.2
      · exact .inr h.2.1
    have hrate : ∀ p ∈ o.flows, ∃ f ∈ c.inputs ++ c.outputs, σ p.2.flowRate.label t = ((compPlanOf c σ).flow f.label).r t := by
      intro p hp'
      obtain ⟨f, hf, _, hm⟩ := forall₂_mem_right hall hp'
      refine ⟨f, hf, ?_⟩
      rw [(flowRate_ok (flow_inv hm).1).1, hplan f hf]; rfl
    have hrate' : ∀ f ∈ c.inputs ++ c.outputs, ∃ p ∈ o.flows, σ p.2.flowRate.label t = ((compPlanOf c σ).flow f.label).r t := by
      intro f hf
      obtain ⟨p, hp', _, hm⟩ := forall₂_mem_left hall hf
      refine ⟨p, hp', ?_⟩
      rw [(flowRate_ok (flow_inv hm).1).1, hplan f hf]; rfl
    change (σ (stateL c.label) t = 0 ∧ _) ∨ (σ (stateL c.label) t = 1 ∧ _)
    rcases hbin with h0 | h1
    · left
      refine ⟨h0, fun f hf => ?_⟩
      by_contra hne
      obtain ⟨p, hp', he⟩ := hrate' f hf
      have := hiff.2 ⟨p, hp', by rw [he]; exact hne⟩
      rw [h0] at this
      exact absurd this (by norm_num)
    · right
      refine ⟨h1, ?_⟩
      obtain ⟨p, hp', hne⟩ := hiff.1 h1
      obtain ⟨f, hf, he⟩ := hrate p hp'
      rw [he] at hne
      refine le_trans ((hrun f hf).resolve_left hne) ?_
      have hpos : ∀ x ∈ (c.inputs ++ c.outputs).map fun f => ((compPlanOf c σ).flow f.label).r t, 0 ≤ x := by
        intro x hx
        obtain ⟨g, hg, rfl⟩ := List.mem_map.1 hx
        rcases hrun g hg with h | h
        · exact h.ge
        · exact le_trans hv.heps.le h
      exact List.single_le_sum hpos _ (List.mem_map.2 ⟨f, hf, rfl⟩)
  · intro t ht
    by_cases hpe : c.prevent = []
    · rw [hpe]; exact .nil
    · have := ((comp_prevent hv hp.fits h hpe σ).1 hs).2.2 t ht
      exact this
  · intro f hf
    rw [hplan f hf]; rfl
  · intro f hf q hq
    rw [hplan f hf]; rfl
  · intro f hf ho
    rw [hplan f hf]; rfl
  · intro ho; rfl
  · intro f hf q hq hopt
    rw [hplan f hf]
    simp only [planOf, CompData.declared, hq, hopt, if_true]
  · intro f hf q hq e he
    rw [hplan f hf]; rfl

end Flix
