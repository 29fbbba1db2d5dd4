import Verif.Props.Order

/-!
# C74: nothing is lost between the buses
-/

namespace Flix

/-- What all components together deliver in step `t`. -/
def System.produced (s : System) (σ : Assignment) (t : Nat) : ℚ :=
  (s.comps.map fun c => (c.outputs.map fun f => σ (c.label ++ "__" ++ f.label ++ "_" ++ "flow_rate") t).sum).sum

/-- What all components together take in step `t`. -/
def System.consumed (s : System) (σ : Assignment) (t : Nat) : ℚ :=
  (s.comps.map fun c => (c.inputs.map fun f => σ (c.label ++ "__" ++ f.label ++ "_" ++ "flow_rate") t).sum).sum

/-- Excess supply minus excess demand of the buses that allow it. -/
def System.excess (s : System) (σ : Assignment) (t : Nat) : ℚ :=
  ((s.buses.filter fun b => b.excessPenalty.isSome).map fun b => σ (b.label ++ "_" ++ "excess_input") t - σ (b.label ++ "_" ++ "excess_output") t).sum

theorem sum_filter_bus {ι} (g : ι → String) (v : ι → ℚ) {bs : List String} (hn : bs.Nodup) {xs : List ι} (hx : ∀ x ∈ xs, g x ∈ bs) :
    (bs.map fun b => ((xs.filter fun x => g x = b).map v).sum).sum = (xs.map v).sum := by
  induction xs with
  | nil => simp
  | cons x xs ih =>
    have h1 := ih fun y hy => hx y (by simp [hy])
    have h2 : ∀ b, (((x :: xs).filter fun x => g x = b).map v).sum = (if g x = b then v x else 0) + ((xs.filter fun x => g x = b).map v).sum := by
      intro b
      rw [List.filter_cons]
      by_cases hb : g x = b <;> simp [hb]
    have h3 : ∀ {bs : List String}, bs.Nodup → g x ∈ bs → (bs.map fun b => if g x = b then v x else 0).sum = v x := by
      intro bs hn hm
      induction bs with
      | nil => simp at hm
      | cons b bs ihb =>
        rw [List.nodup_cons] at hn
        by_cases hb : g x = b
        · have : (bs.map fun b => if g x = b then v x else 0).sum = 0 := by
            apply List.sum_eq_zero
            intro y hy
            obtain ⟨b', hb', rfl⟩ := List.mem_map.1 hy
            have : g x ≠ b' := fun e => hn.1 (by rw [← hb, e]; exact hb')
            simp [this]
          simp [hb] at this ⊢
          exact this
        · have hm' : g x ∈ bs := by
            rcases List.mem_cons.1 hm with e | e
            · exact absurd e hb
            · exact e
          simp [hb, ihb hn.2 hm']
    simp only [h2, List.sum_map_add, h1, h3 hn (hx x (by simp)), List.map_cons, List.sum_cons]

variable {sys : Sys} {s : System} {o : SysOut}

/-- Buses of a system that can be modelled have different labels. -/
theorem bus_label_nodup (h : systemModel sys s = .ok o) : (s.buses.map (·.label)).Nodup := by
  obtain ⟨_, h2, _, h4⟩ := system_inv h
  have hn := ((C53 _ _).1 ⟨_, h4⟩).2
  rw [conLabels_all, List.flatMap_append] at hn
  have hb := (List.nodup_append.1 hn).2.1
  have : (o.buses.map (·.tree)).flatMap MTree.conLabels = s.buses.map fun b => (mkEq b.label "busBalance" []).label := by
    clear hn hb h4 h
    generalize s.buses = bs at h2
    generalize o.buses = obs at h2
    induction h2 with
    | nil => rfl
    | cons hd hh ih =>
      rename_i b ob bs obs
      rw [List.map_cons, List.flatMap_cons, ih, List.map_cons]
      have : ob.tree.conLabels = [(mkEq b.label "busBalance" []).label] := by
        unfold busModel at hd
        cases hp : b.excessPenalty with
        | none =>
          rw [hp] at hd
          cases hd
          rw [conLabels_node]
          rfl
        | some pen =>
          rw [hp] at hd
          simp only at hd
          peel hd with f, hf
          peel hd with a, ha
          peel hd with c, hc
          cases hd
          rw [conLabels_node]
          rfl
      rw [this]
      rfl
  rw [this, show (fun b : BusData => (mkEq b.label "busBalance" []).label) = (fun l => (mkEq l "busBalance" []).label) ∘ BusData.label from rfl,
    ← List.map_map] at hb
  exact hb.of_map _

/-- **C74.**  If all flows are connected to buses of the system, everything delivered is consumed: in every step the sum of all component outputs
plus the excess supply of the buses equals the sum of all component inputs plus their excess demand. -/
theorem C74 (hv : sys.Valid) (hf : s.Fits sys.n) (h : systemModel sys s = .ok o) (hc : ∀ c ∈ s.comps, ∀ f ∈ c.flows, f.bus ∈ s.buses.map (·.label))
    {σ : Assignment} (hs : o.solver.Solves σ) : ∀ t < sys.n, s.produced σ t + s.excess σ t = s.consumed σ t := by
  intro t ht
  have hn := bus_label_nodup h
  have key : ∀ (fl : Comp → List FlowData), (∀ c ∈ s.comps, ∀ f ∈ fl c, f.bus ∈ s.buses.map (·.label)) →
      ((s.buses.map (·.label)).map fun b => (s.comps.map fun c => (((fl c).filter fun f => f.bus = b).map fun f =>
        σ (c.label ++ "__" ++ f.label ++ "_" ++ "flow_rate") t).sum).sum).sum =
      (s.comps.map fun c => ((fl c).map fun f => σ (c.label ++ "__" ++ f.label ++ "_" ++ "flow_rate") t).sum).sum := by
    intro fl hfl
    have hcs : ∀ cs : List Comp, (∀ c ∈ cs, ∀ f ∈ fl c, f.bus ∈ s.buses.map (·.label)) →
        ((s.buses.map (·.label)).map fun b => (cs.map fun c => (((fl c).filter fun f => f.bus = b).map fun f =>
          σ (c.label ++ "__" ++ f.label ++ "_" ++ "flow_rate") t).sum).sum).sum =
        (cs.map fun c => ((fl c).map fun f => σ (c.label ++ "__" ++ f.label ++ "_" ++ "flow_rate") t).sum).sum := by
      intro cs
      induction cs with
      | nil =>
        intro _
        simp only [List.map_nil, List.sum_nil]
        exact List.sum_eq_zero (by simp)
      | cons c cs ih =>
        intro hcs
        simp only [List.map_cons, List.sum_cons, List.sum_map_add]
        rw [ih fun c' hc' => hcs c' (by simp [hc']), sum_filter_bus FlowData.bus _ hn (hcs c (by simp))]
    exact hcs _ hfl
  have k1 := key Comp.outputs fun c hcm f hfm => hc c hcm f (List.mem_append_right _ hfm)
  have k2 := key Comp.inputs fun c hcm f hfm => hc c hcm f (List.mem_append_left _ hfm)
  have hb : ∀ bs : List BusData, (∀ b ∈ bs, b ∈ s.buses) →
      ((bs.map (·.label)).map fun b => fedInto σ s b t).sum + ((bs.filter fun b => b.excessPenalty.isSome).map fun b =>
        σ (b.label ++ "_" ++ "excess_input") t - σ (b.label ++ "_" ++ "excess_output") t).sum = ((bs.map (·.label)).map fun b => takenFrom σ s b t).sum := by
    intro bs
    induction bs with
    | nil => simp
    | cons b bs ih =>
      intro hbs
      have h1 := ih fun b' hb' => hbs b' (by simp [hb'])
      obtain ⟨c1, c2⟩ := C27_system hv h hs (hbs b (by simp))
      rw [List.filter_cons]
      cases hp : b.excessPenalty with
      | none =>
        simp only [Option.isSome_none, Bool.false_eq_true, if_false, List.map_cons, List.sum_cons, c1 hp t ht]
        linarith
      | some pen =>
        have := (c2 pen hp (hf.buses b (hbs b (by simp)) pen hp) t ht).1
        simp only [Option.isSome_some, if_true, List.map_cons, List.sum_cons]
        linarith
  have := hb s.buses fun _ hb => hb
  unfold System.produced System.consumed System.excess
  rw [← k1, ← k2]
  exact this

/-- The hypotheses are met by the example: in the last step 1 of the 3 units delivered is excess at the heat bus. -/
example : (∀ c ∈ exSystem.comps, ∀ f ∈ c.flows, f.bus ∈ exSystem.buses.map (·.label)) ∧ exSystem.produced exSystemSol 2 = 3 ∧ exSystem.excess exSystemSol 2 = -1 ∧
    exSystem.consumed exSystemSol 2 = 2 := by
  refine ⟨?_, by decide +kernel, by decide +kernel, by decide +kernel⟩
  intro c hc f hf
  simp only [exSystem, List.mem_cons, List.not_mem_nil, or_false] at hc
  rcases hc with rfl | rfl | rfl <;>
    simp only [Comp.flows, Comp.inputs, Comp.outputs, List.nil_append, List.append_nil, List.cons_append, List.mem_cons, List.not_mem_nil, or_false] at hf
  · subst hf; decide +kernel
  · rcases hf with rfl | rfl <;> decide +kernel
  · subst hf; decide +kernel

end Flix
