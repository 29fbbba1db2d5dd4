import Verif.Spec.Prices
import Verif.Props.Watched

/-!
# Changing the prices of a flow changes no restriction
-/

namespace Flix

variable {sys : Sys} {s : System} {n : Nat} {big : ℚ} {g : FlowData → FlowData}

theorem mapFlows_shape (c : Comp) : (c.mapFlows g).label = c.label ∧ (c.mapFlows g).inputs = c.inputs.map g ∧ (c.mapFlows g).outputs = c.outputs.map g ∧
    (c.mapFlows g).onOff = c.onOff := by
  cases c with
  | plain d => exact ⟨rfl, rfl, rfl, rfl⟩
  | converter d => exact ⟨rfl, rfl, rfl, rfl⟩
  | storage t => exact ⟨rfl, rfl, rfl, rfl⟩
  | transmission t =>
    refine ⟨rfl, ?_, ?_, rfl⟩
    · simp only [Comp.mapFlows, Comp.inputs, List.map_cons]
      cases t.in2 <;> rfl
    · simp only [Comp.mapFlows, Comp.outputs, List.map_cons]
      cases t.out2 <;> rfl

theorem mapFlows_flows (c : Comp) : (c.mapFlows g).flows = c.flows.map g := by
  unfold Comp.flows
  rw [(mapFlows_shape c).2.1, (mapFlows_shape c).2.2.1, List.map_append]

theorem states_same (o : Option OnOffParams) : LooserStates n o o := by
  cases o with
  | none => trivial
  | some q => exact ⟨looserMin_refl _, looserMax_refl _, looserMinTS_refl _, looserMaxTS_refl _, looserMinTS_refl _, looserMaxTS_refl _, looserMax_refl _⟩

theorem invest_same (q : InvestParams) : q.Looser big q := ⟨rfl, rfl, rfl, le_rfl, le_rfl⟩

/-- Neither restricts more if only prices differ. -/
theorem reflow_same {f f' : FlowData} (h : ∃ z new, f' = { f with size := z, effectsPerFlowHour := new } ∧
    (z = f.size ∨ ∃ q q', f.size = .invest q ∧ z = .invest q' ∧ q.Looser big q' ∧ q'.Looser big q)) : f.Looser big n f' ∧ f'.Looser big n f := by
  obtain ⟨z, new, rfl, hz⟩ := h
  have same : ∀ {a : Option ℚ} {P : ℚ → ℚ → Prop}, (∀ x, P x x) → ∀ m m', a = some m → a = some m' → P m m' := by
    intro a P hP m m' h h'
    rw [h] at h'
    cases h'
    exact hP m
  have key : LooserSize big n f { f with size := z, effectsPerFlowHour := new } ∧ LooserSize big n { f with size := z, effectsPerFlowHour := new } f := by
    rcases hz with rfl | ⟨q, q', e1, rfl, l1, l2⟩
    · cases hg : f.size.given big with
      | some S =>
        exact ⟨.inl ⟨S, S, hg, hg, fun t _ => ⟨le_rfl, le_rfl⟩, same fun _ => le_rfl, same fun _ => le_rfl⟩,
          .inl ⟨S, S, hg, hg, fun t _ => ⟨le_rfl, le_rfl⟩, same fun _ => le_rfl, same fun _ => le_rfl⟩⟩
      | none =>
        cases hs : f.size with
        | unset => rw [hs] at hg; cases hg
        | num x => rw [hs] at hg; cases hg
        | invest q => exact ⟨.inr ⟨q, q, hs, rfl, invest_same q⟩, .inr ⟨q, q, rfl, hs, invest_same q⟩⟩
    · exact ⟨.inr ⟨q, q', e1, rfl, l1⟩, .inr ⟨q', q, rfl, e1, l2⟩⟩
  exact ⟨⟨rfl, rfl, rfl, .inr rfl, fun _ _ => le_rfl, fun _ _ => le_rfl, states_same _, looserMin_refl _, looserMax_refl _, looserMin_refl _, looserMax_refl _, key.1⟩,
    ⟨rfl, rfl, rfl, .inr rfl, fun _ _ => le_rfl, fun _ _ => le_rfl, states_same _, looserMin_refl _, looserMax_refl _, looserMin_refl _, looserMax_refl _, key.2⟩⟩

theorem priced_same (new : EffDict) (f : FlowData) : f.Looser big n (f.priced new) ∧ (f.priced new).Looser big n f := reflow_same ⟨f.size, new, rfl, .inl rfl⟩

theorem sized_same (new : EffDict) (f : FlowData) : f.Looser big n (f.sized new) ∧ (f.sized new).Looser big n f := by
  refine reflow_same ⟨(f.sized new).size, f.effectsPerFlowHour, rfl, ?_⟩
  unfold FlowData.sized
  cases hs : f.size with
  | unset => exact .inl rfl
  | num x => exact .inl rfl
  | invest q => exact .inr ⟨q, _, rfl, rfl, ⟨rfl, rfl, rfl, le_rfl, le_rfl⟩, ⟨rfl, rfl, rfl, le_rfl, le_rfl⟩⟩

theorem comp_mapFlows (hg : ∀ f, f.Looser big n (g f) ∧ (g f).Looser big n f) (c : Comp) : c.Looser big n (c.mapFlows g) ∧ (c.mapFlows g).Looser big n c := by
  have opt : ∀ o : Option FlowData, LooserOption big n o (o.map g) ∧ LooserOption big n (o.map g) o := by
    intro o
    cases o with
    | none => exact ⟨trivial, trivial⟩
    | some f => exact hg f
  cases c with
  | plain d =>
    exact ⟨⟨rfl, forall₂_map (fun f => (hg f).1) _, forall₂_map (fun f => (hg f).1) _, states_same _, rfl⟩,
      ⟨rfl, forall₂_map_left (fun f => (hg f).2) _, forall₂_map_left (fun f => (hg f).2) _, states_same _, rfl⟩⟩
  | converter d =>
    exact ⟨⟨⟨rfl, forall₂_map (fun f => (hg f).1) _, forall₂_map (fun f => (hg f).1) _, states_same _, rfl⟩, rfl, rfl⟩,
      ⟨⟨rfl, forall₂_map_left (fun f => (hg f).2) _, forall₂_map_left (fun f => (hg f).2) _, states_same _, rfl⟩, rfl, rfl⟩⟩
  | storage t =>
    have cap : ∀ t t' : StorageData, t'.capacity = t.capacity → t'.relMinCharge = t.relMinCharge → t'.relMaxCharge = t.relMaxCharge → LooserCapacity big n t t' := by
      intro t t' h1 h2 h3
      cases hs : t.capacity with
      | num x => exact .inl ⟨x, x, hs, h1.trans hs, fun _ _ => by rw [h2, h3]; exact ⟨le_rfl, le_rfl⟩⟩
      | invest q => exact .inr ⟨q, q, hs, h1.trans hs, invest_same q⟩
    exact ⟨⟨rfl, (hg _).1, (hg _).1, fun _ _ => le_rfl, fun _ _ => le_rfl, cap _ _ rfl rfl rfl, rfl, looserMin_refl _, looserMax_refl _, rfl, rfl, rfl, rfl⟩,
      ⟨rfl, (hg _).2, (hg _).2, fun _ _ => le_rfl, fun _ _ => le_rfl, cap _ _ rfl rfl rfl, rfl, looserMin_refl _, looserMax_refl _, rfl, rfl, rfl, rfl⟩⟩
  | transmission t =>
    exact ⟨⟨rfl, (hg _).1, (hg _).1, (opt _).1, (opt _).1, rfl, rfl, states_same _, rfl⟩,
      ⟨rfl, (hg _).2, (hg _).2, (opt _).2, (opt _).2, rfl, rfl, states_same _, rfl⟩⟩

theorem mapFlow_freer (hg : ∀ f, f.Looser big n (g f) ∧ (g f).Looser big n f) (c f : String) : s.Freer big n (s.mapFlow c f g) ∧ (s.mapFlow c f g).Freer big n s := by
  have hg' : ∀ x : FlowData, x.Looser big n (if x.label = f then g x else x) ∧ (if x.label = f then g x else x).Looser big n x := by
    intro x
    split
    · exact hg x
    · exact reflow_same ⟨x.size, x.effectsPerFlowHour, rfl, .inl rfl⟩
  have each : ∀ k : Comp, k.Looser big n (if k.label = c then k.mapFlows (fun x => if x.label = f then g x else x) else k) ∧
      (if k.label = c then k.mapFlows (fun x => if x.label = f then g x else x) else k).Looser big n k := by
    intro k
    split
    · exact comp_mapFlows hg' k
    · have := comp_mapFlows (big := big) (n := n) (g := id) (fun x => reflow_same ⟨x.size, x.effectsPerFlowHour, rfl, .inl rfl⟩) k
      have e : k.mapFlows id = k := by cases k <;> simp [Comp.mapFlows]
      rwa [e] at this
  have b : List.Forall₂ BusData.Freer s.buses s.buses := List.forall₂_same.2 fun b _ => ⟨rfl, id⟩
  exact ⟨⟨List.forall₂_map_right_iff.2 (List.forall₂_same.2 fun k _ => (each k).1), b⟩, ⟨List.forall₂_map_left_iff.2 (List.forall₂_same.2 fun k _ => (each k).2), b⟩⟩

theorem recomp_same (k : Comp) : k.Looser big n k := by
  have := (comp_mapFlows (big := big) (n := n) (g := id) (fun x => reflow_same ⟨x.size, x.effectsPerFlowHour, rfl, .inl rfl⟩) k).1
  have e : k.mapFlows id = k := by cases k <;> simp [Comp.mapFlows]
  rwa [e] at this

theorem storage_same (new : EffDict) (t : StorageData) : (Comp.storage t).Looser big n (.storage (t.sized new)) ∧ (Comp.storage (t.sized new)).Looser big n (.storage t) := by
  have fl : ∀ x : FlowData, x.Looser big n x := fun x => (reflow_same ⟨x.size, x.effectsPerFlowHour, rfl, .inl rfl⟩).1
  have cap : LooserCapacity big n t (t.sized new) ∧ LooserCapacity big n (t.sized new) t := by
    unfold StorageData.sized
    cases hs : t.capacity with
    | num x => exact ⟨.inl ⟨x, x, hs, rfl, fun _ _ => ⟨le_rfl, le_rfl⟩⟩, .inl ⟨x, x, rfl, hs, fun _ _ => ⟨le_rfl, le_rfl⟩⟩⟩
    | invest q => exact ⟨.inr ⟨q, _, hs, rfl, ⟨rfl, rfl, rfl, le_rfl, le_rfl⟩⟩, .inr ⟨_, q, rfl, hs, ⟨rfl, rfl, rfl, le_rfl, le_rfl⟩⟩⟩
  exact ⟨⟨rfl, fl _, fl _, fun _ _ => le_rfl, fun _ _ => le_rfl, cap.1, rfl, looserMin_refl _, looserMax_refl _, rfl, rfl, rfl, rfl⟩,
    ⟨rfl, fl _, fl _, fun _ _ => le_rfl, fun _ _ => le_rfl, cap.2, rfl, looserMin_refl _, looserMax_refl _, rfl, rfl, rfl, rfl⟩⟩

theorem mapCapacity_freer (c : String) (new : EffDict) : s.Freer big n (s.mapCapacity c new) ∧ (s.mapCapacity c new).Freer big n s := by
  have each : ∀ k : Comp, k.Looser big n (k.sized c new) ∧ (k.sized c new).Looser big n k := by
    intro k
    cases k with
    | storage x =>
      unfold Comp.sized
      simp only
      split
      · exact storage_same new x
      · exact ⟨recomp_same _, recomp_same _⟩
    | plain d => exact ⟨recomp_same _, recomp_same _⟩
    | converter d => exact ⟨recomp_same _, recomp_same _⟩
    | transmission d => exact ⟨recomp_same _, recomp_same _⟩
  have b : List.Forall₂ BusData.Freer s.buses s.buses := List.forall₂_same.2 fun b _ => ⟨rfl, id⟩
  exact ⟨⟨List.forall₂_map_right_iff.2 (List.forall₂_same.2 fun k _ => (each k).1), b⟩, ⟨List.forall₂_map_left_iff.2 (List.forall₂_same.2 fun k _ => (each k).2), b⟩⟩

end Flix
