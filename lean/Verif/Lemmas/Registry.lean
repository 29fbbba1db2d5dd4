import Verif.Model.Registry
import Verif.Props.EffectHistory
import Mathlib.Data.List.Nodup

/-!
# Dictionaries and the registry of a flow system
-/

namespace Flix

section dicts
variable {α : Type}

theorem pySet_keys (d : List (String × α)) (k : String) (x : α) :
    (pySet d k x).map (·.1) = if k ∈ d.map (·.1) then d.map (·.1) else d.map (·.1) ++ [k] := by
  induction d with
  | nil => simp [pySet]
  | cons q qs ih =>
    unfold pySet
    by_cases h : q.1 = k
    · simp [h]
    · rw [if_neg h, List.map_cons, ih]
      have h' : ¬ k = q.1 := fun e => h e.symm
      simp only [List.map_cons, List.mem_cons, h', false_or]
      split <;> simp

theorem pySet_new {d : List (String × α)} {k : String} {x : α} (h : k ∉ d.map (·.1)) : pySet d k x = d ++ [(k, x)] := by
  induction d with
  | nil => rfl
  | cons q qs ih =>
    simp only [List.map_cons, List.mem_cons, not_or] at h
    simp [pySet, Ne.symm h.1, ih h.2]

theorem pySet_nodup {d : List (String × α)} (h : (d.map (·.1)).Nodup) (k : String) (x : α) : ((pySet d k x).map (·.1)).Nodup := by
  rw [pySet_keys]
  split
  · exact h
  · rename_i hk
    rw [List.nodup_append]
    refine ⟨h, by simp, ?_⟩
    intro a ha b hb e
    simp at hb
    exact hk (hb ▸ e ▸ ha)

theorem mem_pySet {d : List (String × α)} {k : String} {x : α} {q : String × α} (h : q ∈ pySet d k x) : q = (k, x) ∨ q ∈ d := by
  induction d with
  | nil => simp [pySet] at h; exact .inl h
  | cons p ps ih =>
    unfold pySet at h
    split at h
    · rcases List.mem_cons.1 h with h | h
      · exact .inl h
      · exact .inr (List.mem_cons_of_mem _ h)
    · rcases List.mem_cons.1 h with h | h
      · exact .inr (by simp [h])
      · rcases ih h with h | h
        · exact .inl h
        · exact .inr (List.mem_cons_of_mem _ h)

theorem pyUpdate_nodup {d : List (String × α)} (h : (d.map (·.1)).Nodup) (xs : List (String × α)) :
    ((pyUpdate d xs).map (·.1)).Nodup := by
  unfold pyUpdate
  induction xs generalizing d with
  | nil => exact h
  | cons q qs ih => exact ih (pySet_nodup h q.1 q.2)

theorem mem_pyUpdate {d xs : List (String × α)} {q : String × α} (h : q ∈ pyUpdate d xs) : q ∈ d ∨ q ∈ xs := by
  unfold pyUpdate at h
  induction xs generalizing d with
  | nil => exact .inl h
  | cons p ps ih =>
    rcases ih h with h | h
    · rcases mem_pySet h with h | h
      · exact .inr (by simp [h])
      · exact .inl h
    · exact .inr (List.mem_cons_of_mem _ h)

theorem mem_pyUpdate_keys (d xs : List (String × α)) (k : String) :
    k ∈ (pyUpdate d xs).map (·.1) ↔ k ∈ d.map (·.1) ∨ k ∈ xs.map (·.1) := by
  unfold pyUpdate
  induction xs generalizing d with
  | nil => simp
  | cons p ps ih =>
    rw [List.foldl_cons, ih, pySet_keys]
    split
    · rename_i hk
      simp only [List.map_cons, List.mem_cons]
      constructor
      · rintro (h | h)
        · exact .inl h
        · exact .inr (.inr h)
      · rintro (h | h | h)
        · exact .inl h
        · exact .inl (h ▸ hk)
        · exact .inr h
    · simp only [List.map_cons, List.mem_cons, List.mem_append, List.not_mem_nil, or_false]
      tauto

theorem pyUpdate_new {d xs : List (String × α)} (h : ((d ++ xs).map (·.1)).Nodup) : pyUpdate d xs = d ++ xs := by
  unfold pyUpdate
  induction xs generalizing d with
  | nil => simp
  | cons p ps ih =>
    have hp : p.1 ∉ d.map (·.1) := by
      intro hm
      rw [List.map_append, List.nodup_append] at h
      exact h.2.2 _ hm p.1 (by simp) rfl
    rw [List.foldl_cons, pySet_new hp, ih]
    · simp
    · simpa using h

end dicts

/-- How Python runs through a set: every member once, in some order. -/
def SetOrder (ord : List Nat → List Nat) : Prop := ∀ l, (ord l).Nodup ∧ ∀ i, i ∈ ord l ↔ i ∈ l

theorem registerComp_get (flows : List RFlow) (i : Nat) (ids : List Nat) (k : Nat) :
    (registerComp flows i ids)[k]? = (flows[k]?).map fun f => if k ∈ ids then { f with comp := some i } else f := by
  unfold registerComp
  induction ids generalizing flows with
  | nil => simp
  | cons j js ih =>
    rw [List.foldl_cons, ih, List.getElem?_modify, Option.map_eq_map, Option.map_map]
    congr 1
    funext f
    by_cases hj : j = k
    · subst hj; simp
    · have : ¬ k = j := fun e => hj e.symm
      simp [hj, this]

theorem registerComp_length (flows : List RFlow) (i : Nat) (ids : List Nat) : (registerComp flows i ids).length = flows.length := by
  unfold registerComp
  induction ids generalizing flows with
  | nil => simp
  | cons j js ih => rw [List.foldl_cons, ih, List.length_modify]

theorem addOutputs_get (s : RState) (buses : List RBus) (ids : List Nat) (b : Nat) :
    (addOutputs s buses ids)[b]? = (buses[b]?).map fun x => { x with outputs := x.outputs ++ ids.filter fun k => s.flowBus k = b } := by
  unfold addOutputs
  induction ids generalizing buses with
  | nil => simp
  | cons j js ih =>
    rw [List.foldl_cons, ih, List.getElem?_modify, Option.map_eq_map, Option.map_map]
    congr 1
    funext f
    by_cases hj : s.flowBus j = b
    · simp [hj]
    · simp [hj]

theorem addInputs_get (s : RState) (buses : List RBus) (ids : List Nat) (b : Nat) :
    (addInputs s buses ids)[b]? = (buses[b]?).map fun x => { x with inputs := x.inputs ++ ids.filter fun k => s.flowBus k = b } := by
  unfold addInputs
  induction ids generalizing buses with
  | nil => simp
  | cons j js ih =>
    rw [List.foldl_cons, ih, List.getElem?_modify, Option.map_eq_map, Option.map_map]
    congr 1
    funext f
    by_cases hj : s.flowBus j = b
    · simp [hj]
    · simp [hj]

theorem getElem?_isSome_lt {α} {l : List α} {i : Nat} {a : α} (h : l[i]? = some a) : i < l.length := by
  by_contra hc
  rw [List.getElem?_eq_none (by omega)] at h
  simp at h

/-- The outputs of the added components, in order of addition. -/
def RState.allOutputs (s : RState) : List Nat := (s.added.map fun q => s.compOutputs q.2).flatten
def RState.allInputs (s : RState) : List Nat := (s.added.map fun q => s.compInputs q.2).flatten

/-- What holds of every state reached from the empty one. -/
structure RState.Inv (s : RState) : Prop where
  obj : ∀ q ∈ s.added, ∃ c, s.comps[q.2]? = some c ∧ c.label = q.1
  keys : (s.added.map (·.1)).Nodup
  flowBus : ∀ f ∈ s.flows, f.bus < s.buses.length
  compFlows : ∀ c ∈ s.comps, ∀ k ∈ c.flowIds, k < s.flows.length
  owner : ∀ q ∈ s.added, ∀ k ∈ s.compFlows q.2, ∃ f, s.flows[k]? = some f ∧ ∃ p ∈ s.added, f.comp = some p.2 ∧ k ∈ s.compFlows p.2
  busIn : ∀ (b : Nat) x, s.buses[b]? = some x → x.inputs = s.allOutputs.filter fun k => s.flowBus k = b
  busOut : ∀ (b : Nat) x, s.buses[b]? = some x → x.outputs = s.allInputs.filter fun k => s.flowBus k = b
  eff : s.eff.Inv

theorem RState.inv_empty : ({} : RState).Inv :=
  ⟨by simp, by simp, by simp, by simp, by simp, by simp, by simp, EffState.inv_empty⟩

/-- A call of `add_components` is refused and changes nothing, or the component comes last and all registrations are made. -/
theorem RState.addComp_cases (ord : List Nat → List Nat) (s : RState) (i : Nat) :
    (∃ e, s.addComp ord i = (s, some e)) ∨
    ∃ c, s.comps[i]? = some c ∧ c.label ∉ (s.allElements ord).map (·.1) ∧
      s.addComp ord i = ({ s with
        flows := registerComp s.flows i c.flowIds
        buses := addInputs s (addOutputs s s.buses c.inputs) c.outputs
        added := pySet s.added c.label i }, none) := by
  unfold RState.addComp
  cases h : s.comps[i]? with
  | none => exact .inl ⟨_, rfl⟩
  | some c =>
    simp only
    split
    · exact .inl ⟨_, rfl⟩
    · rename_i hn
      refine .inr ⟨c, rfl, ?_, rfl⟩
      simp only [List.any_eq_true, beq_iff_eq, not_exists, not_and] at hn
      rintro hm
      obtain ⟨q, hq, e⟩ := List.mem_map.1 hm
      exact hn q hq e

theorem allElements_keys (ord : List Nat → List Nat) (s : RState) (l : String) :
    l ∈ (s.allElements ord).map (·.1) ↔
      l ∈ s.added.map (·.1) ∨ l ∈ s.eff.coll.map (·.1) ∨ l ∈ (s.flowDict ord).map (·.1) ∨ l ∈ (s.busDict ord).map (·.1) := by
  unfold RState.allElements
  rw [mem_pyUpdate_keys]
  simp only [List.map_append, List.mem_append, List.map_map, List.map_nil, List.not_mem_nil, false_or, Function.comp_def, or_assoc]

theorem RState.inv_step (ord : List Nat → List Nat) {s : RState} (h : s.Inv) (c : RCall) : (s.step ord c).1.Inv := by
  cases c with
  | newBus l =>
    refine ⟨h.obj, h.keys, ?_, h.compFlows, h.owner, ?_, ?_, h.eff⟩
    · intro f hf
      have := h.flowBus f hf
      simp [RState.step]; omega
    all_goals
      intro b x hx
      simp only [RState.step] at hx ⊢
      rw [List.getElem?_append] at hx
      split at hx
    · exact h.busIn b x hx
    · rename_i hb
      have hx' : x = { label := l } := by
        rcases Nat.eq_zero_or_pos (b - s.buses.length) with h0 | h0
        · rw [h0] at hx; simpa using hx.symm
        · rw [List.getElem?_eq_none (by simp; omega)] at hx; simp at hx
      subst hx'
      symm
      rw [List.filter_eq_nil_iff]
      intro k hk e
      obtain ⟨l', hl', hk⟩ := List.mem_flatten.1 hk
      obtain ⟨q, hq, rfl⟩ := List.mem_map.1 hl'
      have hk' : k ∈ s.compFlows q.2 := by
        obtain ⟨c, hc, _⟩ := h.obj q hq
        simp only [RState.compOutputs, RState.compFlows, hc, RComp.flowIds] at hk ⊢
        exact List.mem_append_right _ hk
      obtain ⟨f, hf, _⟩ := h.owner q hq k hk'
      have := h.flowBus f (List.mem_of_getElem? hf)
      have hfb : s.flowBus k = f.bus := by simp [RState.flowBus, hf]
      have e' : s.flowBus k = b := of_decide_eq_true e
      omega
    · exact h.busOut b x hx
    · rename_i hb
      have hx' : x = { label := l } := by
        rcases Nat.eq_zero_or_pos (b - s.buses.length) with h0 | h0
        · rw [h0] at hx; simpa using hx.symm
        · rw [List.getElem?_eq_none (by simp; omega)] at hx; simp at hx
      subst hx'
      symm
      rw [List.filter_eq_nil_iff]
      intro k hk e
      obtain ⟨l', hl', hk⟩ := List.mem_flatten.1 hk
      obtain ⟨q, hq, rfl⟩ := List.mem_map.1 hl'
      have hk' : k ∈ s.compFlows q.2 := by
        obtain ⟨c, hc, _⟩ := h.obj q hq
        simp only [RState.compInputs, RState.compFlows, hc, RComp.flowIds] at hk ⊢
        exact List.mem_append_left _ hk
      obtain ⟨f, hf, _⟩ := h.owner q hq k hk'
      have := h.flowBus f (List.mem_of_getElem? hf)
      have hfb : s.flowBus k = f.bus := by simp [RState.flowBus, hf]
      have e' : s.flowBus k = b := of_decide_eq_true e
      omega
  | newFlow l b =>
    simp only [RState.step]
    split
    · rename_i hb
      have hold : ∀ q ∈ s.added, ∀ k ∈ s.compFlows q.2, k < s.flows.length := by
        intro q hq k hk
        obtain ⟨f, hf, _⟩ := h.owner q hq k hk
        exact getElem?_isSome_lt hf
      have hfb : ∀ k, k < s.flows.length →
          RState.flowBus { s with flows := s.flows ++ [{ label := l, bus := b }] } k = s.flowBus k := by
        intro k hk
        simp [RState.flowBus, List.getElem?_append_left hk]
      have hout : ∀ k ∈ s.allOutputs, k < s.flows.length := by
        intro k hk
        obtain ⟨l', hl', hk⟩ := List.mem_flatten.1 hk
        obtain ⟨q, hq, rfl⟩ := List.mem_map.1 hl'
        refine hold q hq k ?_
        obtain ⟨c, hc, _⟩ := h.obj q hq
        simp only [RState.compOutputs, RState.compFlows, hc, RComp.flowIds] at hk ⊢
        exact List.mem_append_right _ hk
      have hin : ∀ k ∈ s.allInputs, k < s.flows.length := by
        intro k hk
        obtain ⟨l', hl', hk⟩ := List.mem_flatten.1 hk
        obtain ⟨q, hq, rfl⟩ := List.mem_map.1 hl'
        refine hold q hq k ?_
        obtain ⟨c, hc, _⟩ := h.obj q hq
        simp only [RState.compInputs, RState.compFlows, hc, RComp.flowIds] at hk ⊢
        exact List.mem_append_left _ hk
      refine ⟨h.obj, h.keys, ?_, ?_, ?_, ?_, ?_, h.eff⟩
      · intro f hf
        rcases List.mem_append.1 hf with hf | hf
        · exact h.flowBus f hf
        · simp at hf; subst hf; exact hb
      · intro c hc k hk
        have := h.compFlows c hc k hk
        simp; omega
      · intro q hq k hk
        obtain ⟨f, hf, r⟩ := h.owner q hq k hk
        exact ⟨f, by simpa [List.getElem?_append_left (getElem?_isSome_lt hf)] using hf, r⟩
      · intro i x hx
        rw [h.busIn i x hx]
        refine List.filter_congr fun k hk => ?_
        rw [hfb k (hout k hk)]
      · intro i x hx
        rw [h.busOut i x hx]
        refine List.filter_congr fun k hk => ?_
        rw [hfb k (hin k hk)]
    · exact h
  | newComp l ins outs =>
    simp only [RState.step]
    split
    · rename_i hall
      have hget : ∀ q ∈ s.added, (s.comps ++ [{ label := l, inputs := ins, outputs := outs }])[q.2]? = s.comps[q.2]? := by
        intro q hq
        obtain ⟨c, hc, _⟩ := h.obj q hq
        rw [List.getElem?_append_left (getElem?_isSome_lt hc)]
      refine ⟨?_, h.keys, h.flowBus, ?_, ?_, ?_, ?_, h.eff⟩
      · intro q hq
        obtain ⟨c, hc, e⟩ := h.obj q hq
        exact ⟨c, by rw [← hc]; exact hget q hq, e⟩
      · intro c hc k hk
        rcases List.mem_append.1 hc with hc | hc
        · exact h.compFlows c hc k hk
        · simp at hc; subst hc
          simpa using List.all_eq_true.1 hall k hk
      · intro q hq k hk
        simp only [RState.compFlows, hget q hq] at hk
        obtain ⟨f, hf, p, hp, e, hk'⟩ := h.owner q hq k hk
        refine ⟨f, hf, p, hp, e, ?_⟩
        simp only [RState.compFlows, hget p hp]
        exact hk'
      · intro i x hx
        rw [h.busIn i x hx]
        have : RState.allOutputs { s with comps := s.comps ++ [{ label := l, inputs := ins, outputs := outs }] } = s.allOutputs := by
          unfold RState.allOutputs
          congr 1
          refine List.map_congr_left fun q hq => ?_
          simp only [RState.compOutputs, hget q hq]
        rw [this]
        rfl
      · intro i x hx
        rw [h.busOut i x hx]
        have : RState.allInputs { s with comps := s.comps ++ [{ label := l, inputs := ins, outputs := outs }] } = s.allInputs := by
          unfold RState.allInputs
          congr 1
          refine List.map_congr_left fun q hq => ?_
          simp only [RState.compInputs, hget q hq]
        rw [this]
        rfl
    · exact h
  | addComp i =>
    simp only [RState.step]
    rcases s.addComp_cases ord i with ⟨e, he⟩ | ⟨c, hc, hnew, he⟩
    · rw [he]; exact h
    · rw [he]
      have hk : c.label ∉ s.added.map (·.1) := fun hm => hnew ((allElements_keys ord s _).2 (.inl hm))
      simp only [pySet_new hk]
      have hfb : ∀ k, (RState.flowBus { s with
          flows := registerComp s.flows i c.flowIds
          buses := addInputs s (addOutputs s s.buses c.inputs) c.outputs
          added := s.added ++ [(c.label, i)] } k) = s.flowBus k := by
        intro k
        simp only [RState.flowBus, registerComp_get]
        cases s.flows[k]? with
        | none => rfl
        | some f => simp only [Option.map_some]; split <;> rfl
      refine ⟨?_, ?_, ?_, ?_, ?_, ?_, ?_, h.eff⟩
      · intro q hq
        rcases List.mem_append.1 hq with hq | hq
        · exact h.obj q hq
        · simp at hq; subst hq; exact ⟨c, hc, rfl⟩
      · rw [List.map_append, List.nodup_append]
        refine ⟨h.keys, by simp, ?_⟩
        intro a ha b hb e
        simp at hb
        exact hk (hb ▸ e ▸ ha)
      · intro f hf
        obtain ⟨k, hkk⟩ := List.mem_iff_getElem?.1 hf
        simp only [registerComp_get] at hkk
        have hlen : (addInputs s (addOutputs s s.buses c.inputs) c.outputs).length = s.buses.length := by
          have : ∀ (bs : List RBus) ids, (addInputs s bs ids).length = bs.length := by
            intro bs ids
            unfold addInputs
            induction ids generalizing bs with
            | nil => rfl
            | cons j js ih => rw [List.foldl_cons, ih, List.length_modify]
          rw [this]
          have : ∀ (bs : List RBus) ids, (addOutputs s bs ids).length = bs.length := by
            intro bs ids
            unfold addOutputs
            induction ids generalizing bs with
            | nil => rfl
            | cons j js ih => rw [List.foldl_cons, ih, List.length_modify]
          rw [this]
        simp only [hlen]
        cases hg : s.flows[k]? with
        | none => rw [hg] at hkk; simp at hkk
        | some f' =>
          rw [hg] at hkk
          simp only [Option.map_some, Option.some.injEq] at hkk
          have := h.flowBus f' (List.mem_of_getElem? hg)
          subst hkk
          split <;> exact this
      · intro c' hc' k hk'
        have := h.compFlows c' hc' k hk'
        simpa [registerComp_length] using this
      · intro q hq k hkq
        have hkey : ∀ f, s.flows[k]? = some f → (∃ p ∈ s.added ++ [(c.label, i)],
            (if k ∈ c.flowIds then { f with comp := some i } else f).comp = some p.2 ∧ k ∈ s.compFlows p.2) →
            ∃ f', (registerComp s.flows i c.flowIds)[k]? = some f' ∧ ∃ p ∈ s.added ++ [(c.label, i)], f'.comp = some p.2 ∧ k ∈ s.compFlows p.2 := by
          intro f hf hp
          exact ⟨_, by rw [registerComp_get, hf]; rfl, hp⟩
        by_cases hin : k ∈ c.flowIds
        · have hlt := h.compFlows c (List.mem_of_getElem? hc) k hin
          obtain ⟨f, hf⟩ : ∃ f, s.flows[k]? = some f := ⟨_, List.getElem?_eq_getElem hlt⟩
          refine hkey f hf ⟨(c.label, i), by simp, by simp [hin], ?_⟩
          simp only [RState.compFlows, hc]
          exact hin
        · rcases List.mem_append.1 hq with hq | hq
          · obtain ⟨f, hf, p, hp, e, hkp⟩ := h.owner q hq k hkq
            exact hkey f hf ⟨p, List.mem_append_left _ hp, by simp [hin, e], hkp⟩
          · simp at hq; subst hq
            simp only [RState.compFlows, hc] at hkq
            exact absurd hkq hin
      · intro b x hx
        have hx : (addInputs s (addOutputs s s.buses c.inputs) c.outputs)[b]? = some x := hx
        rw [addInputs_get, addOutputs_get] at hx
        cases hg : s.buses[b]? with
        | none => rw [hg] at hx; simp at hx
        | some y =>
          rw [hg] at hx
          simp only [Option.map_some, Option.some.injEq] at hx
          subst hx
          simp only [hfb]
          have hcc : s.compOutputs i = c.outputs := by simp [RState.compOutputs, hc]
          have : (RState.allOutputs { s with
              flows := registerComp s.flows i c.flowIds
              buses := addInputs s (addOutputs s s.buses c.inputs) c.outputs
              added := s.added ++ [(c.label, i)] }) = s.allOutputs ++ c.outputs := by
            show ((s.added ++ [(c.label, i)]).map fun q => s.compOutputs q.2).flatten = _
            rw [List.map_append, List.flatten_append]
            simp [RState.allOutputs, hcc]
          rw [this, List.filter_append, h.busIn b y hg]
      · intro b x hx
        have hx : (addInputs s (addOutputs s s.buses c.inputs) c.outputs)[b]? = some x := hx
        rw [addInputs_get, addOutputs_get] at hx
        cases hg : s.buses[b]? with
        | none => rw [hg] at hx; simp at hx
        | some y =>
          rw [hg] at hx
          simp only [Option.map_some, Option.some.injEq] at hx
          subst hx
          simp only [hfb]
          have hcc : s.compInputs i = c.inputs := by simp [RState.compInputs, hc]
          have : (RState.allInputs { s with
              flows := registerComp s.flows i c.flowIds
              buses := addInputs s (addOutputs s s.buses c.inputs) c.outputs
              added := s.added ++ [(c.label, i)] }) = s.allInputs ++ c.inputs := by
            show ((s.added ++ [(c.label, i)]).map fun q => s.compInputs q.2).flatten = _
            rw [List.map_append, List.flatten_append]
            simp [RState.allInputs, hcc]
          rw [this, List.filter_append, h.busOut b y hg]
  | eff c =>
    exact ⟨h.obj, h.keys, h.flowBus, h.compFlows, h.owner, h.busIn, h.busOut, EffState.inv_step h.eff c⟩

theorem RState.inv_run (ord : List Nat → List Nat) {s : RState} (h : s.Inv) (cs : List RCall) : (s.run ord cs).Inv := by
  induction cs generalizing s with
  | nil => exact h
  | cons c cs ih => exact ih (RState.inv_step ord h c)

end Flix
