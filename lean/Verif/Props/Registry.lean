import Verif.Lemmas.Registry
import Verif.Props.Labels

/-!
# C29 and C55: what a flow system knows after any history of calls
-/

namespace Flix

/-- The label of a flow object. -/
def RState.flowName (s : RState) (k : Nat) : String := match s.flows[k]? with | some f => f.label | none => ""

/-- An element belongs to the flow system under its full label: an added component, an added effect, a flow of an added component,
or the bus of such a flow. -/
inductive RState.Has (s : RState) : String → Elem → Prop
  | comp {l : String} {i : Nat} : (l, i) ∈ s.added → s.Has l (.comp i)
  | effect {l : String} {i : Nat} : (l, i) ∈ s.eff.coll → s.Has l (.effect i)
  | flow {k : Nat} : k ∈ s.flowIds → s.Has (s.flowLabel k) (.flow k)
  | bus {k : Nat} : k ∈ s.flowIds → s.Has (s.busLabel (s.flowBus k)) (.bus (s.flowBus k))

theorem mem_pyUpdate_iff {α : Type} {xs : List (String × α)} (h : ∀ p ∈ xs, ∀ q ∈ xs, p.1 = q.1 → p = q) (q : String × α) :
    q ∈ pyUpdate [] xs ↔ q ∈ xs := by
  constructor
  · intro hq
    rcases mem_pyUpdate hq with hq | hq
    · simp at hq
    · exact hq
  · intro hq
    have hk : q.1 ∈ (pyUpdate [] xs).map (·.1) := (mem_pyUpdate_keys [] xs q.1).2 (.inr (List.mem_map_of_mem hq))
    obtain ⟨p, hp, e⟩ := List.mem_map.1 hk
    rcases mem_pyUpdate hp with hp' | hp'
    · simp at hp'
    · rw [h q hq p hp' e.symm]; exact hp

theorem nodup_keys_eq {α : Type} {d : List (String × α)} (h : (d.map (·.1)).Nodup) {l : String} {a b : α} (ha : (l, a) ∈ d) (hb : (l, b) ∈ d) :
    a = b := by
  have := List.inj_on_of_nodup_map h ha hb rfl
  simpa using this

theorem flowDict_nodup (ord : List Nat → List Nat) (s : RState) : ((s.flowDict ord).map (·.1)).Nodup := pyUpdate_nodup (by simp) _
theorem busDict_nodup (ord : List Nat → List Nat) (s : RState) : ((s.busDict ord).map (·.1)).Nodup := pyUpdate_nodup (by simp) _
theorem allElements_nodup (ord : List Nat → List Nat) (s : RState) : ((s.allElements ord).map (·.1)).Nodup := pyUpdate_nodup (by simp) _

theorem mem_flowDict {ord : List Nat → List Nat} (ho : SetOrder ord) {s : RState} {l : String} {k : Nat} (h : (l, k) ∈ s.flowDict ord) :
    k ∈ s.flowIds ∧ l = s.flowLabel k := by
  rcases mem_pyUpdate h with h | h
  · simp at h
  · obtain ⟨i, hi, e⟩ := List.mem_map.1 h
    simp only [Prod.mk.injEq] at e
    obtain ⟨rfl, rfl⟩ := e
    exact ⟨((ho _).2 i).1 hi, rfl⟩

theorem mem_flowDict_iff {ord : List Nat → List Nat} (ho : SetOrder ord) {s : RState}
    (hinj : ∀ k ∈ s.flowIds, ∀ k' ∈ s.flowIds, s.flowLabel k = s.flowLabel k' → k = k') {l : String} {k : Nat} :
    (l, k) ∈ s.flowDict ord ↔ k ∈ s.flowIds ∧ l = s.flowLabel k := by
  constructor
  · exact mem_flowDict ho
  · rintro ⟨hk, rfl⟩
    unfold RState.flowDict
    rw [mem_pyUpdate_iff]
    · exact List.mem_map.2 ⟨k, ((ho _).2 k).2 hk, rfl⟩
    · intro p hp q hq e
      obtain ⟨i, hi, rfl⟩ := List.mem_map.1 hp
      obtain ⟨j, hj, rfl⟩ := List.mem_map.1 hq
      simp only at e
      rw [hinj i (((ho _).2 i).1 hi) j (((ho _).2 j).1 hj) e]

theorem mem_busDict {ord : List Nat → List Nat} (ho : SetOrder ord) {s : RState} {l : String} {b : Nat} (h : (l, b) ∈ s.busDict ord) :
    ∃ k ∈ s.flowIds, b = s.flowBus k ∧ l = s.busLabel b := by
  rcases mem_pyUpdate h with h | h
  · simp at h
  · obtain ⟨q, hq, e⟩ := List.mem_map.1 h
    simp only [Prod.mk.injEq] at e
    exact ⟨q.2, (mem_flowDict ho (l := q.1) (k := q.2) hq).1, e.2.symm, by rw [← e.2]; exact e.1.symm⟩

theorem mem_busDict_iff {ord : List Nat → List Nat} (ho : SetOrder ord) {s : RState}
    (hinj : ∀ k ∈ s.flowIds, ∀ k' ∈ s.flowIds, s.flowLabel k = s.flowLabel k' → k = k')
    (hbus : ∀ k ∈ s.flowIds, ∀ k' ∈ s.flowIds, s.busLabel (s.flowBus k) = s.busLabel (s.flowBus k') → s.flowBus k = s.flowBus k')
    {l : String} {b : Nat} : (l, b) ∈ s.busDict ord ↔ ∃ k ∈ s.flowIds, b = s.flowBus k ∧ l = s.busLabel b := by
  constructor
  · exact mem_busDict ho
  · rintro ⟨k, hk, rfl, rfl⟩
    unfold RState.busDict
    rw [mem_pyUpdate_iff]
    · exact List.mem_map.2 ⟨(s.flowLabel k, k), (mem_flowDict_iff ho hinj).2 ⟨hk, rfl⟩, rfl⟩
    · intro p hp q hq e
      obtain ⟨i, hi, rfl⟩ := List.mem_map.1 hp
      obtain ⟨j, hj, rfl⟩ := List.mem_map.1 hq
      simp only at e
      have := hbus _ (mem_flowDict ho (l := i.1) (k := i.2) hi).1 _ (mem_flowDict ho (l := j.1) (k := j.2) hj).1 e
      rw [this]

/-- Two elements with one label are one element. -/
def RState.Distinct (s : RState) : Prop := ∀ l e e', s.Has l e → s.Has l e' → e = e'

theorem Distinct.flows {s : RState} (h : s.Distinct) : ∀ k ∈ s.flowIds, ∀ k' ∈ s.flowIds, s.flowLabel k = s.flowLabel k' → k = k' := by
  intro k hk k' hk' e
  have := h _ _ (.flow k') (.flow hk) (by rw [e]; exact .flow hk')
  simpa using this

theorem Distinct.buses {s : RState} (h : s.Distinct) :
    ∀ k ∈ s.flowIds, ∀ k' ∈ s.flowIds, s.busLabel (s.flowBus k) = s.busLabel (s.flowBus k') → s.flowBus k = s.flowBus k' := by
  intro k hk k' hk' e
  have := h _ _ (.bus (s.flowBus k')) (.bus hk) (by rw [e]; exact .bus hk')
  simpa using this

/-- **C55 (exactly when).**  `all_elements` lists every element of the flow system under its full label, and nothing else, exactly
when no two elements have one label. -/
theorem C55_iff {ord : List Nat → List Nat} (ho : SetOrder ord) (s : RState) :
    (∀ l e, (l, e) ∈ s.allElements ord ↔ s.Has l e) ↔ s.Distinct := by
  constructor
  · intro h l e e' he he'
    exact nodup_keys_eq (allElements_nodup ord s) ((h l e).2 he) ((h l e').2 he')
  · intro hd
    have hmem : ∀ l e, (l, e) ∈ (s.added.map fun q => (q.1, Elem.comp q.2)) ++ (s.eff.coll.map fun q => (q.1, Elem.effect q.2)) ++
        ((s.flowDict ord).map fun q => (q.1, Elem.flow q.2)) ++ ((s.busDict ord).map fun q => (q.1, Elem.bus q.2)) ↔ s.Has l e := by
      intro l e
      simp only [List.mem_append, List.mem_map, Prod.mk.injEq, Prod.exists]
      constructor
      · rintro (((⟨a, b, hm, rfl, rfl⟩ | ⟨a, b, hm, rfl, rfl⟩) | ⟨a, b, hm, rfl, rfl⟩) | ⟨a, b, hm, rfl, rfl⟩)
        · exact .comp hm
        · exact .effect hm
        · obtain ⟨hk, rfl⟩ := mem_flowDict ho hm
          exact .flow hk
        · obtain ⟨k, hk, rfl, rfl⟩ := mem_busDict ho hm
          exact .bus hk
      · rintro (hm | hm | hk | hk)
        · exact .inl (.inl (.inl ⟨_, _, hm, rfl, rfl⟩))
        · exact .inl (.inl (.inr ⟨_, _, hm, rfl, rfl⟩))
        · exact .inl (.inr ⟨_, _, (mem_flowDict_iff ho (Distinct.flows hd)).2 ⟨hk, rfl⟩, rfl, rfl⟩)
        · exact .inr ⟨_, _, (mem_busDict_iff ho (Distinct.flows hd) (Distinct.buses hd)).2 ⟨_, hk, rfl, rfl⟩, rfl, rfl⟩
    intro l e
    rw [← hmem]
    unfold RState.allElements
    refine mem_pyUpdate_iff ?_ (l, e)
    intro p hp q hq epq
    obtain ⟨a, b⟩ := p
    obtain ⟨c, d⟩ := q
    simp only at epq
    subst epq
    rw [hd a b d ((hmem _ _).1 hp) ((hmem _ _).1 hq)]

theorem mem_flowIds {s : RState} {k : Nat} : k ∈ s.flowIds ↔ ∃ q ∈ s.added, k ∈ s.compFlows q.2 := by
  unfold RState.flowIds
  simp only [List.mem_flatten, List.mem_map]
  constructor
  · rintro ⟨l, ⟨q, hq, rfl⟩, hk⟩; exact ⟨q, hq, hk⟩
  · rintro ⟨q, hq, hk⟩; exact ⟨_, ⟨q, hq, rfl⟩, hk⟩

/-- In a reached state the full label of a flow names an added component that has the flow. -/
theorem flowLabel_owner {s : RState} (h : s.Inv) {k : Nat} (hk : k ∈ s.flowIds) :
    ∃ p ∈ s.added, k ∈ s.compFlows p.2 ∧ s.flowLabel k = p.1 ++ "__" ++ s.flowName k := by
  obtain ⟨q, hq, hk⟩ := mem_flowIds.1 hk
  obtain ⟨f, hf, p, hp, e, hkp⟩ := h.owner q hq k hk
  obtain ⟨c, hc, hl⟩ := h.obj p hp
  refine ⟨p, hp, hkp, ?_⟩
  simp only [RState.flowLabel, RState.flowName, hf, e, RState.compLabel, hc, hl]

/-- Conditions the user can see on the own labels: valid labels of components and different labels for different flows of one
component. -/
structure RState.GoodFlows (s : RState) : Prop where
  valid : ∀ q ∈ s.added, labelIsValid q.1 = true
  apart : ∀ q ∈ s.added, ∀ k ∈ s.compFlows q.2, ∀ k' ∈ s.compFlows q.2, s.flowName k = s.flowName k' → k = k'

theorem flowLabel_inj {s : RState} (h : s.Inv) (hg : s.GoodFlows) :
    ∀ k ∈ s.flowIds, ∀ k' ∈ s.flowIds, s.flowLabel k = s.flowLabel k' → k = k' := by
  intro k hk k' hk' e
  obtain ⟨p, hp, hkp, hl⟩ := flowLabel_owner h hk
  obtain ⟨p', hp', hkp', hl'⟩ := flowLabel_owner h hk'
  rw [hl, hl'] at e
  obtain ⟨e1, e2⟩ := C54 (hg.valid p hp) (hg.valid p' hp') e
  have : p = p' := List.inj_on_of_nodup_map h.keys hp hp' e1
  subst this
  exact hg.apart p hp k hkp k' hkp' e2

/-- Conditions on the labels of all elements. -/
structure RState.GoodLabels (s : RState) : Prop extends s.GoodFlows where
  effects : ∀ q ∈ s.eff.coll, labelIsValid q.1 = true ∧ q.1 ∉ s.added.map (·.1)
  buses : ∀ k ∈ s.flowIds, labelIsValid (s.busLabel (s.flowBus k)) = true ∧ s.busLabel (s.flowBus k) ∉ s.added.map (·.1) ∧
    s.busLabel (s.flowBus k) ∉ s.eff.coll.map (·.1) ∧
    ∀ k' ∈ s.flowIds, s.busLabel (s.flowBus k) = s.busLabel (s.flowBus k') → s.flowBus k = s.flowBus k'

theorem good_distinct {s : RState} (h : s.Inv) (hg : s.GoodLabels) : s.Distinct := by
  have hflow : ∀ k ∈ s.flowIds, ∀ l, labelIsValid l = true → s.flowLabel k ≠ l := by
    intro k hk l hl
    obtain ⟨p, hp, hkp, e⟩ := flowLabel_owner h hk
    rw [e]
    exact C54_other hl
  have hca : ∀ {l : String} {i : Nat}, (l, i) ∈ s.added → l ∈ s.added.map (·.1) := fun hm => List.mem_map_of_mem (f := (·.1)) hm
  have hea : ∀ {l : String} {i : Nat}, (l, i) ∈ s.eff.coll → l ∈ s.eff.coll.map (·.1) := fun hm => List.mem_map_of_mem (f := (·.1)) hm
  have hcv : ∀ {l : String} {i : Nat}, (l, i) ∈ s.added → labelIsValid l = true := by
    intro l i hm
    have := hg.valid (l, i) hm
    exact this
  have hev : ∀ {l : String} {i : Nat}, (l, i) ∈ s.eff.coll → labelIsValid l = true := by
    intro l i hm
    have := (hg.effects (l, i) hm).1
    exact this
  have key : ∀ l e, s.Has l e → ∀ l' e', s.Has l' e' → l = l' → e = e' := by
    intro l e he l' e' he' hll
    rcases he with hm | hm | hk | hk <;> rcases he' with hm' | hm' | hk' | hk'
    · subst hll; rw [nodup_keys_eq h.keys hm hm']
    · rw [← hll] at hm'; exact absurd (hca hm) (hg.effects _ hm').2
    · exact absurd hll.symm (hflow _ hk' _ (hcv hm))
    · rw [hll] at hm; exact absurd (hca hm) (hg.buses _ hk').2.1
    · rw [hll] at hm; exact absurd (hca hm') (hg.effects _ hm).2
    · subst hll; rw [nodup_keys_eq h.eff.labels hm hm']
    · exact absurd hll.symm (hflow _ hk' _ (hev hm))
    · rw [hll] at hm; exact absurd (hea hm) (hg.buses _ hk').2.2.1
    · exact absurd hll (hflow _ hk _ (hcv hm'))
    · exact absurd hll (hflow _ hk _ (hev hm'))
    · rw [flowLabel_inj h hg.toGoodFlows _ hk _ hk' hll]
    · exact absurd hll (hflow _ hk _ (hg.buses _ hk').1)
    · rw [← hll] at hm'; exact absurd (hca hm') (hg.buses _ hk).2.1
    · rw [← hll] at hm'; exact absurd (hea hm') (hg.buses _ hk).2.2.1
    · exact absurd hll.symm (hflow _ hk' _ (hg.buses _ hk).1)
    · rw [(hg.buses _ hk).2.2.2 _ hk' hll]
  exact fun l e e' he he' => key l e he l e' he' rfl

/-- **C55 (partial).**  After any history of calls, failed ones included, with good labels: `all_elements` holds every component,
effect, flow and bus of the flow system exactly once, under its own label, and nothing else.  Missing from the full statement: the
code does not make sure of good labels (`C55_wrong`). -/
theorem C55_partial {ord : List Nat → List Nat} (ho : SetOrder ord) (cs : List RCall) (hg : (({} : RState).run ord cs).GoodLabels) :
    let s := ({} : RState).run ord cs
    ((s.allElements ord).map (·.1)).Nodup ∧ ((s.allElements ord).map (·.2)).Nodup ∧ ∀ l e, (l, e) ∈ s.allElements ord ↔ s.Has l e := by
  intro s
  have hi : s.Inv := RState.inv_run ord RState.inv_empty cs
  have hd := good_distinct hi hg
  have hiff := (C55_iff ho s).2 hd
  have hnd : (s.allElements ord).Nodup := (allElements_nodup ord s).of_map
  refine ⟨allElements_nodup ord s, ?_, hiff⟩
  rw [List.nodup_map_iff_inj_on hnd]
  rintro ⟨l, e⟩ h1 ⟨l', e'⟩ h2 heq
  simp only at heq
  subst heq
  have hobj : ∀ i l l', (l, i) ∈ s.added → (l', i) ∈ s.added → l = l' := by
    intro i l l' a b
    obtain ⟨c, hc, e⟩ := hi.obj _ a
    obtain ⟨c', hc', e'⟩ := hi.obj _ b
    simp only at hc hc' e e'
    rw [hc] at hc'
    rw [← e, ← e', Option.some.inj hc']
  have hobj' : ∀ i l l', (l, i) ∈ s.eff.coll → (l', i) ∈ s.eff.coll → l = l' := by
    intro i l l' a b
    obtain ⟨c, hc, e⟩ := hi.eff.obj _ a
    obtain ⟨c', hc', e'⟩ := hi.eff.obj _ b
    simp only at hc hc' e e'
    rw [hc] at hc'
    rw [← e, ← e', Option.some.inj hc']
  have hlab : ∀ l l' e, s.Has l e → s.Has l' e → l = l' := by
    intro l l' e a b
    rcases a with a | a | a | a
    · cases b with | comp b => exact hobj _ _ _ a b
    · cases b with | effect b => exact hobj' _ _ _ a b
    · cases b with | flow b => rfl
    · generalize hx : Elem.bus (s.flowBus _) = x at b
      cases b with
      | bus b => simp only [Elem.bus.injEq] at hx; rw [hx]
      | comp b => simp at hx
      | effect b => simp at hx
      | flow b => simp at hx
  rw [hlab l l' e ((hiff _ _).1 h1) ((hiff _ _).1 h2)]

/-- **C55 (always).**  After any history the labels of the components are different, so are those of the effects; every entry is the
object of that label. -/
theorem C55_components (ord : List Nat → List Nat) (cs : List RCall) :
    let s := ({} : RState).run ord cs
    (s.added.map (·.1)).Nodup ∧ (s.eff.coll.map (·.1)).Nodup ∧ (∀ q ∈ s.added, ∃ c, s.comps[q.2]? = some c ∧ c.label = q.1) ∧
    ∀ q ∈ s.eff.coll, ∃ o, s.eff.heap[q.2]? = some o ∧ o.data.label = q.1 := by
  have h := RState.inv_run ord RState.inv_empty cs
  exact ⟨h.keys, h.eff.labels, h.obj, h.eff.obj⟩

/-- **C55 (a new component).**  `add_components` accepts a component exactly when its label is not yet listed; then the component is
the last one.  An accepted label differs from the labels of all components, effects and flows. -/
theorem C55_accepted {ord : List Nat → List Nat} (ho : SetOrder ord) {s : RState} {i : Nat} {c : RComp} (hc : s.comps[i]? = some c) :
    ((s.step ord (.addComp i)).2 = none ↔ ∀ q ∈ s.allElements ord, q.1 ≠ c.label) ∧
    ((s.step ord (.addComp i)).2 = none → (s.step ord (.addComp i)).1.added = s.added ++ [(c.label, i)] ∧
      c.label ∉ s.added.map (·.1) ∧ c.label ∉ s.eff.coll.map (·.1) ∧ ∀ k ∈ s.flowIds, s.flowLabel k ≠ c.label) := by
  constructor
  · simp only [RState.step, RState.addComp, hc]
    split
    · rename_i hany
      simp only [List.any_eq_true, beq_iff_eq] at hany
      obtain ⟨q, hq, e⟩ := hany
      simp only [reduceCtorEq, false_iff]
      exact fun h => h q hq e
    · rename_i hany
      simp only [List.any_eq_true, beq_iff_eq, not_exists, not_and] at hany
      simpa using hany
  · intro h
    rcases s.addComp_cases ord i with ⟨e, he⟩ | ⟨c', hc', hnew, he⟩
    · simp only [RState.step, he] at h; simp at h
    · rw [hc] at hc'
      cases hc'
      rw [allElements_keys] at hnew
      simp only [not_or] at hnew
      refine ⟨?_, hnew.1, hnew.2.1, ?_⟩
      · simp only [RState.step, he]
        exact pySet_new hnew.1
      · intro k hk e
        refine hnew.2.2.1 ?_
        unfold RState.flowDict
        rw [mem_pyUpdate_keys]
        refine .inr (List.mem_map.2 ⟨(s.flowLabel k, k), List.mem_map.2 ⟨k, ((ho _).2 k).2 hk, rfl⟩, e⟩)

/-- **C55 (refused calls).**  A call that raises changes nothing. -/
theorem C55_failed {ord : List Nat → List Nat} (s : RState) (c : RCall) (e : Err) (h : (s.step ord c).2 = some e) : (s.step ord c).1 = s := by
  cases c with
  | newBus l => simp [RState.step] at h
  | newFlow l b =>
    simp only [RState.step] at h ⊢
    split at h
    · simp at h
    · rename_i hb; rw [if_neg hb]
  | newComp l ins outs =>
    simp only [RState.step] at h ⊢
    split at h
    · simp at h
    · rename_i hb; rw [if_neg hb]
  | addComp i =>
    simp only [RState.step] at h ⊢
    rcases s.addComp_cases ord i with ⟨e, he⟩ | ⟨c, _, _, he⟩
    · rw [he]
    · rw [he] at h; simp at h
  | eff c =>
    simp only [RState.step] at h ⊢
    rw [C25_failed s.eff c e h]

/-- All calls of a history succeed. -/
def RState.allOk (ord : List Nat → List Nat) (s : RState) : List RCall → Bool
  | [] => true
  | c :: cs => (s.step ord c).2.isNone && ((s.step ord c).1).allOk ord cs

/-- Python's set with the objects in order of first mention. -/
theorem dedup_setOrder : SetOrder List.dedup := fun l => ⟨l.nodup_dedup, fun _ => List.mem_dedup⟩

/-- Two bus objects with one label. -/
def exTwoBuses : List RCall :=
  [.newBus "Heat", .newBus "Heat", .newFlow "Q" 0, .newFlow "Q" 1, .newComp "Boiler" [] [0], .newComp "Load" [1] [], .addComp 0, .addComp 1]
/-- An effect named like a component that was there before. -/
def exEffectClash : List RCall :=
  [.newBus "Heat", .newFlow "Q" 0, .newComp "co2" [] [0], .addComp 0, .eff (.new { data := { label := "co2" } }), .eff (.add 0)]
/-- Two flows of one component with one label. -/
def exFlowClash : List RCall :=
  [.newBus "Heat", .newBus "Gas", .newFlow "Q" 0, .newFlow "Q" 1, .newComp "Boiler" [1] [0], .addComp 0]
/-- A bus named like a component. -/
def exBusClash : List RCall := [.newBus "Heat", .newFlow "Q" 0, .newComp "Heat" [] [0], .addComp 0]

/-- **C55 fails** for the code: all calls succeed and an element is overlooked, for a clash of bus and bus, effect and component, flow
and flow, bus and component. -/
theorem C55_wrong : ∀ cs ∈ [exTwoBuses, exEffectClash, exFlowClash, exBusClash],
    ({} : RState).allOk List.dedup cs = true ∧
    ∃ l e, (({} : RState).run List.dedup cs).Has l e ∧ (l, e) ∉ (({} : RState).run List.dedup cs).allElements List.dedup := by
  simp only [List.forall_mem_cons, List.not_mem_nil, false_imp_iff, implies_true, and_true]
  refine ⟨⟨by decide +kernel, "Heat", .bus 0, ?_, by decide +kernel⟩, ⟨by decide +kernel, "co2", .comp 0, ?_, by decide +kernel⟩,
    ⟨by decide +kernel, "Boiler__Q", .flow 1, ?_, by decide +kernel⟩, ⟨by decide +kernel, "Heat", .comp 0, ?_, by decide +kernel⟩⟩
  · exact .bus (s := ({} : RState).run List.dedup exTwoBuses) (k := 0) (by decide +kernel)
  · exact .comp (by decide +kernel)
  · exact .flow (s := ({} : RState).run List.dedup exFlowClash) (k := 1) (by decide +kernel)
  · exact .comp (by decide +kernel)

/-- **C29 (partial).**  After any history of calls, if component labels are valid, flows of one component have different labels and
different bus objects in use have different labels: every bus object a flow of an added component is connected to is among the
modelled buses under its own label, and only those are.  Missing from the full statement: the code does not make sure of the condition on
the labels (`C29_wrong`). -/
theorem C29_partial {ord : List Nat → List Nat} (ho : SetOrder ord) (cs : List RCall) (hg : (({} : RState).run ord cs).GoodFlows)
    (hbus : ∀ k ∈ (({} : RState).run ord cs).flowIds, ∀ k' ∈ (({} : RState).run ord cs).flowIds,
      (({} : RState).run ord cs).busLabel ((({} : RState).run ord cs).flowBus k) =
        (({} : RState).run ord cs).busLabel ((({} : RState).run ord cs).flowBus k') →
      (({} : RState).run ord cs).flowBus k = (({} : RState).run ord cs).flowBus k') :
    let s := ({} : RState).run ord cs
    ((s.busDict ord).map (·.1)).Nodup ∧
    ∀ l b, (l, b) ∈ s.busDict ord ↔ ∃ q ∈ s.added, ∃ k ∈ s.compFlows q.2, ∃ x, s.flowBus k = b ∧ s.buses[b]? = some x ∧ x.label = l := by
  intro s
  have hi : s.Inv := RState.inv_run ord RState.inv_empty cs
  refine ⟨busDict_nodup ord s, fun l b => ?_⟩
  rw [mem_busDict_iff ho (flowLabel_inj hi hg) hbus]
  constructor
  · rintro ⟨k, hk, rfl, rfl⟩
    obtain ⟨q, hq, hkq⟩ := mem_flowIds.1 hk
    obtain ⟨f, hf, _⟩ := hi.owner q hq k hkq
    have hlt := hi.flowBus f (List.mem_of_getElem? hf)
    have hfb : s.flowBus k = f.bus := by simp [RState.flowBus, hf]
    refine ⟨q, hq, k, hkq, s.buses[f.bus], rfl, ?_, ?_⟩
    · rw [hfb]; exact List.getElem?_eq_getElem hlt
    · simp [RState.busLabel, hfb, List.getElem?_eq_getElem hlt]
  · rintro ⟨q, hq, k, hkq, x, rfl, hx, rfl⟩
    exact ⟨k, mem_flowIds.2 ⟨q, hq, hkq⟩, rfl, by simp [RState.busLabel, hx]⟩

/-- **C29 (exactly when).**  With different full labels of the flows, every used bus is modelled exactly when no two used bus objects
share a label. -/
theorem C29_iff {ord : List Nat → List Nat} (ho : SetOrder ord) {s : RState}
    (hinj : ∀ k ∈ s.flowIds, ∀ k' ∈ s.flowIds, s.flowLabel k = s.flowLabel k' → k = k') :
    (∀ k ∈ s.flowIds, s.flowBus k ∈ (s.busDict ord).map (·.2)) ↔
    ∀ k ∈ s.flowIds, ∀ k' ∈ s.flowIds, s.busLabel (s.flowBus k) = s.busLabel (s.flowBus k') → s.flowBus k = s.flowBus k' := by
  constructor
  · intro h k hk k' hk' e
    obtain ⟨⟨l, b⟩, hq, hb⟩ := List.mem_map.1 (h k hk)
    obtain ⟨⟨l', b'⟩, hq', hb'⟩ := List.mem_map.1 (h k' hk')
    simp only at hb hb'
    subst hb hb'
    obtain ⟨_, _, _, h1⟩ := mem_busDict ho hq
    obtain ⟨_, _, _, h2⟩ := mem_busDict ho hq'
    rw [h1] at hq
    rw [h2, ← e] at hq'
    exact nodup_keys_eq (busDict_nodup ord s) hq hq'
  · intro h k hk
    exact List.mem_map.2 ⟨(_, s.flowBus k), (mem_busDict_iff ho hinj h).2 ⟨k, hk, rfl, rfl⟩, rfl⟩

/-- **C29 (registered flows, always).**  After any history every bus object knows exactly the flows of the added components that are
connected to it: outputs of components as inputs, inputs of components as outputs, in order of addition. -/
theorem C29_registered (ord : List Nat → List Nat) (cs : List RCall) :
    let s := ({} : RState).run ord cs
    ∀ (b : Nat) x, s.buses[b]? = some x →
      x.inputs = ((s.added.map fun q => s.compOutputs q.2).flatten).filter (fun k => s.flowBus k = b) ∧
      x.outputs = ((s.added.map fun q => s.compInputs q.2).flatten).filter (fun k => s.flowBus k = b) := by
  intro s b x hx
  have hi : s.Inv := RState.inv_run ord RState.inv_empty cs
  exact ⟨hi.busIn b x hx, hi.busOut b x hx⟩

/-- **C29 fails** for the code: all calls succeed and the bus of a flow is not modelled. -/
theorem C29_wrong : ({} : RState).allOk List.dedup exTwoBuses = true ∧
    ∃ k ∈ (({} : RState).run List.dedup exTwoBuses).flowIds,
      (({} : RState).run List.dedup exTwoBuses).flowBus k ∉ ((({} : RState).run List.dedup exTwoBuses).busDict List.dedup).map (·.2) :=
  ⟨by decide +kernel, 0, by decide +kernel, by decide +kernel⟩

/-- A history that meets the conditions: two effects, two buses, two components, one refused call. -/
def exRegistry : List RCall :=
  [.newBus "Heat", .newBus "Gas", .newFlow "Q" 0, .newFlow "Q_fu" 1, .newFlow "Q" 0, .newComp "Boiler" [1] [0], .newComp "Load" [2] [],
   .addComp 0, .addComp 1, .addComp 0, .eff (.new { data := { label := "costs" } }), .eff (.new { data := { label := "co2" } }), .eff (.add 0), .eff (.add 1)]

theorem exRegistry_good : (({} : RState).run List.dedup exRegistry).GoodLabels :=
  ⟨⟨by decide +kernel, by decide +kernel⟩, by decide +kernel, by decide +kernel⟩

example : ((({} : RState).run List.dedup exRegistry).allElements List.dedup) =
    [("Boiler", .comp 0), ("Load", .comp 1), ("costs", .effect 0), ("co2", .effect 1), ("Boiler__Q_fu", .flow 1), ("Boiler__Q", .flow 0),
     ("Load__Q", .flow 2), ("Gas", .bus 1), ("Heat", .bus 0)] := by decide +kernel
example : ((({} : RState).run List.dedup exRegistry).buses.map fun b => (b.inputs, b.outputs)) = [([0], [2]), ([], [1])] := by decide +kernel
example := C55_partial dedup_setOrder exRegistry exRegistry_good
example := C29_partial dedup_setOrder exRegistry exRegistry_good.toGoodFlows (fun k hk => (exRegistry_good.buses k hk).2.2.2)

end Flix
