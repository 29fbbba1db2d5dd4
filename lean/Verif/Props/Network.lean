import Verif.Model.Network
import Verif.Props.Registry

/-!
# C79: the reported network is the modelled network
-/

namespace Flix

/-- In a reached state a flow of the flow system knows an added component that has it. -/
theorem flow_owner {s : RState} (h : s.Inv) {k : Nat} (hk : k ∈ s.flowIds) :
    ∃ p ∈ s.added, k ∈ s.compFlows p.2 ∧ s.flowComp k = p.1 ∧ s.flowLabel k = p.1 ++ "__" ++ s.flowOwn k ∧
      s.isInput k = decide (k ∈ s.compInputs p.2) := by
  obtain ⟨q, hq, hk⟩ := mem_flowIds.1 hk
  obtain ⟨f, hf, p, hp, e, hkp⟩ := h.owner q hq k hk
  obtain ⟨c, hc, hl⟩ := h.obj p hp
  refine ⟨p, hp, hkp, ?_, ?_, ?_⟩
  · simp only [RState.flowComp, hf, e, RState.compLabel, hc, hl]
  · simp only [RState.flowLabel, RState.flowOwn, hf, e, RState.compLabel, hc, hl]
  · simp only [RState.isInput, hf, e]

theorem mem_compFlows {s : RState} {i k : Nat} : k ∈ s.compFlows i ↔ k ∈ s.compInputs i ∨ k ∈ s.compOutputs i := by
  unfold RState.compFlows RState.compInputs RState.compOutputs RComp.flowIds
  cases s.comps[i]? <;> simp

theorem compLabel_added {s : RState} (h : s.Inv) {q : String × Nat} (hq : q ∈ s.added) : s.compLabel q.2 = q.1 := by
  obtain ⟨c, hc, hl⟩ := h.obj q hq
  simp only [RState.compLabel, hc, hl]

/-- A name is the key of a node exactly when it is the label of an added component or of a modelled bus. -/
theorem nodes_keys {ord : List Nat → List Nat} (ho : SetOrder ord) {s : RState} (h : s.Inv) (l : String) :
    l ∈ (s.nodes ord).map (·.1) ↔ l ∈ s.added.map (·.1) ∨ l ∈ (s.busDict ord).map (·.1) := by
  unfold RState.nodes
  rw [mem_pyUpdate_keys]
  simp only [List.map_nil, List.not_mem_nil, false_or, List.map_append, List.mem_append, List.map_map]
  have e1 : s.added.map ((fun x => x.1) ∘ fun q => (s.compLabel q.2, (⟨s.compLabel q.2, "Component"⟩ : NodeInfo))) = s.added.map (·.1) :=
    List.map_congr_left fun q hq => compLabel_added h hq
  have e2 : (s.busDict ord).map ((fun x => x.1) ∘ fun q => (s.busLabel q.2, (⟨s.busLabel q.2, "Bus"⟩ : NodeInfo))) =
      (s.busDict ord).map (·.1) := by
    refine List.map_congr_left fun q hq => ?_
    obtain ⟨_, _, _, e⟩ := mem_busDict ho (l := q.1) (b := q.2) hq
    exact e.symm
  rw [e1, e2]

/-- **C79 (always).**  After any history of calls every edge connects two nodes. -/
theorem C79_closed {ord : List Nat → List Nat} (ho : SetOrder ord) (cs : List RCall) :
    let s := ({} : RState).run ord cs
    ∀ q ∈ s.edges ord, q.2.start ∈ (s.nodes ord).map (·.1) ∧ q.2.stop ∈ (s.nodes ord).map (·.1) := by
  intro s q hq
  have hi : s.Inv := RState.inv_run ord RState.inv_empty cs
  unfold RState.edges at hq
  rcases mem_pyUpdate hq with hq | hq
  · simp at hq
  obtain ⟨⟨l, k⟩, hk, rfl⟩ := List.mem_map.1 hq
  obtain ⟨p, hp, hkp, hc, -, -⟩ := flow_owner hi (mem_flowDict ho hk).1
  have h1 : s.flowComp k ∈ (s.nodes ord).map (·.1) := by
    rw [nodes_keys ho hi, hc]
    exact .inl (List.mem_map_of_mem hp)
  have h2 : s.busLabel (s.flowBus k) ∈ (s.nodes ord).map (·.1) := by
    rw [nodes_keys ho hi]
    right
    unfold RState.busDict
    rw [mem_pyUpdate_keys]
    right
    rw [List.map_map]
    exact List.mem_map.2 ⟨(l, k), hk, rfl⟩
  simp only [RState.edge]
  by_cases hin : s.isInput k = true
  · rw [if_pos hin, if_pos hin]; exact ⟨h2, h1⟩
  · rw [if_neg hin, if_neg hin]; exact ⟨h1, h2⟩

/-- No flow object is listed twice, neither by two components nor on both sides of one. -/
def RState.Sole (s : RState) : Prop := (s.allInputs ++ s.allOutputs).Nodup

theorem mem_allInputs {s : RState} {k : Nat} : k ∈ s.allInputs ↔ ∃ q ∈ s.added, k ∈ s.compInputs q.2 := by
  unfold RState.allInputs
  simp only [List.mem_flatten, List.mem_map]
  constructor
  · rintro ⟨l, ⟨q, hq, rfl⟩, hk⟩; exact ⟨q, hq, hk⟩
  · rintro ⟨q, hq, hk⟩; exact ⟨_, ⟨q, hq, rfl⟩, hk⟩

theorem mem_allOutputs {s : RState} {k : Nat} : k ∈ s.allOutputs ↔ ∃ q ∈ s.added, k ∈ s.compOutputs q.2 := by
  unfold RState.allOutputs
  simp only [List.mem_flatten, List.mem_map]
  constructor
  · rintro ⟨l, ⟨q, hq, rfl⟩, hk⟩; exact ⟨q, hq, hk⟩
  · rintro ⟨q, hq, hk⟩; exact ⟨_, ⟨q, hq, rfl⟩, hk⟩

/-- In a list of lists without repetitions an element is in one list only. -/
theorem flatten_sole {α β : Type} {f : α → List β} {l : List α} (h : (l.map f).flatten.Nodup) {a b : α} (ha : a ∈ l) (hb : b ∈ l) {x : β}
    (hx : x ∈ f a) (hy : x ∈ f b) : a = b := by
  induction l with
  | nil => simp at ha
  | cons c l ih =>
    rw [List.map_cons, List.flatten_cons, List.nodup_append] at h
    obtain ⟨-, h2, h3⟩ := h
    rcases List.mem_cons.1 ha with rfl | ha' <;> rcases List.mem_cons.1 hb with rfl | hb'
    · rfl
    · exact absurd rfl (h3 x hx x (List.mem_flatten.2 ⟨_, List.mem_map_of_mem hb', hy⟩))
    · exact absurd rfl (h3 x hy x (List.mem_flatten.2 ⟨_, List.mem_map_of_mem ha', hx⟩))
    · exact ih h2 ha' hb'

theorem Sole.input {s : RState} (h : s.Sole) (hi : s.Inv) {q : String × Nat} (hq : q ∈ s.added) {k : Nat} (hk : k ∈ s.compInputs q.2) :
    s.flowComp k = q.1 ∧ s.isInput k = true ∧ s.flowLabel k = q.1 ++ "__" ++ s.flowOwn k := by
  obtain ⟨p, hp, hkp, hc, hl, hin⟩ := flow_owner hi (mem_flowIds.2 ⟨q, hq, mem_compFlows.2 (.inl hk)⟩)
  have hs := List.nodup_append.1 h
  rcases mem_compFlows.1 hkp with hkp | hkp
  · have : p = q := flatten_sole (f := fun q : String × Nat => s.compInputs q.2) (l := s.added) hs.1 hp hq hkp hk
    subst this
    exact ⟨hc, by rw [hin]; simpa using hkp, hl⟩
  · exact absurd rfl (hs.2.2 k (mem_allInputs.2 ⟨q, hq, hk⟩) k (mem_allOutputs.2 ⟨p, hp, hkp⟩))

theorem Sole.output {s : RState} (h : s.Sole) (hi : s.Inv) {q : String × Nat} (hq : q ∈ s.added) {k : Nat} (hk : k ∈ s.compOutputs q.2) :
    s.flowComp k = q.1 ∧ s.isInput k = false ∧ s.flowLabel k = q.1 ++ "__" ++ s.flowOwn k := by
  obtain ⟨p, hp, hkp, hc, hl, hin⟩ := flow_owner hi (mem_flowIds.2 ⟨q, hq, mem_compFlows.2 (.inr hk)⟩)
  have hs := List.nodup_append.1 h
  rcases mem_compFlows.1 hkp with hkp | hkp
  · exact absurd rfl (hs.2.2 k (mem_allInputs.2 ⟨p, hp, hkp⟩) k (mem_allOutputs.2 ⟨q, hq, hk⟩))
  · have : p = q := flatten_sole (f := fun q : String × Nat => s.compOutputs q.2) (l := s.added) hs.2.1 hp hq hkp hk
    subst this
    refine ⟨hc, ?_, hl⟩
    rw [hin]
    refine decide_eq_false fun hc' => ?_
    exact absurd rfl (hs.2.2 k (mem_allInputs.2 ⟨p, hp, hc'⟩) k (mem_allOutputs.2 ⟨p, hp, hk⟩))

/-- **C79 (partial).**  After any history of calls with good labels and no flow object used twice: the nodes are exactly the added
components and the buses of their flows, each under its label with its kind; the edges are exactly the flows, from the bus to the component
for an input and from the component to the bus for an output.  Missing from the full statement: the code makes sure neither of good labels nor
of flows used once (`C79_wrong`). -/
theorem C79_partial {ord : List Nat → List Nat} (ho : SetOrder ord) (cs : List RCall) (hg : (({} : RState).run ord cs).GoodLabels)
    (hs : (({} : RState).run ord cs).Sole) :
    let s := ({} : RState).run ord cs
    ((s.nodes ord).map (·.1)).Nodup ∧ ((s.edges ord).map (·.1)).Nodup ∧
    (∀ l v, (l, v) ∈ s.nodes ord ↔
      (v = ⟨l, "Component"⟩ ∧ l ∈ s.added.map (·.1)) ∨
      (v = ⟨l, "Bus"⟩ ∧ ∃ q ∈ s.added, ∃ k ∈ s.compFlows q.2, s.busLabel (s.flowBus k) = l)) ∧
    ∀ l e, (l, e) ∈ s.edges ord ↔ ∃ q ∈ s.added, ∃ k,
      l = q.1 ++ "__" ++ s.flowName k ∧ e.label = s.flowName k ∧
      ((k ∈ s.compInputs q.2 ∧ e.start = s.busLabel (s.flowBus k) ∧ e.stop = q.1) ∨
       (k ∈ s.compOutputs q.2 ∧ e.start = q.1 ∧ e.stop = s.busLabel (s.flowBus k))) := by
  intro s
  change s.Sole at hs
  have hi : s.Inv := RState.inv_run ord RState.inv_empty cs
  have hd : s.Distinct := good_distinct hi hg
  refine ⟨pyUpdate_nodup (by simp) _, pyUpdate_nodup (by simp) _, fun l v => ?_, fun l e => ?_⟩
  · have hmem : (l, v) ∈ (s.added.map fun q => (s.compLabel q.2, (⟨s.compLabel q.2, "Component"⟩ : NodeInfo))) ++
        ((s.busDict ord).map fun q => (s.busLabel q.2, (⟨s.busLabel q.2, "Bus"⟩ : NodeInfo))) ↔
        (v = ⟨l, "Component"⟩ ∧ l ∈ s.added.map (·.1)) ∨
        (v = ⟨l, "Bus"⟩ ∧ ∃ q ∈ s.added, ∃ k ∈ s.compFlows q.2, s.busLabel (s.flowBus k) = l) := by
      rw [List.mem_append]
      refine or_congr ?_ ?_
      · constructor
        · intro hm
          obtain ⟨q, hq, e⟩ := List.mem_map.1 hm
          simp only [Prod.mk.injEq] at e
          obtain ⟨rfl, rfl⟩ := e
          exact ⟨rfl, by rw [compLabel_added hi hq]; exact List.mem_map_of_mem hq⟩
        · rintro ⟨rfl, hm⟩
          obtain ⟨q, hq, rfl⟩ := List.mem_map.1 hm
          exact List.mem_map.2 ⟨q, hq, by simp only [compLabel_added hi hq]⟩
      · constructor
        · intro hm
          obtain ⟨q, hq, e⟩ := List.mem_map.1 hm
          simp only [Prod.mk.injEq] at e
          obtain ⟨rfl, rfl⟩ := e
          obtain ⟨k, hk, hb, _⟩ := mem_busDict ho (l := q.1) (b := q.2) hq
          obtain ⟨p, hp, hkp⟩ := mem_flowIds.1 hk
          exact ⟨rfl, p, hp, k, hkp, by rw [hb]⟩
        · rintro ⟨rfl, p, hp, k, hkp, rfl⟩
          have hk := mem_flowIds.2 ⟨p, hp, hkp⟩
          refine List.mem_map.2 ⟨(s.busLabel (s.flowBus k), s.flowBus k), ?_, rfl⟩
          exact (mem_busDict_iff ho (Distinct.flows hd) (Distinct.buses hd)).2 ⟨k, hk, rfl, rfl⟩
    rw [← hmem]
    unfold RState.nodes
    refine mem_pyUpdate_iff ?_ (l, v)
    have hsrc : ∀ p ∈ (s.added.map fun q => (s.compLabel q.2, (⟨s.compLabel q.2, "Component"⟩ : NodeInfo))) ++
        ((s.busDict ord).map fun q => (s.busLabel q.2, (⟨s.busLabel q.2, "Bus"⟩ : NodeInfo))),
        (p = (p.1, ⟨p.1, "Component"⟩) ∧ p.1 ∈ s.added.map (·.1)) ∨
        (p = (p.1, ⟨p.1, "Bus"⟩) ∧ ∃ k ∈ s.flowIds, s.busLabel (s.flowBus k) = p.1) := by
      intro p hp
      rcases List.mem_append.1 hp with hp | hp
      · obtain ⟨q, hq, rfl⟩ := List.mem_map.1 hp
        left
        refine ⟨rfl, ?_⟩
        simp only
        rw [compLabel_added hi hq]
        exact List.mem_map_of_mem hq
      · obtain ⟨q, hq, rfl⟩ := List.mem_map.1 hp
        obtain ⟨k, hk, hb, _⟩ := mem_busDict ho (l := q.1) (b := q.2) hq
        exact .inr ⟨rfl, k, hk, by simp only [hb]⟩
    intro p hp q hq epq
    rcases hsrc p hp with ⟨e1, h1⟩ | ⟨e1, k1, hk1, h1⟩ <;> rcases hsrc q hq with ⟨e2, h2⟩ | ⟨e2, k2, hk2, h2⟩
    · rw [e1, e2, epq]
    · exfalso
      refine (hg.buses k2 hk2).2.1 ?_
      show s.busLabel (s.flowBus k2) ∈ s.added.map (·.1)
      rw [h2, ← epq]; exact h1
    · exfalso
      refine (hg.buses k1 hk1).2.1 ?_
      show s.busLabel (s.flowBus k1) ∈ s.added.map (·.1)
      rw [h1, epq]; exact h2
    · rw [e1, e2, epq]
  · have hedge : (l, e) ∈ s.edges ord ↔ ∃ k ∈ s.flowIds, l = s.flowLabel k ∧ e = s.edge k := by
      unfold RState.edges
      rw [mem_pyUpdate_iff]
      · constructor
        · intro hm
          obtain ⟨q, hq, he⟩ := List.mem_map.1 hm
          simp only [Prod.mk.injEq] at he
          exact ⟨q.2, (mem_flowDict ho (l := q.1) (k := q.2) hq).1, he.1.symm, he.2.symm⟩
        · rintro ⟨k, hk, rfl, rfl⟩
          exact List.mem_map.2 ⟨(s.flowLabel k, k), (mem_flowDict_iff ho (Distinct.flows hd)).2 ⟨hk, rfl⟩, rfl⟩
      · intro p hp q hq epq
        obtain ⟨a, ha, rfl⟩ := List.mem_map.1 hp
        obtain ⟨b, hb, rfl⟩ := List.mem_map.1 hq
        simp only at epq
        have := Distinct.flows hd _ (mem_flowDict ho (l := a.1) (k := a.2) ha).1 _ (mem_flowDict ho (l := b.1) (k := b.2) hb).1 epq
        rw [this]
    rw [hedge]
    constructor
    · rintro ⟨k, hk, rfl, rfl⟩
      obtain ⟨q, hq, hkq⟩ := mem_flowIds.1 hk
      rcases mem_compFlows.1 hkq with hkq | hkq
      · obtain ⟨h1, h2, h3⟩ := Sole.input hs hi hq hkq
        refine ⟨q, hq, k, h3, rfl, .inl ⟨hkq, ?_, ?_⟩⟩
        · simp only [RState.edge, h2, if_true]
        · simp only [RState.edge, h2, if_true, h1]
      · obtain ⟨h1, h2, h3⟩ := Sole.output hs hi hq hkq
        refine ⟨q, hq, k, h3, rfl, .inr ⟨hkq, ?_, ?_⟩⟩
        · simp [RState.edge, h2, h1]
        · simp [RState.edge, h2]
    · rintro ⟨q, hq, k, rfl, hl, ⟨hk, h1, h2⟩ | ⟨hk, h1, h2⟩⟩
      · obtain ⟨e1, e2, e3⟩ := Sole.input hs hi hq hk
        refine ⟨k, mem_flowIds.2 ⟨q, hq, mem_compFlows.2 (.inl hk)⟩, e3.symm, ?_⟩
        obtain ⟨x, y, z⟩ := e
        simp only at hl h1 h2
        simp only [RState.edge, e2, if_true, e1, hl, h1, h2]
        rfl
      · obtain ⟨e1, e2, e3⟩ := Sole.output hs hi hq hk
        refine ⟨k, mem_flowIds.2 ⟨q, hq, mem_compFlows.2 (.inr hk)⟩, e3.symm, ?_⟩
        obtain ⟨x, y, z⟩ := e
        simp only at hl h1 h2
        simp only [RState.edge, e2, e1, hl, h1, h2]
        rfl

/-- **C79 (balances).**  Under the same conditions the edges that end at a bus are exactly the flows its balance adds, and the edges that
start there exactly the flows its balance subtracts. -/
theorem C79_balance_partial {ord : List Nat → List Nat} (ho : SetOrder ord) (cs : List RCall) (hg : (({} : RState).run ord cs).GoodLabels)
    (hs : (({} : RState).run ord cs).Sole) :
    let s := ({} : RState).run ord cs
    ∀ (b : Nat) x, s.buses[b]? = some x → (∃ k ∈ s.flowIds, s.flowBus k = b) → ∀ k ∈ s.flowIds,
      ((∃ e, (s.flowLabel k, e) ∈ s.edges ord ∧ e.stop = x.label) ↔ k ∈ x.inputs) ∧
      ((∃ e, (s.flowLabel k, e) ∈ s.edges ord ∧ e.start = x.label) ↔ k ∈ x.outputs) := by
  intro s b x hx hb k hk
  change s.Sole at hs
  have hi : s.Inv := RState.inv_run ord RState.inv_empty cs
  have hd : s.Distinct := good_distinct hi hg
  obtain ⟨-, hnd, -, hE⟩ := C79_partial ho cs hg hs
  obtain ⟨kb, hkb, rfl⟩ := hb
  have hxl : s.busLabel (s.flowBus kb) = x.label := by simp [RState.busLabel, hx]
  obtain ⟨hin, hout⟩ := C29_registered ord cs _ x hx
  have hne : ∀ q ∈ s.added, q.1 ≠ x.label := by
    intro q hq e
    refine (hg.buses kb hkb).2.1 ?_
    show s.busLabel (s.flowBus kb) ∈ s.added.map (·.1)
    rw [hxl, ← e]
    exact List.mem_map_of_mem hq
  have hsame : ∀ k' ∈ s.flowIds, s.busLabel (s.flowBus k') = x.label ↔ s.flowBus k' = s.flowBus kb := by
    intro k' hk'
    rw [← hxl]
    exact ⟨Distinct.buses hd _ hk' _ hkb, fun e => by rw [e]⟩
  have hkey : ∀ e, (s.flowLabel k, e) ∈ s.edges ord ↔ e = s.edge k := by
    intro e
    have hm : (s.flowLabel k, s.edge k) ∈ s.edges ord := by
      unfold RState.edges
      rw [mem_pyUpdate_iff]
      · exact List.mem_map.2 ⟨(s.flowLabel k, k), (mem_flowDict_iff ho (Distinct.flows hd)).2 ⟨hk, rfl⟩, rfl⟩
      · intro p hp q hq epq
        obtain ⟨a, ha, rfl⟩ := List.mem_map.1 hp
        obtain ⟨c, hc, rfl⟩ := List.mem_map.1 hq
        simp only at epq
        have := Distinct.flows hd _ (mem_flowDict ho (l := a.1) (k := a.2) ha).1 _ (mem_flowDict ho (l := c.1) (k := c.2) hc).1 epq
        rw [this]
    exact ⟨fun h => nodup_keys_eq hnd h hm, fun h => h ▸ hm⟩
  simp only [hkey, exists_eq_left]
  obtain ⟨q, hq, hkq⟩ := mem_flowIds.1 hk
  have hboth := List.nodup_append.1 hs
  have memIn : k ∈ x.inputs ↔ k ∈ s.allOutputs ∧ s.flowBus k = s.flowBus kb := by
    rw [hin]; simp only [List.mem_filter, decide_eq_true_eq]; exact Iff.rfl
  have memOut : k ∈ x.outputs ↔ k ∈ s.allInputs ∧ s.flowBus k = s.flowBus kb := by
    rw [hout]; simp only [List.mem_filter, decide_eq_true_eq]; exact Iff.rfl
  rw [memIn, memOut]
  rcases mem_compFlows.1 hkq with hkq | hkq
  · obtain ⟨h1, h2, -⟩ := Sole.input hs hi hq hkq
    have hmI : k ∈ s.allInputs := mem_allInputs.2 ⟨q, hq, hkq⟩
    have hmO : k ∉ s.allOutputs := fun h => absurd rfl (hboth.2.2 k hmI k h)
    simp only [RState.edge, h2, if_true, h1, hne q hq, hsame k hk, hmI, hmO, true_and, false_and, and_self]
  · obtain ⟨h1, h2, -⟩ := Sole.output hs hi hq hkq
    have hmO : k ∈ s.allOutputs := mem_allOutputs.2 ⟨q, hq, hkq⟩
    have hmI : k ∉ s.allInputs := fun h => absurd rfl (hboth.2.2 k h k hmO)
    simp [RState.edge, h2, h1, hne q hq, hsame k hk, hmI, hmO]

/-- One flow object in two components. -/
def exShared : List RCall :=
  [.newBus "Heat", .newFlow "Q" 0, .newComp "Boiler" [] [0], .newComp "Load" [0] [], .addComp 0, .addComp 1]

/-- **C79 fails** for the code: a bus named like a component replaces its node; a flow object used by two components is balanced twice but drawn once, so a
component stays without edge although it feeds the bus. -/
theorem C79_wrong :
    (({} : RState).allOk List.dedup exBusClash = true ∧
      (({} : RState).run List.dedup exBusClash).nodes List.dedup = [("Heat", ⟨"Heat", "Bus"⟩)] ∧
      (({} : RState).run List.dedup exBusClash).edges List.dedup = [("Heat__Q", ⟨"Q", "Heat", "Heat"⟩)]) ∧
    (({} : RState).allOk List.dedup exShared = true ∧
      (({} : RState).run List.dedup exShared).edges List.dedup = [("Load__Q", ⟨"Q", "Heat", "Load"⟩)] ∧
      (({} : RState).run List.dedup exShared).buses = [{ label := "Heat", inputs := [0], outputs := [0] }]) := by
  decide +kernel

theorem exRegistry_sole : (({} : RState).run List.dedup exRegistry).Sole := by
  unfold RState.Sole; decide +kernel
example := C79_partial dedup_setOrder exRegistry exRegistry_good exRegistry_sole
example := C79_balance_partial dedup_setOrder exRegistry exRegistry_good exRegistry_sole
example := C79_closed dedup_setOrder exRegistry
example : (({} : RState).run List.dedup exRegistry).edges List.dedup =
    [("Boiler__Q_fu", ⟨"Q_fu", "Gas", "Boiler"⟩), ("Boiler__Q", ⟨"Q", "Boiler", "Heat"⟩), ("Load__Q", ⟨"Q", "Heat", "Load"⟩)] := by decide +kernel

end Flix
