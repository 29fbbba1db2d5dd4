import Verif.Model.NetworkPlot
import Verif.Props.Network

/-!
# C117: the drawn network is the reported network
-/

namespace Flix

/-! ## Specification -/

/-- The picture shows the network: the same nodes and edges in the same order, buses as circles, components as boxes, the classes in different
colours. -/
structure Shows (net : DrawnNet) (nodes : List (String × NodeInfo)) (edges : List (String × EdgeInfo)) : Prop where
  ids : net.nodes.map (fun x => (x.id, x.label)) = nodes.map fun q => (q.1, q.2.label)
  circles : ∀ x ∈ net.nodes, x.shape = "circle" ↔ ∃ q ∈ nodes, q.1 = x.id ∧ q.2.cls = "Bus"
  boxes : ∀ x ∈ net.nodes, x.shape = "box" ↔ ∃ q ∈ nodes, q.1 = x.id ∧ q.2.cls = "Component"
  colours : ∀ x ∈ net.nodes, ∀ y ∈ net.nodes, x.color = y.color ↔ x.shape = y.shape
  edges : net.edges.map (fun e => (e.start, e.stop, e.label)) = edges.map fun q => (q.2.start, q.2.stop, q.2.label)

/-- A dictionary of nodes and one of edges that can be drawn. -/
structure Drawable (nodes : List (String × NodeInfo)) (edges : List (String × EdgeInfo)) : Prop where
  classes : ∀ q ∈ nodes, q.2.cls = "Bus" ∨ q.2.cls = "Component"
  closed : ∀ q ∈ edges, q.2.start ∈ nodes.map (·.1) ∧ q.2.stop ∈ nodes.map (·.1)

/-! ## Lemmas -/

/-- The node drawn for an entry. -/
def drawnOf (q : String × NodeInfo) : DrawnNode :=
  if q.2.cls = "Bus" then ⟨q.1, q.2.label, "circle", "#393E46"⟩ else ⟨q.1, q.2.label, "box", "#00ADB5"⟩

theorem drawnOf_id (q : String × NodeInfo) : (drawnOf q).id = q.1 := by unfold drawnOf; split_ifs <;> rfl

theorem drawnOf_label (q : String × NodeInfo) : (drawnOf q).label = q.2.label := by unfold drawnOf; split_ifs <;> rfl

theorem addNode_new {net : DrawnNet} {q : String × NodeInfo} (hc : q.2.cls = "Bus" ∨ q.2.cls = "Component") (hn : q.1 ∉ net.nodes.map (·.id)) :
    net.addNode q = .ok { net with nodes := net.nodes ++ [drawnOf q] } := by
  rcases hc with hc | hc
  · simp only [DrawnNet.addNode, nodeShape, nodeColor, hc, if_true, if_neg hn, drawnOf]
    rfl
  · simp only [DrawnNet.addNode, nodeShape, nodeColor, hc, if_neg hn, drawnOf, if_true, show ("Component" = "Bus") = False by decide, if_false]
    rfl

theorem addNode_class {net net' : DrawnNet} {q : String × NodeInfo} (h : net.addNode q = .ok net') : q.2.cls = "Bus" ∨ q.2.cls = "Component" := by
  unfold DrawnNet.addNode at h
  obtain ⟨s, hs, -⟩ := bind_ok.1 h
  unfold nodeShape at hs
  split_ifs at hs with h1 h2
  · exact .inl h1
  · exact .inr h2

theorem nodes_drawn {nodes : List (String × NodeInfo)} : ∀ {net : DrawnNet}, ((net.nodes.map (·.id)) ++ nodes.map (·.1)).Nodup →
    (∀ q ∈ nodes, q.2.cls = "Bus" ∨ q.2.cls = "Component") →
    nodes.foldlM DrawnNet.addNode net = .ok { net with nodes := net.nodes ++ nodes.map drawnOf } := by
  induction nodes with
  | nil => intro net _ _; simp [pure, Except.pure]
  | cons q nodes ih =>
    intro net hn hc
    have h1 : q.1 ∉ net.nodes.map (·.id) := fun hm => by
      rw [List.nodup_append] at hn
      exact hn.2.2 _ hm _ (by simp) rfl
    rw [List.foldlM_cons, addNode_new (hc q (by simp)) h1, ok_bind, ih]
    · simp
    · simpa [drawnOf_id] using hn
    · exact fun p hp => hc p (by simp [hp])

theorem nodes_classes {nodes : List (String × NodeInfo)} : ∀ {net net' : DrawnNet}, nodes.foldlM DrawnNet.addNode net = .ok net' →
    ∀ q ∈ nodes, q.2.cls = "Bus" ∨ q.2.cls = "Component" := by
  induction nodes with
  | nil => intro _ _ _ q hq; cases hq
  | cons p nodes ih =>
    intro net net' h q hq
    rw [List.foldlM_cons] at h
    obtain ⟨n1, h1, h2⟩ := bind_ok.1 h
    rcases List.mem_cons.1 hq with rfl | hq
    · exact addNode_class h1
    · exact ih h2 q hq

theorem edges_drawn {es : List EdgeInfo} : ∀ {net net' : DrawnNet}, es.foldlM DrawnNet.addEdge net = .ok net' ↔
    (∀ e ∈ es, e.start ∈ net.nodes.map (·.id) ∧ e.stop ∈ net.nodes.map (·.id)) ∧
      net' = { net with edges := net.edges ++ es.map fun e => ⟨e.start, e.stop, e.label⟩ } := by
  induction es with
  | nil =>
    intro net net'
    simp only [List.foldlM_nil, pure, Except.pure, Except.ok.injEq, List.not_mem_nil, false_implies, implies_true, true_and, List.map_nil, List.append_nil]
    exact eq_comm
  | cons e es ih =>
    intro net net'
    rw [List.foldlM_cons, DrawnNet.addEdge]
    by_cases hc : e.start ∈ net.nodes.map (·.id) ∧ e.stop ∈ net.nodes.map (·.id)
    · rw [if_pos hc, ok_bind, ih]
      simp only [List.forall_mem_cons, hc, true_and, List.map_cons, List.append_assoc, List.singleton_append]
    · rw [if_neg hc]
      constructor
      · intro h; cases h
      · intro h; exact absurd (h.1 e (by simp)) hc

theorem drawnOf_shape (q : String × NodeInfo) : ((drawnOf q).shape = "circle" ↔ q.2.cls = "Bus") ∧ ((drawnOf q).shape = "box" ↔ q.2.cls ≠ "Bus") ∧
    ((drawnOf q).color = "#393E46" ↔ q.2.cls = "Bus") ∧ ((drawnOf q).color = "#00ADB5" ↔ q.2.cls ≠ "Bus") := by
  unfold drawnOf
  split_ifs with h <;> simp [h]

/-- Entries with the same key are the same. -/
theorem key_unique {α : Type} {l : List (String × α)} (h : (l.map (·.1)).Nodup) {p q : String × α} (hp : p ∈ l) (hq : q ∈ l) (e : p.1 = q.1) : p = q :=
  List.inj_on_of_nodup_map h hp hq e

/-! ## C117 -/

/-- **C117 (drawing).**  A picture can be drawn exactly if every node is a bus or a component and every edge connects two nodes; it then shows the
network. -/
theorem C117_draw {nodes : List (String × NodeInfo)} {edges : List (String × EdgeInfo)} (hn : (nodes.map (·.1)).Nodup) :
    ((∃ net, drawNetwork nodes edges = .ok net) ↔ Drawable nodes edges) ∧ ∀ net, drawNetwork nodes edges = .ok net → Shows net nodes edges := by
  have hdraw : (∀ q ∈ nodes, q.2.cls = "Bus" ∨ q.2.cls = "Component") → ∀ net, drawNetwork nodes edges = .ok net ↔
      (∀ q ∈ edges, q.2.start ∈ nodes.map (·.1) ∧ q.2.stop ∈ nodes.map (·.1)) ∧
        net = ⟨nodes.map drawnOf, edges.map fun q => ⟨q.2.start, q.2.stop, q.2.label⟩⟩ := by
    intro hc net
    have hi : (nodes.map drawnOf).map (·.id) = nodes.map (·.1) := by
      rw [List.map_map]
      exact List.map_congr_left fun q _ => drawnOf_id q
    unfold drawNetwork
    rw [nodes_drawn (net := {}) (by simpa using hn) hc, ok_bind, edges_drawn]
    simp only [List.nil_append, hi, List.forall_mem_map, List.map_map]
    rfl
  have hcls : ∀ net, drawNetwork nodes edges = .ok net → ∀ q ∈ nodes, q.2.cls = "Bus" ∨ q.2.cls = "Component" := by
    intro net h
    unfold drawNetwork at h
    obtain ⟨n1, h1, -⟩ := bind_ok.1 h
    exact nodes_classes h1
  refine ⟨⟨?_, ?_⟩, ?_⟩
  · rintro ⟨net, h⟩
    exact ⟨hcls net h, ((hdraw (hcls net h) net).1 h).1⟩
  · rintro ⟨h1, h2⟩
    exact ⟨_, (hdraw h1 _).2 ⟨h2, rfl⟩⟩
  · intro net h
    have hc := hcls net h
    obtain ⟨-, rfl⟩ := (hdraw hc net).1 h
    have key : ∀ {p q : String × NodeInfo}, p ∈ nodes → q ∈ nodes → q.1 = (drawnOf p).id → q = p := fun hp hq e =>
      key_unique hn hq hp (e.trans (drawnOf_id _))
    refine ⟨?_, ?_, ?_, ?_, ?_⟩
    · rw [List.map_map]
      exact List.map_congr_left fun q _ => by simp [drawnOf_id, drawnOf_label]
    · simp only [List.forall_mem_map]
      intro p hp
      rw [(drawnOf_shape p).1]
      constructor
      · intro h; exact ⟨p, hp, (drawnOf_id p).symm, h⟩
      · rintro ⟨q, hq, e, h⟩; rwa [key hp hq e] at h
    · simp only [List.forall_mem_map]
      intro p hp
      rw [(drawnOf_shape p).2.1]
      constructor
      · intro h; exact ⟨p, hp, (drawnOf_id p).symm, (hc p hp).resolve_left h⟩
      · rintro ⟨q, hq, e, h⟩
        rw [key hp hq e] at h
        rw [h]; decide
    · simp only [List.forall_mem_map]
      intro p _ q _
      unfold drawnOf
      split_ifs <;> simp
    · rw [List.map_map]; rfl

/-- **C117 (flow systems).**  After any history of calls the network of a flow system can be drawn, and what is shown, written or returned is the
reported network.  With a path it is written there and opened if asked for; without path and without showing it is returned and nothing is written.
Missing: the network is not returned otherwise, and it is written to be shown (`C117_wrong`). -/
theorem C117_partial {ord : List Nat → List Nat} (ho : SetOrder ord) (cs : List RCall) :
    let s := ({} : RState).run ord cs
    ∃ net, Shows net (s.nodes ord) (s.edges ord) ∧
      (∀ p shown, s.visualize ord true (some p) shown = .ok { written := some (p, net), opened := if shown = true then some p else none }) ∧
      s.visualize ord true none false = .ok { returned := some net } ∧
      (∃ p, s.visualize ord true none true = .ok { written := some (p, net), opened := some p }) ∧
      ∀ path shown, s.visualize ord false path shown = .ok {} := by
  intro s
  have hn : ((s.nodes ord).map (·.1)).Nodup := pyUpdate_nodup (by simp) _
  have hd : Drawable (s.nodes ord) (s.edges ord) := by
    refine ⟨?_, C79_closed ho cs⟩
    intro q hq
    unfold RState.nodes at hq
    rcases mem_pyUpdate hq with hq | hq
    · simp at hq
    rcases List.mem_append.1 hq with hq | hq
    · obtain ⟨_, _, rfl⟩ := List.mem_map.1 hq
      exact .inr rfl
    · obtain ⟨_, _, rfl⟩ := List.mem_map.1 hq
      exact .inl rfl
  obtain ⟨h1, h2⟩ := C117_draw (edges := s.edges ord) hn
  obtain ⟨net, h⟩ := h1.2 hd
  refine ⟨net, h2 net h, ?_, ?_, ⟨"network.html", ?_⟩, fun _ _ => rfl⟩
  · intro p shown
    unfold RState.visualize visualizeNetwork
    rw [if_pos rfl, h, ok_bind]
    rfl
  · unfold RState.visualize visualizeNetwork
    rw [if_pos rfl, h, ok_bind]
    rfl
  · unfold RState.visualize visualizeNetwork
    rw [if_pos rfl, h, ok_bind]
    rfl

/-- **C117 fails** for the code: with the default path the network is drawn but `None` is returned, as if `pyvis` were missing; and a network that is
only to be shown (`path=False`) is saved. -/
theorem C117_wrong : ∃ (s : RState) (net : DrawnNet), Shows net (s.nodes List.dedup) (s.edges List.dedup) ∧ net.nodes ≠ [] ∧
    s.visualize List.dedup true (some "flow_system.html") false = .ok { returned := none, written := some ("flow_system.html", net) } ∧
    s.visualize List.dedup true none true = .ok { returned := none, written := some ("network.html", net), opened := some "network.html" } := by
  obtain ⟨net, h1, h2, -, -, -⟩ := C117_partial dedup_setOrder exRegistry
  refine ⟨_, net, h1, ?_, h2 _ _, ?_⟩
  · intro e
    have := h1.ids
    rw [e] at this
    exact absurd this.symm (by decide +kernel)
  · have hv := h2 "a" false
    unfold RState.visualize visualizeNetwork at hv ⊢
    rw [if_pos rfl] at hv ⊢
    obtain ⟨n, hn, hv⟩ := bind_ok.1 hv
    cases hv
    rw [hn]
    rfl

/-! ## Examples -/

example : Drawable [("A", ⟨"A", "Component"⟩), ("B", ⟨"B", "Bus"⟩)] [("A__Q", ⟨"Q", "A", "B"⟩)] := ⟨by decide, by decide⟩

/-- Neither a node of another class nor an edge into nothing can be drawn. -/
example : drawNetwork [("A", ⟨"A", "Effect"⟩)] [] = .error .key ∧ drawNetwork [("A", ⟨"A", "Bus"⟩)] [("Q", ⟨"Q", "A", "B"⟩)] = .error .assertion := by
  constructor <;> rfl

/-- The picture of a small system. -/
def exPicture : DrawnNet where
  nodes := [⟨"Boiler", "Boiler", "box", "#00ADB5"⟩, ⟨"Load", "Load", "box", "#00ADB5"⟩, ⟨"Gas", "Gas", "circle", "#393E46"⟩, ⟨"Heat", "Heat", "circle", "#393E46"⟩]
  edges := [⟨"Gas", "Boiler", "Q_fu"⟩, ⟨"Boiler", "Heat", "Q"⟩, ⟨"Heat", "Load", "Q"⟩]

example : (({} : RState).run List.dedup exRegistry).visualize List.dedup true none false = .ok { returned := some exPicture } := by rfl

end Flix
