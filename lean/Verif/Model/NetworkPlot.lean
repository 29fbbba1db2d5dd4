import Verif.Model.Network

/-!
# Drawing the network (`visualize_network`, plotting.py:609-712)
-/

namespace Flix

/-- A node of `pyvis` with the options the function gives it (plotting.py:668-675).  Fonts and the text shown on hovering are left out. -/
structure DrawnNode where
  id : String
  label : String
  shape : String
  color : String
  deriving DecidableEq, Repr

/-- An edge of `pyvis`, directed from `start` to `stop` (plotting.py:678-685).  Fonts, colour and the text shown on hovering are left out. -/
structure DrawnEdge where
  start : String
  stop : String
  label : String
  deriving DecidableEq, Repr

/-- `pyvis.network.Network` as far as the function fills it (plotting.py:665). -/
structure DrawnNet where
  nodes : List DrawnNode := []
  edges : List DrawnEdge := []
  deriving DecidableEq, Repr

/-- `{'Bus': 'circle', 'Component': 'box'}[class]` (plotting.py:671) -/
def nodeShape (cls : String) : Except Err String :=
  if cls = "Bus" then .ok "circle" else if cls = "Component" then .ok "box" else .error .key

/-- `{'Bus': '#393E46', 'Component': '#00ADB5'}[class]` (plotting.py:672) -/
def nodeColor (cls : String) : Except Err String :=
  if cls = "Bus" then .ok "#393E46" else if cls = "Component" then .ok "#00ADB5" else .error .key

/-- One turn of the loop over the nodes (plotting.py:667-675).  `add_node` of `pyvis` ignores an id it has. -/
def DrawnNet.addNode (net : DrawnNet) (q : String × NodeInfo) : Except Err DrawnNet := do
  let shape ← nodeShape q.2.cls
  let color ← nodeColor q.2.cls
  return { net with nodes := if q.1 ∈ net.nodes.map (·.id) then net.nodes else net.nodes ++ [⟨q.1, q.2.label, shape, color⟩] }

/-- One turn of the loop over the edges (plotting.py:677-685).  `add_edge` of `pyvis` asserts that both nodes exist; a directed network takes every
edge, also a second one between the same nodes. -/
def DrawnNet.addEdge (net : DrawnNet) (e : EdgeInfo) : Except Err DrawnNet :=
  if e.start ∈ net.nodes.map (·.id) ∧ e.stop ∈ net.nodes.map (·.id) then .ok { net with edges := net.edges ++ [⟨e.start, e.stop, e.label⟩] }
  else .error .assertion

/-- The two loops (plotting.py:665-685). -/
def drawNetwork (nodes : List (String × NodeInfo)) (edges : List (String × EdgeInfo)) : Except Err DrawnNet := do
  let net ← nodes.foldlM DrawnNet.addNode {}
  (edges.map (·.2)).foldlM DrawnNet.addEdge net

/-- What a call leaves behind: the returned network, the file written and the file opened in a browser (plotting.py:692-712). -/
structure DrawOutcome where
  returned : Option DrawnNet := none
  written : Option (String × DrawnNet) := none
  opened : Option String := none
  deriving DecidableEq, Repr

/-- `visualize_network` (plotting.py:609-712).  `path = none` stands for `False`, `None` and the empty string; `installed`: `pyvis` can be imported.
Controls and physics are left out.  That the browser cannot be opened is only logged. -/
def visualizeNetwork (installed : Bool) (nodes : List (String × NodeInfo)) (edges : List (String × EdgeInfo)) (path : Option String) (show' : Bool) :
    Except Err DrawOutcome :=
  if installed then do
    let net ← drawNetwork nodes edges
    match path, show' with
    | none, false => return { returned := some net }
    | some p, s => return { written := some (p, net), opened := if s then some p else none }
    | none, true => return { written := some ("network.html", net), opened := some "network.html" }
  else .ok {}

/-- `FlowSystem.visualize_network` (flow_system.py:162-211). -/
def RState.visualize (ord : List Nat → List Nat) (s : RState) (installed : Bool) (path : Option String) (show' : Bool) : Except Err DrawOutcome :=
  visualizeNetwork installed (s.nodes ord) (s.edges ord) path show'

end Flix
