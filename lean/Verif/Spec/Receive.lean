import Verif.Model.Receive
import Verif.Spec.Intact
import Verif.Spec.GraphIO
/-! # Messages on a bad line -/

namespace Verif

/-- The first bytes of a message. -/
def Message.cut (m : Message) (k : Nat) : Message := ⟨m.1.take k, by have := m.2; simp only [List.length_take]; omega⟩

/-- A graph, the message sent for it, and how many bytes of the message arrive. -/
structure Packet where
  graph : Graph
  message : Message
  arrived : Nat

/-- The message is one that a sender writes for the graph and that the program `P` understands. -/
structure Packet.Sent (P : Prog) (p : Packet) : Prop where
  reached : ∃ ids ops, Reached ids ops p.graph
  storable : p.graph.Storable
  written : ∃ W V incl, p.graph.Understood W P.R V P.Q ∧ p.graph.write W V incl = .ok p.message.1

/-- What arrives. -/
def Packet.event (p : Packet) : Event := .message (p.message.cut p.arrived)

/-- The node is one of `h`, or a node of one of the graphs as a message keeps it. -/
def NodeFrom (h : Graph) (gs : List Graph) (ids : List LayerId) (n : NodeId) (j : NodeInfo) : Prop :=
  (h.layerIds = ids ∧ h.nodeObs n = some j) ∨ ∃ g ∈ gs, g.layerIds = ids ∧ ∃ i, g.nodeObs n = some i ∧ j = i.kept

/-- Attributes of an edge of `h` or of one of the graphs, or the default attributes of the edge that removing a node puts between its
neighbours in a trajectory. -/
def EdgeFrom (h : Graph) (gs : List Graph) (ids : List LayerId) (a b : NodeId) (x : EdgeAttrs) : Prop :=
  (∃ g ∈ h :: gs, g.layerIds = ids ∧ ∃ e, g.edgeObs a b = some e ∧ e.attrs = x) ∨
  (x = {} ∧ ∃ i j, NodeFrom h gs ids a i ∧ NodeFrom h gs ids b j ∧ i.key = j.key ∧ i.key.dynamic = true)

/-- Every node, edge and the mesh of `g` comes from `h` or from one of the graphs `gs`. -/
structure Graph.MadeOf (g h : Graph) (gs : List Graph) : Prop where
  nodes : ∀ n j, g.nodeObs n = some j → NodeFrom h gs g.layerIds n j
  edges : ∀ a b e, g.edgeObs a b = some e → EdgeFrom h gs g.layerIds a b e.attrs
  mesh : g.mesh = none ∨ ∃ x ∈ h :: gs, x.mesh = g.mesh

/-- The graphs that are sent to a receiver with graph `h` are versions of one graph: whenever two of them (`h` included) have the same layer ids,
they have no common node in different layers or with different stamps, and so on (`Graph.Accepts`). -/
def Versions (h : Graph) (gs : List Graph) : Prop := ∀ x ∈ h :: gs, ∀ y ∈ h :: gs, x.layerIds = y.layerIds → x.Accepts y

end Verif
