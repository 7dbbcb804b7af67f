import Verif.Model.Graph
/-! # `updateFromLayer` (src/dynamic_scene_graph.cpp:616-658)

The attribute pointers and node records of the source are moved, so the source has to be passed by value: the state after the call is
returned. The call cannot be made with the graph's own layer (`getLayer` returns a const reference), so the two layers are distinct
objects. The state of the graph after an exception is not modelled. -/

namespace Verif

namespace Layer

/-- dynamic_scene_graph.cpp:625-636, one iteration of the node loop: a shared node takes over the attribute pointer; any other node record
is moved as it is (with its adjacency sets), and the lookup entry is overwritten. -/
def updateNode (st : Layer × OMap NodeId LayerKey) (e : NodeId × Node) : Layer × OMap NodeId LayerKey :=
  match st.1.nodes.find? e.1 with
  | some x => ({ st.1 with nodes := st.1.nodes.insert e.1 { x with attrs := e.2.attrs } }, st.2)
  | none => ({ st.1 with nodes := st.1.nodes.insert e.1 e.2, status := st.1.status.insert e.1 .new }, st.2.insert e.1 (.static st.1.id))

/-- dynamic_scene_graph.cpp:645-653, one iteration of the edge loop: presence is asked of the pair (source, target), the attributes are
assigned to the edge under the key of the table entry (`at` throws if there is none). -/
def updateEdge (l : Layer) (e : EdgeKey × Edge) : Res Layer :=
  if l.hasEdge e.2.source e.2.target then do
    let old ← Res.at? (l.edges.edges.find? e.1)
    return { l with edges := { l.edges with edges := l.edges.edges.insert e.1 { old with info := e.2.info } } }
  else do
    let r ← l.insertEdge e.2.source e.2.target e.2.info
    return r.1

end Layer

namespace Graph

/-- dynamic_scene_graph.cpp:616-658 `updateFromLayer`: the graph and the source layer after the call, and the answer. A null edge table is
`none`. -/
def updateFromLayer (g : Graph) (other : Layer) (edges : Option (OMap EdgeKey Edge)) : Res (Graph × Layer × Bool) :=
  match g.layers.find? other.id with
  | none => .ok (g, other, false)
  | some x => do
    let r := other.nodes.toList.foldl Layer.updateNode (x, g.lookup)
    let y ← match edges with
      | none => Res.ok r.1
      | some es => foldRes Layer.updateEdge r.1 es.toList
    return ({ g with layers := g.layers.insert other.id y, lookup := r.2 }, other.reset, true)

end Graph
end Verif
