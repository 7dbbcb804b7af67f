import Verif.Model.GraphIO
/-! # `DynamicSceneGraph::clone` (src/dynamic_scene_graph.cpp:790-833)

Attributes, edge attributes and the mesh are values in the model: `clone()` of each of them is a deep copy in the code
(node_attributes.cpp:111, edge_attributes.cpp:49, mesh.cpp:111), so a clone shares nothing with the original. -/

namespace Verif
namespace Graph

/-- dynamic_scene_graph.cpp:793-799: one node of the lookup table is copied. `timestamp.value()` throws if there is no stamp; a null
record or null attributes are dereferenced. The answers of the two insertions are ignored, as in the code. -/
def cloneNode (g : Graph) (h : Graph) (e : NodeId × LayerKey) : Res Graph := do
  let p ← g.getNodePtr e.1 e.2
  let x ← Res.deref p
  match e.2.dynamic with
  | true => do
    let t ← (match x.timestamp with | some t => .ok t | none => .throw .badOptional : Res Stamp)
    let a ← Res.deref x.attrs
    let r ← h.emplacePrev x.layer x.id t (some a)
    return r.1
  | false => do
    let a ← Res.deref x.attrs
    return (h.emplaceNode x.layer x.id (some a)).1

/-- dynamic_scene_graph.cpp:802-826: one edge is copied (null attributes are dereferenced; the answer is ignored). -/
def cloneEdge (h : Graph) (e : Edge) : Res Graph := do
  let i ← Res.deref e.info
  let r ← h.insertEdge e.source e.target (some i)
  return r.1

/-- dynamic_scene_graph.cpp:790-833 `clone`: the constructor (which throws without layers), the nodes in id order, the edges of the
static layers, of the dynamic layers, and the two interlayer containers, and the mesh. -/
def clone (g : Graph) : Res Graph := do
  let h ← create g.layerIds
  let h ← foldRes (cloneNode g) h g.lookup.toList
  let h ← foldRes cloneEdge h g.allEdges
  return { h with mesh := (match g.mesh with | none => h.mesh | some m => some m) }

end Graph
end Verif
