import Verif.Model.Graph
/-! # `mergeGraph` (src/dynamic_scene_graph.cpp:660-724)

The other graph is passed as `const&`, but the change logs of its layers are cleared through the layer pointers when
`config.clear_removed` is set, so its state after the call is returned too. The two graphs are distinct objects (merging a graph with itself
is not modelled). The states after an exception are not modelled. -/

namespace Verif
namespace Graph

/-- dynamic_scene_graph.cpp:662-670, one iteration over the dynamic layers of the other graph: the layer is created if missing, then
`DynamicSceneGraphLayer::mergeLayer` runs on it with the graph's lookup table. -/
def mergeDyn (F : FloatOps) (cfg : MergeConfig) (g : Graph) (e : (LayerId × Prefix) × DynLayer) : Res Graph := do
  let g := if g.hasDynLayer e.1.1 e.1.2 then g else (g.createDynamicLayer e.1.1 e.1.2).1
  let d ← Res.deref (g.dynLayer? e.1.1 e.1.2)
  let r ← d.mergeLayer F e.2 cfg g.lookup
  return { g.setDyn e.1.1 e.1.2 r.1 with lookup := r.2 }

/-- dynamic_scene_graph.cpp:677-681: the nodes the other layer reports as removed. -/
def mergeRemoved (g : Graph) (n : NodeId) : Res Graph := g.removeNode n >>= fun r => .ok r.1

/-- dynamic_scene_graph.cpp:683-687: the edges the other layer reports as removed, removed from the layer. -/
def mergeRemovedEdge (x : Layer) (k : EdgeKey) : Res Layer := x.removeEdge k.k1 k.k2 >>= fun r => .ok r.1

/-- dynamic_scene_graph.cpp:672-690, one iteration over the static layers of the other graph (`l`, `other`). The result contains the other
layer after its change logs were read. -/
def mergeStatic (cfg : MergeConfig) (st : Graph × OMap LayerId Layer) (e : LayerId × Layer) : Res (Graph × OMap LayerId Layer) :=
  if !st.1.hasLayer e.1 then .ok st
  else do
    let r := e.2.getRemovedNodes cfg.clearRemoved
    let g ← foldRes mergeRemoved st.1 r.2
    let c := r.1.edges.getRemoved cfg.clearRemoved
    let other := { r.1 with edges := c.1 }
    let x ← Res.deref (g.layers.find? e.1)
    let x ← foldRes mergeRemovedEdge x c.2
    let m ← x.mergeLayer other cfg g.lookup
    return ({ g with layers := g.layers.insert e.1 m.1, lookup := m.2 }, st.2.insert e.1 other)

/-- dynamic_scene_graph.cpp:692-705 and 707-720, one iteration over an interlayer edge container of the other graph. -/
def mergeInter (cfg : MergeConfig) (g : Graph) (e : EdgeKey × Edge) : Res Graph :=
  let s := cfg.getMergedId e.2.source
  let t := cfg.getMergedId e.2.target
  if s = t then .ok g
  else do
    let a ← Res.deref e.2.info
    let r ← if cfg.enforceParent then g.insertParentEdge s t (some a) else g.insertEdge s t (some a)
    return r.1

/-- The dynamic layers in iteration order, with their keys (dynamic_scene_graph.cpp:662-663). -/
def dynEntries (g : Graph) : List ((LayerId × Prefix) × DynLayer) :=
  g.dyns.toList.flatMap (fun e => e.2.toList.map (fun x => ((e.1, x.1), x.2)))

/-- dynamic_scene_graph.cpp:660-724 `mergeGraph`: both graphs after the call, and the answer. -/
def mergeGraph (F : FloatOps) (g o : Graph) (cfg : MergeConfig) : Res (Graph × Graph × Bool) := do
  let g ← foldRes (mergeDyn F cfg) g o.dynEntries
  let r ← foldRes (mergeStatic cfg) (g, o.layers) o.layers.toList
  let g ← foldRes (mergeInter cfg) r.1 o.inter.edges.toList
  let g ← foldRes (mergeInter cfg) g o.dynInter.edges.toList
  return (g, { o with layers := r.2 }, true)

end Graph
end Verif
