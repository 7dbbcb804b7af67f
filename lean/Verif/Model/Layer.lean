import Verif.Model.EdgeContainer
/-! # `SceneGraphLayer` (src/scene_graph_layer.cpp) -/

namespace Verif

/-- base_layer.h:42-58 `GraphMergeConfig` (null map pointers are `none`). -/
structure MergeConfig where
  previousMerges : Option (OMap NodeId NodeId) := none
  updateLayerAttributes : Option (OMap LayerId Bool) := none
  updateDynamic : Bool := true
  updateArchived : Bool := false
  clearRemoved : Bool := false
  enforceParent : Bool := true

/-- base_layer.h:50-57 `getMergedId`: one step through the map. -/
def MergeConfig.getMergedId (c : MergeConfig) (n : NodeId) : NodeId :=
  match c.previousMerges with
  | none => n
  | some m => (m.find? n).getD n

/-- scene_graph_layer.cpp:216-219: may `mergeLayer` update the attributes of existing nodes of layer `l`. -/
def MergeConfig.updates (c : MergeConfig) (l : LayerId) : Bool :=
  match c.updateLayerAttributes with
  | none => true
  | some m => (m.find? l).getD true

/-- scene_graph_layer.h:57-: node map (no null entries: every insertion stores a non-null node),
status map, edges. -/
structure Layer where
  id : LayerId
  nodes : OMap NodeId Node := ∅
  status : OMap NodeId NodeStatus := ∅
  edges : EdgeContainer := {}
  deriving DecidableEq

namespace Layer

/-- `nodes_[n]->...`: `operator[]` creates a null entry for a missing node, whose dereference is
undefined behaviour. -/
def modNode (l : Layer) (n : NodeId) (f : Node → Node) : Res Layer :=
  match l.nodes.find? n with
  | none => .ub
  | some x => .ok { l with nodes := l.nodes.insert n (f x) }

/-- scene_graph_layer.cpp:50-54 `emplaceNode`: the status is set to NEW even if the node exists. -/
def emplaceNode (l : Layer) (n : NodeId) (attrs : Option NodeAttrs) : Layer × Bool :=
  ({ l with status := l.status.insert n .new
            nodes := l.nodes.emplace n { id := n, layer := l.id, attrs := attrs } },
   !l.nodes.contains n)

/-- scene_graph_layer.cpp:108-110 -/
def hasNode (l : Layer) (n : NodeId) : Bool := l.nodes.contains n

/-- scene_graph_layer.cpp:56-77 `insertNode` (non-null argument). -/
def insertNode (l : Layer) (x : Node) : Layer × Bool :=
  if x.layer ≠ l.id then (l, false)
  else if l.hasNode x.id then (l, false)
  else ({ l with status := l.status.insert x.id .new, nodes := l.nodes.insert x.id x }, true)

/-- scene_graph_layer.cpp:112-117 -/
def checkNode (l : Layer) (n : NodeId) : NodeStatus := (l.status.find? n).getD .nonexistent

/-- scene_graph_layer.cpp:119-121 -/
def hasEdge (l : Layer) (s t : NodeId) : Bool := l.edges.contains s t

/-- scene_graph_layer.cpp:123-126 -/
def findNode (l : Layer) (n : NodeId) : Option Node := l.nodes.find? n

/-- scene_graph_layer.cpp:128-130 -/
def findEdge (l : Layer) (s t : NodeId) : Layer × Option Edge :=
  ({ l with edges := (l.edges.find s t).1 }, (l.edges.find s t).2)

/-- scene_graph_layer.cpp:79-106 `insertEdge`. -/
def insertEdge (l : Layer) (s t : NodeId) (info : Option EdgeAttrs) : Res (Layer × Bool) :=
  if s = t then .ok (l, false)
  else if l.hasEdge s t then .ok (l, false)
  else if !l.hasNode s then .ok (l, false)
  else if !l.hasNode t then .ok (l, false)
  else do
    let l ← l.modNode s (fun x => { x with siblings := x.siblings.add t })
    let l ← l.modNode t (fun x => { x with siblings := x.siblings.add s })
    return ({ l with edges := l.edges.insert s t info }, true)

/-- scene_graph_layer.cpp:170-180 `removeEdge`. -/
def removeEdge (l : Layer) (s t : NodeId) : Res (Layer × Bool) :=
  if !l.hasEdge s t then .ok (l, false)
  else do
    let l ← l.modNode s (fun x => { x with siblings := x.siblings.erase t })
    let l ← l.modNode t (fun x => { x with siblings := x.siblings.erase s })
    let c ← l.edges.remove s t
    return ({ l with edges := c }, true)

/-- scene_graph_layer.cpp:132-147 `removeNode`. -/
def removeNode (l : Layer) (n : NodeId) : Res (Layer × Bool) :=
  match l.nodes.find? n with
  | none => .ok (l, false)
  | some x => do
    let l ← foldRes (fun l t => (l.removeEdge n t) >>= fun r => .ok r.1) l x.siblings.keys
    return ({ l with nodes := l.nodes.erase n, status := l.status.insert n .deleted }, true)

/-- scene_graph_layer.cpp:182-211 `rewireEdge`. -/
def rewireEdge (l : Layer) (s t s' t' : NodeId) : Res (Layer × Bool) :=
  if !l.hasEdge s t then .ok (l, false)
  else if !l.hasNode s' || !l.hasNode t' then .ok (l, false)
  else if s = s' ∧ t = t' then .ok (l, false)
  else if s' = t' ∨ l.hasEdge s' t' = true then do
    let r ← l.removeEdge s t
    return (r.1, true)
  else do
    let c ← l.edges.rewire s t s' t'
    let l := { l with edges := c }
    let l ← l.modNode s (fun x => { x with siblings := x.siblings.erase t })
    let l ← l.modNode t (fun x => { x with siblings := x.siblings.erase s })
    let l ← l.modNode s' (fun x => { x with siblings := x.siblings.add t' })
    let l ← l.modNode t' (fun x => { x with siblings := x.siblings.add s' })
    return (l, true)

/-- scene_graph_layer.cpp:149-168 `mergeNodes`. -/
def mergeNodes (l : Layer) (from_ to : NodeId) : Res (Layer × Bool) :=
  match l.nodes.find? from_ with
  | none => .ok (l, false)
  | some x =>
    if !l.hasNode to then .ok (l, false)
    else if from_ = to then .ok (l, false)
    else do
      let l ← foldRes (fun l t => (l.rewireEdge from_ t to t) >>= fun r => .ok r.1) l x.siblings.keys
      return ({ l with nodes := l.nodes.erase from_, status := l.status.insert from_ .merged }, true)

/-- scene_graph_layer.cpp:270-278 `getPosition`. -/
def getPosition (l : Layer) (n : NodeId) : Res V3d :=
  match l.nodes.find? n with
  | none => .throw .outOfRange
  | some x => do let a ← Res.deref x.attrs; return a.position

/-- scene_graph_layer.cpp:280-292 `getNewNodes`. -/
def getNewNodes (l : Layer) (clear : Bool) : Layer × List NodeId :=
  ({ l with status := if clear then l.status.map (fun _ s => if s = .new then .visible else s) else l.status },
   (l.status.toList.filter (fun e => e.2 = .new)).map Prod.fst)

/-- scene_graph_layer.cpp:303-320 `getRemovedNodes`: merged nodes are reported but never cleared. -/
def getRemovedNodes (l : Layer) (clear : Bool) : Layer × List NodeId :=
  ({ l with status := if clear then l.status.filter (fun _ s => s ≠ .deleted) else l.status },
   (l.status.toList.filter (fun e => e.2 = .deleted ∨ e.2 = .merged)).map Prod.fst)

/-- scene_graph_layer.cpp:331-335 `reset`. -/
def reset (l : Layer) : Layer := { l with nodes := ∅, status := ∅, edges := l.edges.reset }

/-- scene_graph_layer.cpp:222-252, one iteration of the node loop of `mergeLayer`. The lookup table is
the graph's `node_lookup_` (`insert` keeps an existing entry). -/
def mergeNodeStep (cfg : MergeConfig) (st : Layer × OMap NodeId LayerKey) (e : NodeId × Node) :
    Res (Layer × OMap NodeId LayerKey) :=
  let (l, lookup) := st
  let updateAttributes := cfg.updates l.id
  if l.status.find? e.1 = some .merged then .ok (l, lookup)
  else
    match l.nodes.find? e.1 with
    | some x =>
      if !updateAttributes then .ok (l, lookup)
      else do
        let skip ← if !cfg.updateArchived then (do let a ← Res.deref x.attrs; return !a.isActive)
                   else (return false : Res Bool)
        if skip then return (l, lookup)
        else
          let a ← Res.deref e.2.attrs
          return ({ l with nodes := l.nodes.insert e.1 { x with attrs := some a } }, lookup)
    | none => do
      let a ← Res.deref e.2.attrs
      return ({ l with nodes := l.nodes.insert e.2.id { id := e.2.id, layer := l.id, attrs := some a }
                       status := l.status.insert e.2.id .new },
              lookup.emplace e.2.id (.static l.id))

/-- scene_graph_layer.cpp:254-265, one iteration of the edge loop of `mergeLayer`. -/
def mergeEdgeStep (cfg : MergeConfig) (l : Layer) (e : EdgeKey × Edge) : Res Layer :=
  if l.hasEdge e.2.source e.2.target then .ok l
  else
    let s' := cfg.getMergedId e.2.source
    let t' := cfg.getMergedId e.2.target
    if s' = t' then .ok l
    else do
      let a ← Res.deref e.2.info
      let r ← l.insertEdge s' t' (some a)
      return r.1

/-- scene_graph_layer.cpp:213-268 `mergeLayer`. -/
def mergeLayer (l other : Layer) (cfg : MergeConfig) (lookup : OMap NodeId LayerKey) :
    Res (Layer × OMap NodeId LayerKey) := do
  let (l, lookup) ← foldRes (mergeNodeStep cfg) (l, lookup) other.nodes.toList
  let l ← foldRes (mergeEdgeStep cfg) l other.edges.edges.toList
  return (l, lookup)

/-- scene_graph_layer.cpp:357-372 `cloneImpl` into an empty layer, with an optional node filter. -/
def clone (l : Layer) (isValid : Node → Bool) : Res Layer := do
  let out : Layer := { id := l.id }
  let out ← foldRes (fun out (e : NodeId × Node) =>
      if !isValid e.2 then .ok out
      else do
        let a ← Res.deref e.2.attrs
        let st ← Res.at? (l.status.find? e.1)
        let out := (out.emplaceNode e.1 (some a)).1
        return { out with status := out.status.insert e.1 st }) out l.nodes.toList
  foldRes (fun out (e : EdgeKey × Edge) => do
      let a ← Res.deref e.2.info
      let r ← out.insertEdge e.2.source e.2.target (some a)
      return r.1) out l.edges.edges.toList

end Layer
end Verif
