import Verif.Model.DynLayer
/-! # `DynamicSceneGraph` (src/dynamic_scene_graph.cpp) -/

namespace Verif

/-- dynamic_scene_graph.h:567-576: data members of `DynamicSceneGraph`. The mesh `shared_ptr` is modelled
by value (aliasing of the mesh with the caller is not modelled). -/
structure Graph where
  layerIds : List LayerId
  layers : OMap LayerId Layer := ∅
  dyns : OMap LayerId (OMap Prefix DynLayer) := ∅
  lookup : OMap NodeId LayerKey := ∅
  inter : EdgeContainer := {}
  dynInter : EdgeContainer := {}
  mesh : Option Mesh := none
  deriving DecidableEq

namespace Graph

/-- dynamic_scene_graph.cpp:63-77 `clear`: note `EdgeContainer::reset` keeps the stale marks of the
interlayer containers. -/
def clear (g : Graph) : Graph :=
  { g with
    layers := g.layerIds.foldl (fun m id => m.insert id { id := id }) ∅
    dyns := ∅
    lookup := ∅
    inter := g.inter.reset
    dynInter := g.dynInter.reset
    mesh := none }

/-- dynamic_scene_graph.cpp:55-61 constructor: throws `domain_error` without layers. -/
def create (layerIds : List LayerId) : Res Graph :=
  if layerIds = [] then .throw .domainError else .ok (clear { layerIds := layerIds })

/-- dynamic_scene_graph.cpp:79-82 `reset` (no check for an empty list). -/
def reset (g : Graph) (layerIds : List LayerId) : Graph := clear { g with layerIds := layerIds }

/-- dynamic_scene_graph.cpp:333-335 -/
def hasLayer (g : Graph) (l : LayerId) : Bool := g.layers.contains l

/-- The dynamic layer `(l, p)` if it exists. -/
def dynLayer? (g : Graph) (l : LayerId) (p : Prefix) : Option DynLayer :=
  (g.dyns.find? l).bind (fun m => m.find? p)

/-- dynamic_scene_graph.cpp:337-343 -/
def hasDynLayer (g : Graph) (l : LayerId) (p : Prefix) : Bool := (g.dynLayer? l p).isSome

/-- dynamic_scene_graph.cpp:345-347 -/
def hasNode (g : Graph) (n : NodeId) : Bool := g.lookup.contains n

/-- `dynamic_layers_[l][p] = d`. -/
def setDyn (g : Graph) (l : LayerId) (p : Prefix) (d : DynLayer) : Graph :=
  { g with dyns := g.dyns.insert l (((g.dyns.find? l).getD ∅).insert p d) }

/-- dynamic_scene_graph.cpp:85-97 `createDynamicLayer`. -/
def createDynamicLayer (g : Graph) (l : LayerId) (p : Prefix) : Graph × Bool :=
  if g.hasDynLayer l p then (g, false)
  else (g.setDyn l p { id := l, pre := p }, true)

/-- dynamic_scene_graph.cpp:866-877 `layerFromKey`: `at` throws for a missing layer. -/
def layerFromKey (g : Graph) : LayerKey → Res BaseLayer
  | .static l => do let x ← Res.at? (g.layers.find? l); return .static x
  | .dyn l p => do let m ← Res.at? (g.dyns.find? l); let x ← Res.at? (m.find? p); return .dyn x

/-- Write back through the reference returned by `layerFromKey`. -/
def setLayer (g : Graph) (k : LayerKey) (b : BaseLayer) : Graph :=
  match k, b with
  | .static l, .static x => { g with layers := g.layers.insert l x }
  | .dyn l p, .dyn x => g.setDyn l p x
  | _, _ => g

/-- dynamic_scene_graph.cpp:879-886 `getNodePtr`: in a dynamic layer the slot is the 56-bit
`categoryId` of the node; `at` throws out of range, the slot may hold a null pointer. -/
def getNodePtr (g : Graph) (n : NodeId) : LayerKey → Res (Option Node)
  | .dyn l p => do
    let m ← Res.at? (g.dyns.find? l)
    let x ← Res.at? (m.find? p)
    Res.at? x.nodes[(NodeSymbol.categoryId n).toNat]?
  | .static l => do
    let x ← Res.at? (g.layers.find? l)
    let y ← Res.at? (x.nodes.find? n)
    return some y

/-- `getNodePtr(n, key)->member = ...`. -/
def modNode (g : Graph) (n : NodeId) (k : LayerKey) (f : Node → Node) : Res Graph := do
  let p ← g.getNodePtr n k
  let x ← Res.deref p
  match k with
  | .dyn l p =>
    match g.dynLayer? l p with
    | none => .ub
    | some d => return g.setDyn l p { d with nodes := d.nodes.set (NodeSymbol.categoryId n).toNat (some (f x)) }
  | .static l =>
    match g.layers.find? l with
    | none => .ub
    | some y => return { g with layers := g.layers.insert l { y with nodes := y.nodes.insert n (f x) } }

/-- dynamic_scene_graph.cpp:99-117 static `emplaceNode`. -/
def emplaceNode (g : Graph) (l : LayerId) (n : NodeId) (attrs : Option NodeAttrs) : Graph × Bool :=
  if g.lookup.contains n then (g, false)
  else
    match g.layers.find? l with
    | none => (g, false)
    | some x =>
      let r := x.emplaceNode n attrs
      let g := { g with layers := g.layers.insert l r.1 }
      if r.2 then ({ g with lookup := g.lookup.insert n (.static l) }, true) else (g, false)

/-- dynamic_scene_graph.cpp:124-129: the id the next appended node of layer `(l, p)` would get. -/
def nextDynId (g : Graph) (l : LayerId) (p : Prefix) : NodeId :=
  match g.dynLayer? l p with
  | some d => p.makeId d.next
  | none => p.makeId 0

/-- dynamic_scene_graph.cpp:119-147 dynamic `emplaceNode`. -/
def emplaceDyn (g : Graph) (l : LayerId) (p : Prefix) (time : Stamp) (attrs : Option NodeAttrs)
    (addEdge : Bool) : Res (Graph × Bool) :=
  let newId := g.nextDynId l p
  if g.hasNode newId then .ok (g, false)
  else do
    let g := if g.hasDynLayer l p then g else (g.createDynamicLayer l p).1
    let d ← Res.deref (g.dynLayer? l p)
    let (d, ok) ← d.emplaceNode time attrs addEdge
    let g := g.setDyn l p d
    if !ok then return (g, false)
    else return ({ g with lookup := g.lookup.insert newId (.dyn l p) }, true)

/-- dynamic_scene_graph.cpp:149-172 `emplacePrevDynamicNode`. -/
def emplacePrev (g : Graph) (l : LayerId) (n : NodeId) (time : Stamp) (attrs : Option NodeAttrs) :
    Res (Graph × Bool) :=
  if g.hasNode n then .ok (g, false)
  else do
    let p := Prefix.fromId n
    let g := if g.hasDynLayer l p then g else (g.createDynamicLayer l p).1
    let d ← Res.deref (g.dynLayer? l p)
    let r := d.emplaceNodeAtIndex time (p.index n) attrs
    let g := g.setDyn l p r.1
    if !r.2 then return (g, false)
    else return ({ g with lookup := g.lookup.insert n (.dyn l p) }, true)

/-- dynamic_scene_graph.cpp:174-197 `insertNode`. `none` is a null pointer. Nodes built by a caller
have empty adjacency sets (they are private), so the argument is the constructor's data. -/
def insertNode (g : Graph) (node : Option (NodeId × LayerId × Option Stamp × Option NodeAttrs)) :
    Graph × Bool :=
  match node with
  | none => (g, false)
  | some (n, l, ts, attrs) =>
    if g.lookup.contains n then (g, false)
    else
      match g.layers.find? l with
      | none => (g, false)
      | some x =>
        let r := x.insertNode { id := n, layer := l, timestamp := ts, attrs := attrs }
        let g := { g with layers := g.layers.insert l r.1 }
        if r.2 then ({ g with lookup := g.lookup.insert n (.static l) }, true) else (g, false)

/-- dynamic_scene_graph.cpp:298-306 `setNodeAttributes` (a null pointer is accepted). -/
def setNodeAttributes (g : Graph) (n : NodeId) (attrs : Option NodeAttrs) : Res (Graph × Bool) :=
  match g.lookup.find? n with
  | none => .ok (g, false)
  | some k => do
    let g ← g.modNode n k (fun x => { x with attrs := attrs })
    return (g, true)

/-- dynamic_scene_graph.cpp:199-224 `addOrUpdateNode`. -/
def addOrUpdateNode (g : Graph) (l : LayerId) (n : NodeId) (attrs : Option NodeAttrs)
    (stamp : Option Stamp) : Res (Graph × Bool) :=
  match g.layers.find? l with
  | none => .ok (g, false)
  | some x =>
    match g.lookup.find? n with
    | some k => do
      let g ← g.modNode n k (fun x => { x with attrs := attrs })
      return (g, true)
    | none =>
      match stamp with
      | some t => g.emplacePrev l n t attrs
      | none =>
        let r := x.emplaceNode n attrs
        let g := { g with layers := g.layers.insert l r.1 }
        if r.2 then .ok ({ g with lookup := g.lookup.insert n (.static l) }, true) else .ok (g, false)

/-- dynamic_scene_graph.cpp:888-919 `hasEdge(source, target, source_key*, target_key*)`: the keys are
written only if both nodes are known (else they keep the default, unknown key). -/
def hasEdgeKeys (g : Graph) (s t : NodeId) : Res (Bool × LayerKey × LayerKey) :=
  match g.lookup.find? s with
  | none => .ok (false, .unknown, .unknown)
  | some ks =>
    match g.lookup.find? t with
    | none => .ok (false, .unknown, .unknown)
    | some kt =>
      if ks = kt then do
        let b ← g.layerFromKey ks
        return (b.hasEdge s t, ks, kt)
      else if ks.dynamic || kt.dynamic then .ok (g.dynInter.contains s t, ks, kt)
      else .ok (g.inter.contains s t, ks, kt)

/-- dynamic_scene_graph.cpp:358-360 `hasEdge`. -/
def hasEdge (g : Graph) (s t : NodeId) : Res Bool := do
  let r ← g.hasEdgeKeys s t
  return r.1

/-- dynamic_scene_graph.cpp:921-937 `addAncestry`. -/
def addAncestry (g : Graph) (s t : NodeId) (ks kt : LayerKey) : Res Graph := do
  let _ ← g.getNodePtr s ks
  let _ ← g.getNodePtr t kt
  if ks.isParent kt then
    let g ← g.modNode s ks (fun x => { x with children := x.children.add t })
    g.modNode t kt (fun x => { x with parents := x.parents.add s })
  else if kt.isParent ks then
    let g ← g.modNode t kt (fun x => { x with children := x.children.add s })
    g.modNode s ks (fun x => { x with parents := x.parents.add t })
  else
    let g ← g.modNode s ks (fun x => { x with siblings := x.siblings.add t })
    g.modNode t kt (fun x => { x with siblings := x.siblings.add s })

/-- dynamic_scene_graph.cpp:939-955 `removeAncestry`. -/
def removeAncestry (g : Graph) (s t : NodeId) (ks kt : LayerKey) : Res Graph := do
  let _ ← g.getNodePtr s ks
  let _ ← g.getNodePtr t kt
  if ks.isParent kt then
    let g ← g.modNode s ks (fun x => { x with children := x.children.erase t })
    g.modNode t kt (fun x => { x with parents := x.parents.erase s })
  else if kt.isParent ks then
    let g ← g.modNode t kt (fun x => { x with children := x.children.erase s })
    g.modNode s ks (fun x => { x with parents := x.parents.erase t })
  else
    let g ← g.modNode s ks (fun x => { x with siblings := x.siblings.erase t })
    g.modNode t kt (fun x => { x with siblings := x.siblings.erase s })

/-- The interlayer insertion shared by dynamic_scene_graph.cpp:248-252 and 279-283. -/
def insertInterlayer (g : Graph) (s t : NodeId) (ks kt : LayerKey) (attrs : Option EdgeAttrs) : Graph :=
  if ks.dynamic || kt.dynamic then { g with dynInter := g.dynInter.insert s t attrs }
  else { g with inter := g.inter.insert s t attrs }

/-- dynamic_scene_graph.cpp:226-255 `insertEdge`. -/
def insertEdge (g : Graph) (s t : NodeId) (info : Option EdgeAttrs) : Res (Graph × Bool) := do
  let (has, ks, kt) ← g.hasEdgeKeys s t
  if has then return (g, false)
  else if !ks.valid || !kt.valid then return (g, false)
  else
    let attrs : Option EdgeAttrs := some (info.getD {})
    if ks = kt then
      let b ← g.layerFromKey ks
      let r ← b.insertEdge s t attrs
      return (g.setLayer ks r.1, r.2)
    else
      let g ← g.addAncestry s t ks kt
      return (g.insertInterlayer s t ks kt attrs, true)

/-- dynamic_scene_graph.cpp:972-982 `removeInterlayerEdge` with keys. -/
def removeInterlayerEdge (g : Graph) (s t : NodeId) (ks kt : LayerKey) : Res Graph := do
  let g ← g.removeAncestry s t ks kt
  if ks.dynamic || kt.dynamic then
    let c ← g.dynInter.remove s t
    return { g with dynInter := c }
  else
    let c ← g.inter.remove s t
    return { g with inter := c }

/-- dynamic_scene_graph.cpp:984-986 `removeInterlayerEdge(n1, n2)`: `node_lookup_.at` throws. -/
def removeInterlayerEdge' (g : Graph) (s t : NodeId) : Res Graph := do
  let ks ← Res.at? (g.lookup.find? s)
  let kt ← Res.at? (g.lookup.find? t)
  g.removeInterlayerEdge s t ks kt

/-- dynamic_scene_graph.cpp:458-474 `removeEdge`. -/
def removeEdge (g : Graph) (s t : NodeId) : Res (Graph × Bool) := do
  let (has, ks, kt) ← g.hasEdgeKeys s t
  if !has then return (g, false)
  else if !ks.valid || !kt.valid then return (g, false)
  else if ks = kt then
    let b ← g.layerFromKey ks
    let r ← b.removeEdge s t
    return (g.setLayer ks r.1, r.2)
  else
    let g ← g.removeInterlayerEdge s t ks kt
    return (g, true)

/-- dynamic_scene_graph.cpp:957-970 `dropAllParents`. -/
def dropAllParents (g : Graph) (s t : NodeId) (ks kt : LayerKey) : Res Graph := do
  let ps ← g.getNodePtr s ks
  let pt ← g.getNodePtr t kt
  let child := if ks.isParent kt then t else s
  let x ← Res.deref (if ks.isParent kt then pt else ps)
  foldRes (fun g q => g.removeEdge child q >>= fun r => .ok r.1) g x.parents.keys

/-- dynamic_scene_graph.cpp:257-286 `insertParentEdge`. -/
def insertParentEdge (g : Graph) (s t : NodeId) (info : Option EdgeAttrs) : Res (Graph × Bool) := do
  let (has, ks, kt) ← g.hasEdgeKeys s t
  if has then return (g, false)
  else if !ks.valid || !kt.valid then return (g, false)
  else
    let attrs : Option EdgeAttrs := some (info.getD {})
    let g ← if ks ≠ kt then g.dropAllParents s t ks kt else pure g
    let g ← g.addAncestry s t ks kt
    return (g.insertInterlayer s t ks kt attrs, true)

/-- The container consulted for an edge between nodes with the given keys, with a `find` performed on it
(dynamic_scene_graph.cpp:311-323 and 420-433). `find` clears the stale mark. -/
def findEdgeIn (g : Graph) (s t : NodeId) (ks kt : LayerKey) : Res (Graph × Option Edge) :=
  if ks = kt then do
    let b ← g.layerFromKey ks
    let r := b.ec.find s t
    return (g.setLayer ks (b.setEc r.1), r.2)
  else if ks.dynamic || kt.dynamic then
    let r := g.dynInter.find s t
    .ok ({ g with dynInter := r.1 }, r.2)
  else
    let r := g.inter.find s t
    .ok ({ g with inter := r.1 }, r.2)

/-- `edge->info = attrs` in the container selected by the keys. -/
def setInfoIn (g : Graph) (s t : NodeId) (ks kt : LayerKey) (info : Option EdgeAttrs) : Res Graph :=
  if ks = kt then do
    let b ← g.layerFromKey ks
    return g.setLayer ks (b.setEc (b.ec.setInfo (EdgeKey.of s t) info))
  else if ks.dynamic || kt.dynamic then
    .ok { g with dynInter := g.dynInter.setInfo (EdgeKey.of s t) info }
  else
    .ok { g with inter := g.inter.setInfo (EdgeKey.of s t) info }

/-- dynamic_scene_graph.cpp:308-331 `setEdgeAttributes`: `node_lookup_.at` throws on unknown nodes. -/
def setEdgeAttributes (g : Graph) (s t : NodeId) (info : Option EdgeAttrs) : Res (Graph × Bool) := do
  let ks ← Res.at? (g.lookup.find? s)
  let kt ← Res.at? (g.lookup.find? t)
  let (g, e) ← g.findEdgeIn s t ks kt
  match e with
  | none => return (g, false)
  | some _ =>
    let g ← g.setInfoIn s t ks kt info
    return (g, true)

/-- dynamic_scene_graph.cpp:288-296 `addOrUpdateEdge`. -/
def addOrUpdateEdge (g : Graph) (s t : NodeId) (info : Option EdgeAttrs) : Res (Graph × Bool) := do
  let has ← g.hasEdge s t
  if has then g.setEdgeAttributes s t info else g.insertEdge s t info

/-- dynamic_scene_graph.cpp:349-356 `checkNode`. -/
def checkNode (g : Graph) (n : NodeId) : Res NodeStatus :=
  match g.lookup.find? n with
  | none => .ok .nonexistent
  | some k => do let b ← g.layerFromKey k; b.checkNode n

/-- dynamic_scene_graph.cpp:391-398 `findNode`. -/
def findNode (g : Graph) (n : NodeId) : Res (Option Node) :=
  match g.lookup.find? n with
  | none => .ok none
  | some k => g.getNodePtr n k

/-- dynamic_scene_graph.cpp:382-389 `getNode`. -/
def getNode (g : Graph) (n : NodeId) : Res Node := do
  let p ← g.findNode n
  match p with
  | none => .throw .outOfRange
  | some x => return x

/-- dynamic_scene_graph.cpp:400-407 `getLayerForNode`. -/
def getLayerForNode (g : Graph) (n : NodeId) : Option LayerKey := g.lookup.find? n

/-- dynamic_scene_graph.cpp:476-483 `isDynamic`. -/
def isDynamic (g : Graph) (n : NodeId) : Bool :=
  match g.lookup.find? n with
  | none => false
  | some k => k.dynamic

/-- dynamic_scene_graph.cpp:420-433 `findEdge`: `node_lookup_.at` throws on unknown nodes. -/
def findEdge (g : Graph) (s t : NodeId) : Res (Graph × Option Edge) := do
  let ks ← Res.at? (g.lookup.find? s)
  let kt ← Res.at? (g.lookup.find? t)
  g.findEdgeIn s t ks kt

/-- dynamic_scene_graph.cpp:409-418 `getEdge`. -/
def getEdge (g : Graph) (s t : NodeId) : Res (Graph × Edge) := do
  let (g, e) ← g.findEdge s t
  match e with
  | none => .throw .outOfRange
  | some e => return (g, e)

/-- dynamic_scene_graph.cpp:435-456 `removeNode`. -/
def removeNode (g : Graph) (n : NodeId) : Res (Graph × Bool) :=
  match g.lookup.find? n with
  | none => .ok (g, false)
  | some k => do
    let p ← g.getNodePtr n k
    let x ← Res.deref p
    let g ← foldRes (fun g t => g.removeInterlayerEdge' n t) g x.children.keys
    let p ← g.getNodePtr n k
    let x ← Res.deref p
    let g ← foldRes (fun g t => g.removeInterlayerEdge' n t) g x.parents.keys
    let b ← g.layerFromKey k
    let r ← b.removeNode n
    let g := g.setLayer k r.1
    return ({ g with lookup := g.lookup.erase n }, true)

/-- dynamic_scene_graph.cpp:988-1034 `rewireInterlayerEdge`. -/
def rewireInterlayerEdge (g : Graph) (s s' t : NodeId) : Res Graph :=
  if s = s' then .ok g
  else do
    let ks ← Res.at? (g.lookup.find? s)
    let (has, ks', kt) ← g.hasEdgeKeys s' t
    if has then g.removeInterlayerEdge s t ks kt
    else
      let g ← g.removeAncestry s t ks kt
      let g ← g.addAncestry s' t ks' kt
      let (g, attrs) ← (do
        if ks.dynamic || kt.dynamic then
          let r := g.dynInter.find s t
          let g := { g with dynInter := r.1 }
          match r.2 with
          | none => return (g, none)
          | some e =>
            let a ← Res.deref e.info
            let c ← g.dynInter.remove s t
            return ({ g with dynInter := c }, some a)
        else
          let r := g.inter.find s t
          let g := { g with inter := r.1 }
          match r.2 with
          | none => return (g, none)
          | some e =>
            let a ← Res.deref e.info
            let c ← g.inter.remove s t
            return ({ g with inter := c }, some a) : Res (Graph × Option EdgeAttrs))
      match attrs with
      | none => return g
      | some a => return g.insertInterlayer s' t ks' kt (some a)

/-- dynamic_scene_graph.cpp:581-614 `mergeNodes`: `layers_[info.layer]` on a missing static layer creates
a null entry that is then dereferenced. -/
def mergeNodes (g : Graph) (from_ to : NodeId) : Res (Graph × Bool) :=
  match g.lookup.find? from_, g.lookup.find? to with
  | some kf, some kt =>
    if from_ = to then .ok (g, false)
    else if kf ≠ kt then .ok (g, false)
    else do
      let l ← Res.deref (g.layers.find? kf.layer)
      let x ← Res.at? (l.nodes.find? from_)
      let g ← foldRes (fun g t => g.rewireInterlayerEdge from_ to t) g x.parents.keys
      let l ← Res.deref (g.layers.find? kf.layer)
      let x ← Res.at? (l.nodes.find? from_)
      let g ← foldRes (fun g t => g.rewireInterlayerEdge from_ to t) g x.children.keys
      let l ← Res.deref (g.layers.find? kf.layer)
      let r ← l.mergeNodes from_ to
      return ({ g with layers := g.layers.insert kf.layer r.1, lookup := g.lookup.erase from_ }, true)
  | _, _ => .ok (g, false)

/-- dynamic_scene_graph.cpp:566-579 `getPosition`. -/
def getPosition (g : Graph) (n : NodeId) : Res V3d :=
  match g.lookup.find? n with
  | none => .throw .outOfRange
  | some k => do let b ← g.layerFromKey k; b.getPosition n

/-- dynamic_scene_graph.cpp:485-496 `numLayers`. -/
def numLayers (g : Graph) : Nat :=
  g.layers.size + (g.dyns.keys.filter (fun l => !g.layers.contains l)).length
/-- dynamic_scene_graph.cpp:498-504 -/
def numDynamicLayersOfType (g : Graph) (l : LayerId) : Nat :=
  match g.dyns.find? l with
  | none => 0
  | some m => m.size
/-- dynamic_scene_graph.cpp:506-512 -/
def numDynamicLayers (g : Graph) : Nat := (g.dyns.toList.map (fun e => e.2.size)).sum
/-- dynamic_scene_graph.cpp:519-526 -/
def numStaticNodes (g : Graph) : Nat := (g.layers.toList.map (fun e => e.2.nodes.size)).sum
/-- All dynamic layers in iteration order. -/
def dynList (g : Graph) : List DynLayer := g.dyns.toList.flatMap (fun e => e.2.toList.map Prod.snd)
/-- dynamic_scene_graph.cpp:528-537 -/
def numDynamicNodes (g : Graph) : Nat := (g.dynList.map DynLayer.numNodes).sum
/-- dynamic_scene_graph.cpp:514-517 -/
def numNodes (g : Graph) (includeMesh : Bool) : Nat :=
  g.numStaticNodes + g.numDynamicNodes +
    (match g.mesh with
     | none => 0
     | some m => if includeMesh then m.points.length else 0)
/-- dynamic_scene_graph.cpp:543-550 -/
def numStaticEdges (g : Graph) : Nat :=
  g.inter.size + (g.layers.toList.map (fun e => e.2.edges.size)).sum
/-- dynamic_scene_graph.cpp:552-562 -/
def numDynamicEdges (g : Graph) : Nat :=
  g.dynInter.size + (g.dynList.map (fun d => d.edges.size)).sum
/-- dynamic_scene_graph.cpp:539-541 -/
def numEdges (g : Graph) : Nat := g.numStaticEdges + g.numDynamicEdges
/-- dynamic_scene_graph.cpp:564 `empty`, with the default of dynamic_scene_graph.h:387
`numNodes(bool include_mesh = true)`: mesh vertices count. -/
def isEmpty (g : Graph) : Bool := g.numNodes true == 0

/-- dynamic_scene_graph.cpp:1044-1055 `visitLayers` with a visitor that updates each layer and appends to
an output vector: static layers in id order, then dynamic layers by id and prefix. -/
def visitLayers {α : Type} (g : Graph) (f : BaseLayer → BaseLayer × List α) : Graph × List α :=
  let st (l : Layer) : Layer := match (f (.static l)).1 with | .static l' => l' | .dyn _ => l
  let dy (d : DynLayer) : DynLayer := match (f (.dyn d)).1 with | .dyn d' => d' | .static _ => d
  ({ g with layers := g.layers.map (fun _ l => st l)
            dyns := g.dyns.map (fun _ m => m.map (fun _ d => dy d)) },
   g.layers.toList.flatMap (fun e => (f (.static e.2)).2) ++
   g.dyns.toList.flatMap (fun e => e.2.toList.flatMap (fun e' => (f (.dyn e'.2)).2)))

/-- dynamic_scene_graph.cpp:734-739 `getNewNodes`. -/
def getNewNodes (g : Graph) (clear : Bool) : Graph × List NodeId :=
  g.visitLayers (fun b => b.getNewNodes clear)
/-- dynamic_scene_graph.cpp:726-732 `getRemovedNodes`. -/
def getRemovedNodes (g : Graph) (clear : Bool) : Graph × List NodeId :=
  g.visitLayers (fun b => b.getRemovedNodes clear)
/-- dynamic_scene_graph.cpp:752-760 `getNewEdges`. -/
def getNewEdges (g : Graph) (clear : Bool) : Graph × List EdgeKey :=
  let r := g.visitLayers (fun b => (b.setEc (b.ec.getNew clear).1, (b.ec.getNew clear).2))
  ({ r.1 with inter := (g.inter.getNew clear).1, dynInter := (g.dynInter.getNew clear).1 },
   r.2 ++ (g.inter.getNew clear).2 ++ (g.dynInter.getNew clear).2)
/-- dynamic_scene_graph.cpp:741-750 `getRemovedEdges`. -/
def getRemovedEdges (g : Graph) (clear : Bool) : Graph × List EdgeKey :=
  let r := g.visitLayers (fun b => (b.setEc (b.ec.getRemoved clear).1, (b.ec.getRemoved clear).2))
  ({ r.1 with inter := (g.inter.getRemoved clear).1, dynInter := (g.dynInter.getRemoved clear).1 },
   r.2 ++ (g.inter.getRemoved clear).2 ++ (g.dynInter.getRemoved clear).2)

/-- dynamic_scene_graph.cpp:762-774 `markEdgesAsStale`. -/
def markEdgesAsStale (g : Graph) : Graph :=
  { g with
    layers := g.layers.map (fun _ l => { l with edges := l.edges.setStale })
    dyns := g.dyns.map (fun _ m => m.map (fun _ d => { d with edges := d.edges.setStale }))
    dynInter := g.dynInter.setStale
    inter := g.inter.setStale }

/-- dynamic_scene_graph.cpp:1036-1042 `removeStaleEdges` over a container's stale marks. -/
def removeStaleEdges (g : Graph) (stale : OMap EdgeKey Bool) : Res Graph :=
  foldRes (fun g (e : EdgeKey × Bool) =>
    if e.2 then g.removeEdge e.1.k1 e.1.k2 >>= fun r => .ok r.1 else .ok g) g stale.toList

/-- dynamic_scene_graph.cpp:777-779, one iteration over the static layers. -/
def removeStaleStatic (g : Graph) (l : LayerId) : Res Graph :=
  match g.layers.find? l with
  | none => .ok g
  | some x => g.removeStaleEdges x.edges.stale

/-- dynamic_scene_graph.cpp:780-784, one iteration over the dynamic layers. -/
def removeStaleDyn (g : Graph) (e : LayerId × Prefix) : Res Graph :=
  match g.dynLayer? e.1 e.2 with
  | none => .ok g
  | some x => g.removeStaleEdges x.edges.stale

/-- dynamic_scene_graph.cpp:776-788 `removeAllStaleEdges`. Each container's marks are read when its turn
comes. -/
def removeAllStaleEdges (g : Graph) : Res Graph := do
  let g ← foldRes removeStaleStatic g g.layers.keys
  let g ← foldRes removeStaleDyn g (g.dyns.toList.flatMap (fun e => e.2.keys.map (fun p => (e.1, p))))
  let g ← g.removeStaleEdges g.inter.stale
  g.removeStaleEdges g.dynInter.stale

/-- dynamic_scene_graph.cpp:860 `setMesh`. -/
def setMesh (g : Graph) (m : Option Mesh) : Graph := { g with mesh := m }

end Graph
end Verif
