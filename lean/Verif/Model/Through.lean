import Verif.Model.Api
/-!
# Every write, in order: what a call leaves behind when it throws

The other model files return either the final state or a fault, so they do not say what the graph looks like
after an exception has been caught. Here the same functions are written a second time, statement by
statement, as actions that write through: an exception carries the state with every write made before it.
`Lemmas/Through.lean` proves that, exceptions' states aside, these are the functions of the other files.

Not modelled: `std::bad_alloc`, and that attribute pointers moved into a call that throws are lost.
-/

namespace Verif

/-- Outcome of a call on an object: a value and the object's new state, an exception and the state it leaves
behind, or undefined behaviour. -/
inductive Thru (S α : Type) where
  | ok (a : α) (s : S)
  | throw (e : Exc) (s : S)
  | ub
  deriving DecidableEq

/-- A sequence of C++ statements on an object of type `S`. -/
def Act (S α : Type) := S → Thru S α

namespace Act
variable {S T α β : Type}

/-- Sequencing: an exception keeps the state reached so far. -/
def bind (m : Act S α) (f : α → Act S β) : Act S β := fun s =>
  match m s with
  | .ok a s' => f a s'
  | .throw e s' => .throw e s'
  | .ub => .ub
instance : Monad (Act S) where
  pure a := fun s => .ok a s
  bind := Act.bind

/-- The current state. -/
def get : Act S S := fun s => .ok s s
/-- Write the state. -/
def set (s : S) : Act S Unit := fun _ => .ok () s
/-- A read of the state, which may throw or be undefined. -/
def read (f : S → Res α) : Act S α := fun s =>
  match f s with
  | .ok a => .ok a s
  | .throw e => .throw e s
  | .ub => .ub
/-- Statements on a part of the object (a layer, an edge container); what they wrote before an exception
stays written. -/
def within (part : S → Res T) (put : S → T → S) (m : Act T α) : Act S α := fun s =>
  match part s with
  | .ok t =>
    match m t with
    | .ok a t' => .ok a (put s t')
    | .throw e t' => .throw e (put s t')
    | .ub => .ub
  | .throw e => .throw e s
  | .ub => .ub
/-- A `for` loop over a fixed list. -/
def each (f : β → Act S Unit) : List β → Act S Unit
  | [] => pure ()
  | b :: l => f b >>= fun _ => each f l
end Act

namespace EdgeContainer
/-- edge_container.cpp:58-62 `remove`: `edge_status.at(key) = DELETED; edges.erase(key);` -/
def removeT (s t : NodeId) : Act EdgeContainer Unit := do
  let _ ← Act.read (fun c => Res.at? (c.status.find? (EdgeKey.of s t)))
  let c ← Act.get
  Act.set { c with status := c.status.insert (EdgeKey.of s t) .deleted }
  let c ← Act.get
  Act.set { c with edges := c.edges.erase (EdgeKey.of s t) }

/-- edge_container.cpp:145-153, 96-104 `find`: clears the stale mark of a present edge. -/
def findT (s t : NodeId) : Act EdgeContainer (Option Edge) := do
  let c ← Act.get
  match c.edges.find? (EdgeKey.of s t) with
  | none => return none
  | some e =>
    Act.set { c with stale := c.stale.insert (EdgeKey.of s t) false }
    return some e

/-- edge_container.cpp:64-78 `rewire`. -/
def rewireT (s t s' t' : NodeId) : Act EdgeContainer Unit := do
  let prev ← findT s t
  match prev with
  | none => return ()
  | some e =>
    let attrs ← Act.read (fun _ => Res.deref e.info)
    let _ ← Act.read (fun c => Res.at? (c.status.find? (EdgeKey.of s t)))
    let c ← Act.get
    Act.set { c with status := c.status.insert (EdgeKey.of s t) .merged }
    removeT s t
    let c ← Act.get
    Act.set (c.insert s' t' (some attrs))
end EdgeContainer

namespace Layer
/-- `edges_` of a static layer. -/
def onEdges {α : Type} (m : Act EdgeContainer α) : Act Layer α := Act.within (fun l => .ok l.edges) (fun l c => { l with edges := c }) m
/-- `nodes_[n]->siblings_...` (undefined for a missing node). -/
def modNodeT (n : NodeId) (f : Node → Node) : Act Layer Unit := do
  let l ← Act.read (fun l => l.modNode n f)
  Act.set l

/-- scene_graph_layer.cpp:79-106 `insertEdge`. -/
def insertEdgeT (s t : NodeId) (info : Option EdgeAttrs) : Act Layer Bool := do
  let l ← Act.get
  if s = t then return false
  else if l.hasEdge s t then return false
  else if !l.hasNode s then return false
  else if !l.hasNode t then return false
  else
    modNodeT s (fun x => { x with siblings := x.siblings.add t })
    modNodeT t (fun x => { x with siblings := x.siblings.add s })
    let l ← Act.get
    Act.set { l with edges := l.edges.insert s t info }
    return true

/-- scene_graph_layer.cpp:170-180 `removeEdge`. -/
def removeEdgeT (s t : NodeId) : Act Layer Bool := do
  let l ← Act.get
  if !l.hasEdge s t then return false
  else
    modNodeT s (fun x => { x with siblings := x.siblings.erase t })
    modNodeT t (fun x => { x with siblings := x.siblings.erase s })
    onEdges (EdgeContainer.removeT s t)
    return true

/-- scene_graph_layer.cpp:132-147 `removeNode`. -/
def removeNodeT (n : NodeId) : Act Layer Bool := do
  let l ← Act.get
  match l.nodes.find? n with
  | none => return false
  | some x =>
    Act.each (fun t => removeEdgeT n t >>= fun _ => pure ()) x.siblings.keys
    let l ← Act.get
    Act.set { l with nodes := l.nodes.erase n }
    let l ← Act.get
    Act.set { l with status := l.status.insert n .deleted }
    return true

/-- scene_graph_layer.cpp:182-211 `rewireEdge`. -/
def rewireEdgeT (s t s' t' : NodeId) : Act Layer Bool := do
  let l ← Act.get
  if !l.hasEdge s t then return false
  else if !l.hasNode s' || !l.hasNode t' then return false
  else if s = s' ∧ t = t' then return false
  else if s' = t' ∨ l.hasEdge s' t' = true then
    let _ ← removeEdgeT s t
    return true
  else
    onEdges (EdgeContainer.rewireT s t s' t')
    modNodeT s (fun x => { x with siblings := x.siblings.erase t })
    modNodeT t (fun x => { x with siblings := x.siblings.erase s })
    modNodeT s' (fun x => { x with siblings := x.siblings.add t' })
    modNodeT t' (fun x => { x with siblings := x.siblings.add s' })
    return true

/-- scene_graph_layer.cpp:149-168 `mergeNodes`. -/
def mergeNodesT (from_ to : NodeId) : Act Layer Bool := do
  let l ← Act.get
  match l.nodes.find? from_ with
  | none => return false
  | some x =>
    if !l.hasNode to then return false
    else if from_ = to then return false
    else
      Act.each (fun t => rewireEdgeT from_ t to t >>= fun _ => pure ()) x.siblings.keys
      let l ← Act.get
      Act.set { l with nodes := l.nodes.erase from_ }
      let l ← Act.get
      Act.set { l with status := l.status.insert from_ .merged }
      return true
end Layer

namespace DynLayer
/-- `edges_` of a dynamic layer. -/
def onEdges {α : Type} (m : Act EdgeContainer α) : Act DynLayer α := Act.within (fun l => .ok l.edges) (fun l c => { l with edges := c }) m
/-- `nodes_[i]->siblings_...` (undefined out of range or for a null entry). -/
def modIdxT (i : Nat) (f : Node → Node) : Act DynLayer Unit := do
  let l ← Act.read (fun l => l.modIdx i f)
  Act.set l

/-- dynamic_scene_graph_layer.cpp:195-217 `insertEdge`. -/
def insertEdgeT (s t : NodeId) (info : Option EdgeAttrs) : Act DynLayer Bool := do
  let l ← Act.get
  if s = t then return false
  else if l.hasEdge s t then return false
  else if !l.hasNode s || !l.hasNode t then return false
  else
    modIdxT (l.pre.index s) (fun x => { x with siblings := x.siblings.add t })
    modIdxT (l.pre.index t) (fun x => { x with siblings := x.siblings.add s })
    let l ← Act.get
    Act.set { l with edges := l.edges.insert s t info }
    return true

/-- dynamic_scene_graph_layer.cpp:225-235 `removeEdge`. -/
def removeEdgeT (s t : NodeId) : Act DynLayer Bool := do
  let l ← Act.get
  if !l.hasEdge s t then return false
  else
    modIdxT (l.pre.index s) (fun x => { x with siblings := x.siblings.erase t })
    modIdxT (l.pre.index t) (fun x => { x with siblings := x.siblings.erase s })
    onEdges (EdgeContainer.removeT s t)
    return true

/-- dynamic_scene_graph_layer.cpp:90-111 `emplaceNode`. -/
def emplaceNodeT (stamp : Stamp) (attrs : Option NodeAttrs) (addEdge : Bool) : Act DynLayer Bool := do
  let l ← Act.get
  if l.times.contains stamp then return false
  else
    let node : Node := { id := l.pre.makeId l.next, layer := l.id, timestamp := some stamp, attrs := attrs }
    Act.set { l with times := l.times.add stamp }
    let l ← Act.get
    Act.set { l with nodes := l.nodes ++ [some node] }
    let l ← Act.get
    Act.set { l with status := l.status.insert (l.nodes.length - 1) .new }
    let l ← Act.get
    if addEdge && decide (l.nodes.length > 1) then
      let _ ← insertEdgeT (l.pre.makeId (l.nodes.length - 2)) (l.pre.makeId (l.nodes.length - 1)) none
      let l ← Act.get
      Act.set { l with next := l.next + 1 }
      return true
    else
      Act.set { l with next := l.next + 1 }
      return true

/-- dynamic_scene_graph_layer.cpp:113-133 `emplaceNodeAtIndex` (no lookup in it can throw). -/
def emplaceNodeAtIndexT (stamp : Stamp) (i : Nat) (attrs : Option NodeAttrs) : Act DynLayer Bool := do
  let l ← Act.get
  Act.set (l.emplaceNodeAtIndex stamp i attrs).1
  return (l.emplaceNodeAtIndex stamp i attrs).2

/-- dynamic_scene_graph_layer.cpp:255-269: the second half of `removeNode`. -/
def removeSlotT (n : NodeId) (i : Nat) (sib : List NodeId) : Act DynLayer Bool := do
  Act.each (fun t => removeEdgeT n t >>= fun _ => pure ()) sib
  let l ← Act.get
  Act.set { l with status := l.status.insert i .deleted }
  let p ← Act.read (fun l => Res.at? l.nodes[i]?)
  let x ← Act.read (fun _ => Res.deref p)
  let st ← Act.read (fun _ => Res.deref x.timestamp)
  let l ← Act.get
  Act.set { l with times := l.times.erase st }
  let l ← Act.get
  Act.set { l with nodes := l.nodes.set i none }
  return true

/-- dynamic_scene_graph_layer.cpp:242-270 `removeNode`. -/
def removeNodeT (n : NodeId) : Act DynLayer Bool := do
  let l ← Act.get
  if !l.hasNode n then return false
  else
    let p ← Act.read (fun l => Res.at? l.nodes[l.pre.index n]?)
    let x ← Act.read (fun _ => Res.deref p)
    if (l.hasNode (n - 1) && x.siblings.contains (n - 1)) && (l.hasNode (n + 1) && x.siblings.contains (n + 1)) then
      let _ ← insertEdgeT (n - 1) (n + 1) none
      removeSlotT n (l.pre.index n) x.siblings.keys
    else removeSlotT n (l.pre.index n) x.siblings.keys
end DynLayer

namespace BaseLayer
/-- Virtual dispatch of a call on a layer. -/
def dispatch {α : Type} (m : Act Layer α) (m' : Act DynLayer α) : Act BaseLayer α := fun b =>
  match b with
  | .static l =>
    match m l with
    | .ok a l' => .ok a (.static l')
    | .throw e l' => .throw e (.static l')
    | .ub => .ub
  | .dyn l =>
    match m' l with
    | .ok a l' => .ok a (.dyn l')
    | .throw e l' => .throw e (.dyn l')
    | .ub => .ub
end BaseLayer

namespace Graph
/-- `layerFromKey(k).call(...)` (dynamic_scene_graph.cpp:866-877). -/
def onLayer {α : Type} (k : LayerKey) (m : Act BaseLayer α) : Act Graph α := Act.within (fun g => g.layerFromKey k) (fun g b => g.setLayer k b) m
/-- A call on `interlayer_edges_` (`false`) or `dynamic_interlayer_edges_` (`true`). -/
def onInter {α : Type} (dynamic : Bool) (m : Act EdgeContainer α) : Act Graph α :=
  if dynamic then Act.within (fun g => .ok g.dynInter) (fun g c => { g with dynInter := c }) m
  else Act.within (fun g => .ok g.inter) (fun g c => { g with inter := c }) m
/-- `layers_[l]->call(...)` (a missing layer is a null pointer). -/
def onStatic {α : Type} (l : LayerId) (m : Act Layer α) : Act Graph α :=
  Act.within (fun g => Res.deref (g.layers.find? l)) (fun g x => { g with layers := g.layers.insert l x }) m
/-- `dynamic_layers_[l][p]->call(...)`. -/
def onDyn {α : Type} (l : LayerId) (p : Prefix) (m : Act DynLayer α) : Act Graph α :=
  Act.within (fun g => Res.deref (g.dynLayer? l p)) (fun g d => g.setDyn l p d) m
/-- Replace a field of the graph. -/
def modify (f : Graph → Graph) : Act Graph Unit := do
  let g ← Act.get
  Act.set (f g)

/-- `getNodePtr(n, key)->member = ...`: one write, after every lookup. -/
def modNodeT (n : NodeId) (k : LayerKey) (f : Node → Node) : Act Graph Unit := do
  let g ← Act.read (fun g => g.modNode n k f)
  Act.set g

/-- dynamic_scene_graph.cpp:119-147 dynamic `emplaceNode`. -/
def emplaceDynT (l : LayerId) (p : Prefix) (time : Stamp) (attrs : Option NodeAttrs) (addEdge : Bool) : Act Graph Bool := do
  let g ← Act.get
  let newId := g.nextDynId l p
  if g.hasNode newId then return false
  else
    modify (fun g => if g.hasDynLayer l p then g else (g.createDynamicLayer l p).1)
    let ok ← onDyn l p (DynLayer.emplaceNodeT time attrs addEdge)
    if !ok then return false
    else
      modify (fun g => { g with lookup := g.lookup.insert newId (.dyn l p) })
      return true

/-- dynamic_scene_graph.cpp:149-172 `emplacePrevDynamicNode`. -/
def emplacePrevT (l : LayerId) (n : NodeId) (time : Stamp) (attrs : Option NodeAttrs) : Act Graph Bool := do
  let g ← Act.get
  if g.hasNode n then return false
  else
    let p := Prefix.fromId n
    modify (fun g => if g.hasDynLayer l p then g else (g.createDynamicLayer l p).1)
    let ok ← onDyn l p (DynLayer.emplaceNodeAtIndexT time (p.index n) attrs)
    if !ok then return false
    else
      modify (fun g => { g with lookup := g.lookup.insert n (.dyn l p) })
      return true

/-- dynamic_scene_graph.cpp:298-306 `setNodeAttributes`. -/
def setNodeAttributesT (n : NodeId) (attrs : Option NodeAttrs) : Act Graph Bool := do
  let g ← Act.get
  match g.lookup.find? n with
  | none => return false
  | some k =>
    modNodeT n k (fun x => { x with attrs := attrs })
    return true

/-- dynamic_scene_graph.cpp:199-224 `addOrUpdateNode`. -/
def addOrUpdateNodeT (l : LayerId) (n : NodeId) (attrs : Option NodeAttrs) (stamp : Option Stamp) : Act Graph Bool := do
  let g ← Act.get
  match g.layers.find? l with
  | none => return false
  | some x =>
    match g.lookup.find? n with
    | some k =>
      modNodeT n k (fun x => { x with attrs := attrs })
      return true
    | none =>
      match stamp with
      | some t => emplacePrevT l n t attrs
      | none =>
        modify (fun g => { g with layers := g.layers.insert l (x.emplaceNode n attrs).1 })
        if (x.emplaceNode n attrs).2 then
          modify (fun g => { g with lookup := g.lookup.insert n (.static l) })
          return true
        else return false

/-- dynamic_scene_graph.cpp:921-937 `addAncestry`. -/
def addAncestryT (s t : NodeId) (ks kt : LayerKey) : Act Graph Unit := do
  let _ ← Act.read (fun g => g.getNodePtr s ks)
  let _ ← Act.read (fun g => g.getNodePtr t kt)
  if ks.isParent kt then
    modNodeT s ks (fun x => { x with children := x.children.add t })
    modNodeT t kt (fun x => { x with parents := x.parents.add s })
  else if kt.isParent ks then
    modNodeT t kt (fun x => { x with children := x.children.add s })
    modNodeT s ks (fun x => { x with parents := x.parents.add t })
  else
    modNodeT s ks (fun x => { x with siblings := x.siblings.add t })
    modNodeT t kt (fun x => { x with siblings := x.siblings.add s })

/-- dynamic_scene_graph.cpp:939-955 `removeAncestry`. -/
def removeAncestryT (s t : NodeId) (ks kt : LayerKey) : Act Graph Unit := do
  let _ ← Act.read (fun g => g.getNodePtr s ks)
  let _ ← Act.read (fun g => g.getNodePtr t kt)
  if ks.isParent kt then
    modNodeT s ks (fun x => { x with children := x.children.erase t })
    modNodeT t kt (fun x => { x with parents := x.parents.erase s })
  else if kt.isParent ks then
    modNodeT t kt (fun x => { x with children := x.children.erase s })
    modNodeT s ks (fun x => { x with parents := x.parents.erase t })
  else
    modNodeT s ks (fun x => { x with siblings := x.siblings.erase t })
    modNodeT t kt (fun x => { x with siblings := x.siblings.erase s })

/-- dynamic_scene_graph.cpp:226-255 `insertEdge`. -/
def insertEdgeT (s t : NodeId) (info : Option EdgeAttrs) : Act Graph Bool := do
  let (has, ks, kt) ← Act.read (fun g => g.hasEdgeKeys s t)
  if has then return false
  else if !ks.valid || !kt.valid then return false
  else
    let attrs : Option EdgeAttrs := some (info.getD {})
    if ks = kt then onLayer ks (BaseLayer.dispatch (Layer.insertEdgeT s t attrs) (DynLayer.insertEdgeT s t attrs))
    else
      addAncestryT s t ks kt
      modify (fun g => g.insertInterlayer s t ks kt attrs)
      return true

/-- dynamic_scene_graph.cpp:972-982 `removeInterlayerEdge` with keys. -/
def removeInterlayerEdgeT (s t : NodeId) (ks kt : LayerKey) : Act Graph Unit := do
  removeAncestryT s t ks kt
  onInter (ks.dynamic || kt.dynamic) (EdgeContainer.removeT s t)

/-- dynamic_scene_graph.cpp:984-986 `removeInterlayerEdge(n1, n2)`. -/
def removeInterlayerEdgeT' (s t : NodeId) : Act Graph Unit := do
  let ks ← Act.read (fun g => Res.at? (g.lookup.find? s))
  let kt ← Act.read (fun g => Res.at? (g.lookup.find? t))
  removeInterlayerEdgeT s t ks kt

/-- dynamic_scene_graph.cpp:458-474 `removeEdge`. -/
def removeEdgeT (s t : NodeId) : Act Graph Bool := do
  let (has, ks, kt) ← Act.read (fun g => g.hasEdgeKeys s t)
  if !has then return false
  else if !ks.valid || !kt.valid then return false
  else if ks = kt then onLayer ks (BaseLayer.dispatch (Layer.removeEdgeT s t) (DynLayer.removeEdgeT s t))
  else
    removeInterlayerEdgeT s t ks kt
    return true

/-- dynamic_scene_graph.cpp:957-970 `dropAllParents`. -/
def dropAllParentsT (s t : NodeId) (ks kt : LayerKey) : Act Graph Unit := do
  let ps ← Act.read (fun g => g.getNodePtr s ks)
  let pt ← Act.read (fun g => g.getNodePtr t kt)
  let child := if ks.isParent kt then t else s
  let x ← Act.read (fun _ => Res.deref (if ks.isParent kt then pt else ps))
  Act.each (fun q => removeEdgeT child q >>= fun _ => pure ()) x.parents.keys

/-- dynamic_scene_graph.cpp:277-285: the second half of `insertParentEdge`. -/
def linkParentT (s t : NodeId) (ks kt : LayerKey) (attrs : Option EdgeAttrs) : Act Graph Bool := do
  addAncestryT s t ks kt
  modify (fun g => g.insertInterlayer s t ks kt attrs)
  return true

/-- dynamic_scene_graph.cpp:257-286 `insertParentEdge`. -/
def insertParentEdgeT (s t : NodeId) (info : Option EdgeAttrs) : Act Graph Bool := do
  let (has, ks, kt) ← Act.read (fun g => g.hasEdgeKeys s t)
  if has then return false
  else if !ks.valid || !kt.valid then return false
  else
    let attrs : Option EdgeAttrs := some (info.getD {})
    if ks ≠ kt then
      dropAllParentsT s t ks kt
      linkParentT s t ks kt attrs
    else linkParentT s t ks kt attrs

/-- dynamic_scene_graph.cpp:314-323 and 424-432: a `find` on the container selected by the keys. -/
def findEdgeInT (s t : NodeId) (ks kt : LayerKey) : Act Graph (Option Edge) :=
  if ks = kt then onLayer ks (BaseLayer.dispatch (Layer.onEdges (EdgeContainer.findT s t)) (DynLayer.onEdges (EdgeContainer.findT s t)))
  else onInter (ks.dynamic || kt.dynamic) (EdgeContainer.findT s t)

/-- dynamic_scene_graph.cpp:420-433 `findEdge`. -/
def findEdgeT (s t : NodeId) : Act Graph (Option Edge) := do
  let ks ← Act.read (fun g => Res.at? (g.lookup.find? s))
  let kt ← Act.read (fun g => Res.at? (g.lookup.find? t))
  findEdgeInT s t ks kt

/-- dynamic_scene_graph.cpp:409-418 `getEdge`. -/
def getEdgeT (s t : NodeId) : Act Graph Edge := do
  let e ← findEdgeT s t
  Act.read (fun _ => Res.at? e)

/-- dynamic_scene_graph.cpp:308-331 `setEdgeAttributes`: the assignment goes through the pointer `find`
returned, without another lookup that could throw. -/
def setEdgeAttributesT (s t : NodeId) (info : Option EdgeAttrs) : Act Graph Bool := do
  let ks ← Act.read (fun g => Res.at? (g.lookup.find? s))
  let kt ← Act.read (fun g => Res.at? (g.lookup.find? t))
  let e ← findEdgeInT s t ks kt
  match e with
  | none => return false
  | some _ =>
    let g ← Act.read (fun g => g.setInfoIn s t ks kt info)
    Act.set g
    return true

/-- dynamic_scene_graph.cpp:288-296 `addOrUpdateEdge`. -/
def addOrUpdateEdgeT (s t : NodeId) (info : Option EdgeAttrs) : Act Graph Bool := do
  let has ← Act.read (fun g => g.hasEdge s t)
  if has then setEdgeAttributesT s t info else insertEdgeT s t info

/-- dynamic_scene_graph.cpp:435-456 `removeNode`. -/
def removeNodeT (n : NodeId) : Act Graph Bool := do
  let g ← Act.get
  match g.lookup.find? n with
  | none => return false
  | some k =>
    let p ← Act.read (fun g => g.getNodePtr n k)
    let x ← Act.read (fun _ => Res.deref p)
    Act.each (fun t => removeInterlayerEdgeT' n t) x.children.keys
    let p ← Act.read (fun g => g.getNodePtr n k)
    let x ← Act.read (fun _ => Res.deref p)
    Act.each (fun t => removeInterlayerEdgeT' n t) x.parents.keys
    let _ ← onLayer k (BaseLayer.dispatch (Layer.removeNodeT n) (DynLayer.removeNodeT n))
    modify (fun g => { g with lookup := g.lookup.erase n })
    return true

/-- dynamic_scene_graph.cpp:1010-1022: take the attributes of an interlayer edge and remove it. -/
def takeInterT (s t : NodeId) : Act EdgeContainer (Option EdgeAttrs) := do
  let e ← EdgeContainer.findT s t
  match e with
  | none => return none
  | some e =>
    let a ← Act.read (fun _ => Res.deref e.info)
    EdgeContainer.removeT s t
    return some a

/-- dynamic_scene_graph.cpp:988-1034 `rewireInterlayerEdge`. -/
def rewireInterlayerEdgeT (s s' t : NodeId) : Act Graph Unit :=
  if s = s' then pure ()
  else do
    let ks ← Act.read (fun g => Res.at? (g.lookup.find? s))
    let (has, ks', kt) ← Act.read (fun g => g.hasEdgeKeys s' t)
    if has then removeInterlayerEdgeT s t ks kt
    else
      removeAncestryT s t ks kt
      addAncestryT s' t ks' kt
      let attrs ← onInter (ks.dynamic || kt.dynamic) (takeInterT s t)
      match attrs with
      | none => return ()
      | some a => modify (fun g => g.insertInterlayer s' t ks' kt (some a))

/-- `layers_[l]->nodes_.at(n)` (dynamic_scene_graph.cpp:596). -/
def staticNode (g : Graph) (l : LayerId) (n : NodeId) : Res Node := do
  let x ← Res.deref (g.layers.find? l)
  Res.at? (x.nodes.find? n)

/-- dynamic_scene_graph.cpp:581-614 `mergeNodes`. -/
def mergeNodesT (from_ to : NodeId) : Act Graph Bool := do
  let g ← Act.get
  match g.lookup.find? from_, g.lookup.find? to with
  | some kf, some kt =>
    if from_ = to then return false
    else if kf ≠ kt then return false
    else
      let x ← Act.read (fun g => g.staticNode kf.layer from_)
      Act.each (fun t => rewireInterlayerEdgeT from_ to t) x.parents.keys
      let x ← Act.read (fun g => g.staticNode kf.layer from_)
      Act.each (fun t => rewireInterlayerEdgeT from_ to t) x.children.keys
      let _ ← onStatic kf.layer (Layer.mergeNodesT from_ to)
      modify (fun g => { g with lookup := g.lookup.erase from_ })
      return true
  | _, _ => return false

/-- dynamic_scene_graph.cpp:1036-1042 `removeStaleEdges` over a container's stale marks. -/
def removeStaleEdgesT (stale : OMap EdgeKey Bool) : Act Graph Unit :=
  Act.each (fun (e : EdgeKey × Bool) => if e.2 then removeEdgeT e.1.k1 e.1.k2 >>= fun _ => pure () else pure ()) stale.toList

/-- dynamic_scene_graph.cpp:777-779, one iteration over the static layers. -/
def removeStaleStaticT (l : LayerId) : Act Graph Unit := do
  let g ← Act.get
  match g.layers.find? l with
  | none => return ()
  | some x => removeStaleEdgesT x.edges.stale

/-- dynamic_scene_graph.cpp:780-784, one iteration over the dynamic layers. -/
def removeStaleDynT (e : LayerId × Prefix) : Act Graph Unit := do
  let g ← Act.get
  match g.dynLayer? e.1 e.2 with
  | none => return ()
  | some x => removeStaleEdgesT x.edges.stale

/-- dynamic_scene_graph.cpp:776-788 `removeAllStaleEdges`. -/
def removeAllStaleEdgesT : Act Graph Unit := do
  let g ← Act.get
  Act.each removeStaleStaticT g.layers.keys
  let g ← Act.get
  Act.each removeStaleDynT (g.dyns.toList.flatMap (fun e => e.2.keys.map (fun p => (e.1, p))))
  let g ← Act.get
  removeStaleEdgesT g.inter.stale
  let g ← Act.get
  removeStaleEdgesT g.dynInter.stale

/-- Answer of a mutator that returns a `bool`. -/
def ansT (m : Act Graph Bool) : Act Graph Out := do
  let b ← m
  return .bool b

/-- A call that cannot fault (no `at`, no dereference of a stored pointer in its body). -/
def totalT {α : Type} (f : Graph → Graph × α) : Act Graph α := fun g => .ok (f g).2 (f g).1

/-- One public call, with the state it leaves behind. -/
def stepT : Op → Act Graph Out
  | .clear => totalT (fun g => (g.clear, .unit))
  | .reset ids => totalT (fun g => (g.reset ids, .unit))
  | .createDyn l p => ansT (totalT (fun g => g.createDynamicLayer l p))
  | .emplaceNode l n a => ansT (totalT (fun g => g.emplaceNode l n (some a)))
  | .insertNode l n stamp a => ansT (totalT (fun g => g.insertNode (some (n, l, stamp, some a))))
  | .emplaceDyn l p t a link => ansT (emplaceDynT l p t (some a) link)
  | .emplacePrev l n t a => ansT (emplacePrevT l n t (some a))
  | .addOrUpdateNode l n a stamp => ansT (addOrUpdateNodeT l n (some a) stamp)
  | .setNodeAttrs n a => ansT (setNodeAttributesT n (some a))
  | .insertEdge s t info => ansT (insertEdgeT s t info)
  | .insertParentEdge s t info => ansT (insertParentEdgeT s t info)
  | .addOrUpdateEdge s t info => ansT (addOrUpdateEdgeT s t info)
  | .setEdgeAttrs s t a => ansT (setEdgeAttributesT s t (some a))
  | .findEdge s t => findEdgeT s t >>= fun e => pure (.edge e)
  | .removeNode n => ansT (removeNodeT n)
  | .removeEdge s t => ansT (removeEdgeT s t)
  | .mergeNodes f t => ansT (mergeNodesT f t)
  | .setMesh m => totalT (fun g => (g.setMesh m, .unit))
  | .markStale => totalT (fun g => (g.markEdgesAsStale, .unit))
  | .sweep => removeAllStaleEdgesT >>= fun _ => pure .unit
  | .newNodes c => totalT (fun g => ((g.getNewNodes c).1, .nodes (g.getNewNodes c).2))
  | .removedNodes c => totalT (fun g => ((g.getRemovedNodes c).1, .nodes (g.getRemovedNodes c).2))
  | .newEdges c => totalT (fun g => ((g.getNewEdges c).1, .keys (g.getNewEdges c).2))
  | .removedEdges c => totalT (fun g => ((g.getRemovedEdges c).1, .keys (g.getRemovedEdges c).2))

/-- A program that catches every exception and goes on with the graph as the throwing call left it. Each
answer is a value or the exception. -/
def runCatching (g : Graph) : List Op → Option (Graph × List (Except Exc Out))
  | [] => some (g, [])
  | op :: ops =>
    match stepT op g with
    | .ok a g' => (runCatching g' ops).map (fun r => (r.1, .ok a :: r.2))
    | .throw e g' => (runCatching g' ops).map (fun r => (r.1, .error e :: r.2))
    | .ub => none
end Graph
end Verif
