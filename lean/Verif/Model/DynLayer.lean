import Verif.Model.Layer
/-! # `DynamicSceneGraphLayer` (src/dynamic_scene_graph_layer.cpp) -/

namespace Verif

/-- Uninterpreted double arithmetic used by dynamic `mergeLayer` (`Eigen::Vector3d` +, -). -/
structure FloatOps where
  zero : V3d
  add : V3d → V3d → V3d
  sub : V3d → V3d → V3d

/-- dynamic_scene_graph_layer.h:52-135. `nodes : vector<unique_ptr<Node>>` may hold null pointers. -/
structure DynLayer where
  id : LayerId
  pre : Prefix
  times : OSet Stamp := ∅
  nodes : List (Option Node) := []
  status : OMap Nat NodeStatus := ∅
  next : Nat := 0
  edges : EdgeContainer := {}
  deriving DecidableEq

namespace DynLayer

/-- `nodes_[i]`: undefined out of range; the entry may be a null pointer. -/
def slot (l : DynLayer) (i : Nat) : Res (Option Node) :=
  match l.nodes[i]? with
  | none => .ub
  | some x => .ok x

/-- `nodes_[i]->...` -/
def modIdx (l : DynLayer) (i : Nat) (f : Node → Node) : Res DynLayer := do
  let p ← l.slot i
  let x ← Res.deref p
  return { l with nodes := l.nodes.set i (some (f x)) }

/-- dynamic_scene_graph_layer.cpp:151-158 `hasNodeByIndex`: decided by the status table. -/
def hasNodeByIndex (l : DynLayer) (i : Nat) : Bool :=
  match l.status.find? i with
  | none => false
  | some s => s == .visible || s == .new

/-- dynamic_scene_graph_layer.cpp:135-141 -/
def hasNode (l : DynLayer) (n : NodeId) : Bool :=
  if !l.pre.isMatch n then false else l.hasNodeByIndex (l.pre.index n)

/-- dynamic_scene_graph_layer.cpp:143-149: `node_status_.at` throws for an unknown index. -/
def checkNode (l : DynLayer) (n : NodeId) : Res NodeStatus :=
  if !l.pre.isMatch n then .ok .nonexistent else Res.at? (l.status.find? (l.pre.index n))

/-- dynamic_scene_graph_layer.cpp:160-162 -/
def hasEdge (l : DynLayer) (s t : NodeId) : Bool := l.edges.contains s t

/-- dynamic_scene_graph_layer.cpp:169-175 `findNode`: does not check the prefix. -/
def findNode (l : DynLayer) (n : NodeId) : Option Node := (l.nodes[l.pre.index n]?).join

/-- dynamic_scene_graph_layer.cpp:181-183 -/
def findEdge (l : DynLayer) (s t : NodeId) : DynLayer × Option Edge :=
  ({ l with edges := (l.edges.find s t).1 }, (l.edges.find s t).2)

/-- dynamic_scene_graph_layer.cpp:195-217 `insertEdge`. -/
def insertEdge (l : DynLayer) (s t : NodeId) (info : Option EdgeAttrs) : Res (DynLayer × Bool) :=
  if s = t then .ok (l, false)
  else if l.hasEdge s t then .ok (l, false)
  else if !l.hasNode s || !l.hasNode t then .ok (l, false)
  else do
    let l ← l.modIdx (l.pre.index s) (fun x => { x with siblings := x.siblings.add t })
    let l ← l.modIdx (l.pre.index t) (fun x => { x with siblings := x.siblings.add s })
    return ({ l with edges := l.edges.insert s t info }, true)

/-- dynamic_scene_graph_layer.cpp:225-235 `removeEdge`. -/
def removeEdge (l : DynLayer) (s t : NodeId) : Res (DynLayer × Bool) :=
  if !l.hasEdge s t then .ok (l, false)
  else do
    let l ← l.modIdx (l.pre.index s) (fun x => { x with siblings := x.siblings.erase t })
    let l ← l.modIdx (l.pre.index t) (fun x => { x with siblings := x.siblings.erase s })
    let c ← l.edges.remove s t
    return ({ l with edges := c }, true)

/-- dynamic_scene_graph_layer.cpp:90-111 `emplaceNode`. -/
def emplaceNode (l : DynLayer) (stamp : Stamp) (attrs : Option NodeAttrs) (addEdge : Bool) :
    Res (DynLayer × Bool) :=
  if l.times.contains stamp then .ok (l, false)
  else do
    let newId := l.pre.makeId l.next
    let node : Node := { id := newId, layer := l.id, timestamp := some stamp, attrs := attrs }
    let l : DynLayer := { l with times := l.times.add stamp, nodes := l.nodes ++ [some node] }
    let l := { l with status := l.status.insert (l.nodes.length - 1) .new }
    let l ← if addEdge && decide (l.nodes.length > 1) then do
        let r ← l.insertEdge (l.pre.makeId (l.nodes.length - 2)) (l.pre.makeId (l.nodes.length - 1)) none
        pure r.1
      else pure l
    return ({ l with next := l.next + 1 }, true)

/-- dynamic_scene_graph_layer.cpp:120-126: push `n` null slots; after each push the entry of the status
table at the NEW size (one past the pushed slot) is set to DELETED, as in the code. -/
def pad (l : DynLayer) : Nat → DynLayer
  | 0 => l
  | n + 1 =>
    pad { l with nodes := l.nodes ++ [none], status := l.status.insert (l.nodes.length + 1) .deleted } n

/-- dynamic_scene_graph_layer.cpp:113-133 `emplaceNodeAtIndex`. -/
def emplaceNodeAtIndex (l : DynLayer) (stamp : Stamp) (i : Nat) (attrs : Option NodeAttrs) :
    DynLayer × Bool :=
  if l.hasNodeByIndex i then (l, false)
  else
    let l := if i ≥ l.nodes.length then l.pad (i - l.nodes.length + 1) else l
    ({ l with
        times := l.times.add stamp
        nodes := l.nodes.set i
          (some { id := l.pre.makeId i, layer := l.id, timestamp := some stamp, attrs := attrs })
        status := l.status.insert i .new }, true)

/-- dynamic_scene_graph_layer.cpp:242-270 `removeNode`. -/
def removeNode (l : DynLayer) (n : NodeId) : Res (DynLayer × Bool) :=
  if !l.hasNode n then .ok (l, false)
  else do
    let i := l.pre.index n
    let p ← Res.at? l.nodes[i]?
    let x ← Res.deref p
    let prev := n - 1
    let next := n + 1
    let hasPrev := l.hasNode prev && x.siblings.contains prev
    let hasNext := l.hasNode next && x.siblings.contains next
    let l ← if hasPrev && hasNext then do
        let r ← l.insertEdge prev next none
        pure r.1
      else pure l
    let l ← foldRes (fun l t => (l.removeEdge n t) >>= fun r => .ok r.1) l x.siblings.keys
    let l := { l with status := l.status.insert i .deleted }
    let p ← Res.at? l.nodes[i]?
    let x ← Res.deref p
    let st ← Res.deref x.timestamp
    return ({ l with times := l.times.erase st, nodes := l.nodes.set i none }, true)

/-- dynamic_scene_graph_layer.cpp:272-290 `getPosition`. -/
def getPosition (l : DynLayer) (n : NodeId) : Res V3d :=
  if !l.hasNode n then .throw .outOfRange
  else do
    let p ← Res.at? l.nodes[l.pre.index n]?
    let x ← Res.deref p
    let a ← Res.deref x.attrs
    return a.position

/-- dynamic_scene_graph_layer.cpp:292-305 -/
def getNewNodes (l : DynLayer) (clear : Bool) : DynLayer × List NodeId :=
  ({ l with status := if clear then l.status.map (fun _ s => if s = .new then .visible else s) else l.status },
   (l.status.toList.filter (fun e => e.2 = .new)).map (fun e => l.pre.makeId e.1))

/-- dynamic_scene_graph_layer.cpp:307-324 -/
def getRemovedNodes (l : DynLayer) (clear : Bool) : DynLayer × List NodeId :=
  ({ l with status := if clear then l.status.filter (fun _ s => s ≠ .deleted) else l.status },
   (l.status.toList.filter (fun e => e.2 = .deleted)).map (fun e => l.pre.makeId e.1))

/-- dynamic_scene_graph_layer.h:56 `numNodes`: the number of distinct stamps. -/
def numNodes (l : DynLayer) : Nat := l.times.size

/-- dynamic_scene_graph_layer.cpp:54-75, one iteration of `mergeLayer`'s node loop. State: the layer,
the lookup table and `last_update_delta`. -/
def mergeNodeStep (ops : FloatOps) (cfg : MergeConfig)
    (st : DynLayer × OMap NodeId LayerKey × V3d) (e : Nat × Option Node) :
    Res (DynLayer × OMap NodeId LayerKey × V3d) := do
  let (l, lookup, delta) := st
  let other ← Res.deref e.2
  if e.1 < l.next then
    let p ← l.slot e.1
    let x ← Res.deref p
    let xa ← Res.deref x.attrs
    let oa ← Res.deref other.attrs
    let delta := ops.sub xa.position oa.position
    if !cfg.updateDynamic then return (l, lookup, delta)
    else
      return ({ l with nodes := l.nodes.set e.1 (some { x with attrs := some (oa.setPosition xa.position) }) },
              lookup, delta)
  else
    let st ← match other.timestamp with
      | some t => Res.ok t
      | none => Res.throw .badOptional
    let oa ← Res.deref other.attrs
    let (l, _) ← l.emplaceNode st (some oa) false
    -- `nodes_.back()`: undefined on an empty vector, null dereference on a removed node
    let p ← Res.deref l.nodes.getLast?
    let x ← Res.deref p
    let xa ← Res.deref x.attrs
    let x' := { x with attrs := some (xa.setPosition (ops.add xa.position delta)) }
    return ({ l with nodes := l.nodes.set (l.nodes.length - 1) (some x') },
            lookup.emplace x.id (.dyn l.id l.pre), delta)

/-- dynamic_scene_graph_layer.cpp:77-85, one iteration of the edge loop. -/
def mergeEdgeStep (l : DynLayer) (e : EdgeKey × Edge) : Res DynLayer :=
  if l.hasEdge e.2.source e.2.target then .ok l
  else do
    let a ← Res.deref e.2.info
    let r ← l.insertEdge e.2.source e.2.target (some a)
    return r.1

/-- dynamic_scene_graph_layer.cpp:48-88 `mergeLayer`. -/
def mergeLayer (ops : FloatOps) (l other : DynLayer) (cfg : MergeConfig) (lookup : OMap NodeId LayerKey) :
    Res (DynLayer × OMap NodeId LayerKey) := do
  let (l, lookup, _) ← foldRes (mergeNodeStep ops cfg) (l, lookup, ops.zero) ((List.range other.nodes.length).zip other.nodes)
  let l ← foldRes mergeEdgeStep l other.edges.edges.toList
  return (l, lookup)

end DynLayer

/-- base_layer.h:60-124 `BaseLayer`: the virtual interface shared by both layer kinds. -/
inductive BaseLayer
  | static (l : Layer)
  | dyn (l : DynLayer)
  deriving DecidableEq

namespace BaseLayer
/-- virtual `hasNode`. -/
def hasNode : BaseLayer → NodeId → Bool
  | static l => l.hasNode
  | dyn l => l.hasNode
/-- virtual `findNode`. -/
def findNode : BaseLayer → NodeId → Option Node
  | static l => l.findNode
  | dyn l => l.findNode
/-- virtual `hasEdge`. -/
def hasEdge : BaseLayer → NodeId → NodeId → Bool
  | static l => l.hasEdge
  | dyn l => l.hasEdge
/-- virtual `insertEdge`. -/
def insertEdge (b : BaseLayer) (s t : NodeId) (info : Option EdgeAttrs) : Res (BaseLayer × Bool) :=
  match b with
  | static l => l.insertEdge s t info >>= fun r => .ok (static r.1, r.2)
  | dyn l => l.insertEdge s t info >>= fun r => .ok (dyn r.1, r.2)
/-- virtual `removeEdge`. -/
def removeEdge (b : BaseLayer) (s t : NodeId) : Res (BaseLayer × Bool) :=
  match b with
  | static l => l.removeEdge s t >>= fun r => .ok (static r.1, r.2)
  | dyn l => l.removeEdge s t >>= fun r => .ok (dyn r.1, r.2)
/-- virtual `removeNode`. -/
def removeNode (b : BaseLayer) (n : NodeId) : Res (BaseLayer × Bool) :=
  match b with
  | static l => l.removeNode n >>= fun r => .ok (static r.1, r.2)
  | dyn l => l.removeNode n >>= fun r => .ok (dyn r.1, r.2)
/-- virtual `checkNode`. -/
def checkNode (b : BaseLayer) (n : NodeId) : Res NodeStatus :=
  match b with
  | static l => .ok (l.checkNode n)
  | dyn l => l.checkNode n
/-- virtual `edgeContainer`. -/
def ec : BaseLayer → EdgeContainer
  | static l => l.edges
  | dyn l => l.edges
/-- Mutation through `edgeContainer()`. -/
def setEc (b : BaseLayer) (c : EdgeContainer) : BaseLayer :=
  match b with
  | static l => static { l with edges := c }
  | dyn l => dyn { l with edges := c }
/-- virtual `getPosition`-like dispatch used by the graph. -/
def getPosition (b : BaseLayer) (n : NodeId) : Res V3d :=
  match b with
  | static l => l.getPosition n
  | dyn l => l.getPosition n
/-- virtual `getNewNodes`. -/
def getNewNodes (b : BaseLayer) (clear : Bool) : BaseLayer × List NodeId :=
  match b with
  | static l => (static (l.getNewNodes clear).1, (l.getNewNodes clear).2)
  | dyn l => (dyn (l.getNewNodes clear).1, (l.getNewNodes clear).2)
/-- virtual `getRemovedNodes`. -/
def getRemovedNodes (b : BaseLayer) (clear : Bool) : BaseLayer × List NodeId :=
  match b with
  | static l => (static (l.getRemovedNodes clear).1, (l.getRemovedNodes clear).2)
  | dyn l => (dyn (l.getRemovedNodes clear).1, (l.getRemovedNodes clear).2)
end BaseLayer
end Verif
