import Verif.Model.Types
/-!
# What a scene graph is, to its user

A finite map of nodes, a finite map of undirected edges, the list of static layers, one counter pair
per dynamic layer, the marks left by `markEdgesAsStale`, and the mesh. No lookup table, no adjacency
sets, no per-layer stores, no status tables. Each operation is defined directly on these maps. This file
does not import the model of the code.
-/

namespace Verif

/-- `n` is one of the endpoints of the unordered pair. -/
def EdgeKey.has (k : EdgeKey) (n : NodeId) : Bool := k.k1 == n || k.k2 == n
/-- The other endpoint. -/
def EdgeKey.other (k : EdgeKey) (n : NodeId) : NodeId := if k.k1 = n then k.k2 else k.k1

/-- A prefix given by a single character (its 24-bit index part is zero). -/
def Prefix.plain (p : Prefix) : Bool := p.toNat % 2 ^ 24 == 0

/-- Lexicographic order on (layer, prefix) pairs. -/
instance : OKey (LayerId × Prefix) where
  lt a b := if a.1 = b.1 then decide (a.2 < b.2) else decide (a.1 < b.1)
  irrefl a := by simp
  trans := by
    intro a b c h1 h2
    split at h1 <;> split at h2 <;> split <;>
      simp_all [UInt64.lt_iff_toNat_lt, UInt32.lt_iff_toNat_lt, ← UInt64.toNat_inj] <;> omega
  tri := by
    intro a b h1 h2
    obtain ⟨a1, a2⟩ := a
    obtain ⟨b1, b2⟩ := b
    split at h1 <;> split at h2 <;>
      simp_all [UInt64.le_iff_toNat_le, UInt32.le_iff_toNat_le, ← UInt64.toNat_inj, ← UInt32.toNat_inj] <;> omega

/-- What is known about a node: its layer, its stamp (dynamic nodes), its attributes. -/
structure NodeInfo where
  key : LayerKey
  stamp : Option Stamp
  attrs : NodeAttrs
  deriving DecidableEq

/-- What is known about an edge: orientation and attributes. -/
structure EdgeInfo where
  src : NodeId
  tgt : NodeId
  attrs : EdgeAttrs
  deriving DecidableEq

/-- A dynamic layer: the index the next appended node gets, and one past the highest index ever used. -/
structure DynInfo where
  next : Nat := 0
  top : Nat := 0
  deriving DecidableEq

/-- Where an edge between nodes of two layers lives: inside a layer, or between layers (with at least one
of them dynamic, or none). Only used to say when a lookup clears a stale mark. -/
inductive Place
  | within (k : LayerKey)
  | across (dynamic : Bool)
  deriving DecidableEq

/-- Place of an edge between nodes in layers `ks` and `kt`. -/
def place (ks kt : LayerKey) : Place := if ks = kt then .within ks else .across (ks.dynamic || kt.dynamic)

/-- The abstract scene graph. -/
structure Spec where
  layerIds : List LayerId
  dyn : OMap (LayerId × Prefix) DynInfo := ∅
  nodes : OMap NodeId NodeInfo := ∅
  edges : OMap EdgeKey EdgeInfo := ∅
  /-- edges marked stale, with the place they had when marked -/
  marks : OMap EdgeKey Place := ∅
  mesh : Option Mesh := none
  deriving DecidableEq

namespace Spec

/-- layer of a node -/
def key? (σ : Spec) (n : NodeId) : Option LayerKey := (σ.nodes.find? n).map (·.key)
/-- the edge between two nodes -/
def edge? (σ : Spec) (a b : NodeId) : Option EdgeInfo := σ.edges.find? (EdgeKey.of a b)
/-- there is an edge between two nodes -/
def hasEdge (σ : Spec) (a b : NodeId) : Bool := σ.edges.contains (EdgeKey.of a b)
/-- place of the pair, when both nodes exist -/
def placeOf (σ : Spec) (k : EdgeKey) : Option Place :=
  match σ.key? k.k1, σ.key? k.k2 with
  | some a, some b => some (place a b)
  | _, _ => none

/-- neighbours of `n` whose layer satisfies `P` -/
def nbrs (σ : Spec) (n : NodeId) (P : LayerKey → Bool) : OSet NodeId :=
  (σ.nodes.filter (fun m i => P i.key && σ.hasEdge n m)).map (fun _ _ => ())
/-- siblings, children and parents of a node in layer `k` -/
def siblings (σ : Spec) (n : NodeId) (k : LayerKey) : OSet NodeId := σ.nbrs n (fun k' => k'.layer == k.layer)
def children (σ : Spec) (n : NodeId) (k : LayerKey) : OSet NodeId := σ.nbrs n (fun k' => decide (k'.layer < k.layer))
def parents (σ : Spec) (n : NodeId) (k : LayerKey) : OSet NodeId := σ.nbrs n (fun k' => decide (k.layer < k'.layer))

/-- a stamp already used by a live node of a dynamic layer -/
def hasStamp (σ : Spec) (k : LayerKey) (t : Stamp) : Bool :=
  σ.nodes.toList.any (fun e => e.2.key == k && e.2.stamp == some t)

/-! ## Operations -/

/-- add a node (id known to be unused) -/
def addNode (σ : Spec) (n : NodeId) (i : NodeInfo) : Spec := { σ with nodes := σ.nodes.insert n i }
/-- add or replace an edge -/
def addEdge (σ : Spec) (s t : NodeId) (a : EdgeAttrs) : Spec :=
  { σ with edges := σ.edges.insert (EdgeKey.of s t) ⟨s, t, a⟩ }
/-- remove one edge -/
def eraseEdge (σ : Spec) (k : EdgeKey) : Spec := { σ with edges := σ.edges.erase k }
/-- a successful lookup of an edge clears its stale mark (if it is still where it was marked) -/
def touch (σ : Spec) (k : EdgeKey) : Spec :=
  if σ.edges.contains k && decide (σ.marks.find? k = σ.placeOf k) then { σ with marks := σ.marks.erase k } else σ

def clear (σ : Spec) : Spec :=
  { layerIds := σ.layerIds
    marks := σ.marks.filter (fun _ p => match p with | .within _ => false | .across _ => true) }
def reset (σ : Spec) (ids : List LayerId) : Spec := clear { σ with layerIds := ids }

def createDyn (σ : Spec) (l : LayerId) (p : Prefix) : Spec × Bool :=
  if σ.dyn.contains (l, p) then (σ, false) else ({ σ with dyn := σ.dyn.insert (l, p) {} }, true)

/-- add a static node -/
def emplaceNode (σ : Spec) (l : LayerId) (n : NodeId) (stamp : Option Stamp) (a : NodeAttrs) : Spec × Bool :=
  if σ.nodes.contains n then (σ, false)
  else if !σ.layerIds.contains l then (σ, false)
  else (σ.addNode n ⟨.static l, stamp, a⟩, true)

/-- the counters of a dynamic layer, zero if it does not exist yet -/
def dynInfo (σ : Spec) (l : LayerId) (p : Prefix) : DynInfo := (σ.dyn.find? (l, p)).getD {}

/-- append a node to a dynamic layer, linking it to its predecessor if requested and alive -/
def emplaceDyn (σ : Spec) (l : LayerId) (p : Prefix) (t : Stamp) (a : NodeAttrs) (link : Bool) : Spec × Bool :=
  let d := σ.dynInfo l p
  let n := p.makeId d.next
  if σ.nodes.contains n then (σ, false)
  else if σ.hasStamp (.dyn l p) t then (σ, false)
  else
    let σ' := { σ with dyn := σ.dyn.insert (l, p) ⟨d.next + 1, d.top + 1⟩ }.addNode n ⟨.dyn l p, some t, a⟩
    let prev := p.makeId (d.next - 1)
    if link && decide (0 < d.next) && decide (σ.key? prev = some (.dyn l p)) then (σ'.addEdge prev n {}, true)
    else (σ', true)

/-- put a node at the index encoded in its id -/
def emplacePrev (σ : Spec) (l : LayerId) (n : NodeId) (t : Stamp) (a : NodeAttrs) : Spec × Bool :=
  if σ.nodes.contains n then (σ, false)
  else
    let p := Prefix.fromId n
    let d := σ.dynInfo l p
    ({ σ with dyn := σ.dyn.insert (l, p) ⟨d.next, max d.top (p.index n + 1)⟩ }.addNode n ⟨.dyn l p, some t, a⟩, true)

def setNodeAttrs (σ : Spec) (n : NodeId) (a : NodeAttrs) : Spec × Bool :=
  match σ.nodes.find? n with
  | none => (σ, false)
  | some i => ({ σ with nodes := σ.nodes.insert n { i with attrs := a } }, true)

/-- update the attributes of a known node (whatever layer is named), else add it -/
def addOrUpdateNode (σ : Spec) (l : LayerId) (n : NodeId) (a : NodeAttrs) (stamp : Option Stamp) : Spec × Bool :=
  if !σ.layerIds.contains l then (σ, false)
  else if σ.nodes.contains n then σ.setNodeAttrs n a
  else
    match stamp with
    | some t => σ.emplacePrev l n t a
    | none => σ.emplaceNode l n none a

def insertEdge (σ : Spec) (s t : NodeId) (info : Option EdgeAttrs) : Spec × Bool :=
  if s = t then (σ, false)
  else if !σ.nodes.contains s || !σ.nodes.contains t then (σ, false)
  else if σ.hasEdge s t then (σ, false)
  else (σ.addEdge s t (info.getD {}), true)

/-- the edge `k` links `c` to a node in a higher layer -/
def isParentEdge (σ : Spec) (c : NodeId) (k : EdgeKey) : Bool :=
  k.has c &&
  match σ.key? c, σ.key? (k.other c) with
  | some kc, some ko => decide (kc.layer < ko.layer)
  | _, _ => false

/-- remove all edges from `c` to parents -/
def dropParents (σ : Spec) (c : NodeId) : Spec :=
  { σ with edges := σ.edges.filter (fun k _ => !σ.isParentEdge c k) }

/-- insert an edge after dropping the parents of the lower endpoint (of the source, if equal height) -/
def insertParentEdge (σ : Spec) (s t : NodeId) (info : Option EdgeAttrs) : Spec × Bool :=
  match σ.key? s, σ.key? t with
  | some ks, some kt =>
    if σ.hasEdge s t then (σ, false)
    else
      let child := if kt.layer < ks.layer then t else s
      ((σ.dropParents child).addEdge s t (info.getD {}), true)
  | _, _ => (σ, false)

def setEdgeAttrs (σ : Spec) (s t : NodeId) (a : EdgeAttrs) : Spec × Bool :=
  match σ.edge? s t with
  | none => (σ, false)
  | some e => ({ σ.touch (EdgeKey.of s t) with edges := σ.edges.insert (EdgeKey.of s t) { e with attrs := a } }, true)

def addOrUpdateEdge (σ : Spec) (s t : NodeId) (info : Option EdgeAttrs) : Spec × Bool :=
  if σ.hasEdge s t then σ.setEdgeAttrs s t (info.getD {}) else σ.insertEdge s t info

def findEdge (σ : Spec) (s t : NodeId) : Spec × Option EdgeInfo := (σ.touch (EdgeKey.of s t), σ.edge? s t)

def removeEdge (σ : Spec) (s t : NodeId) : Spec × Bool :=
  if σ.hasEdge s t then (σ.eraseEdge (EdgeKey.of s t), true) else (σ, false)

/-- a dynamic node linked to both neighbours in time: they get linked to each other (unless they are) -/
def bridge (σ : Spec) (n : NodeId) : Spec :=
  match σ.key? n with
  | some (.dyn l p) =>
    if σ.key? (n - 1) = some (.dyn l p) ∧ σ.key? (n + 1) = some (.dyn l p) ∧
        σ.hasEdge n (n - 1) = true ∧ σ.hasEdge n (n + 1) = true ∧ σ.hasEdge (n - 1) (n + 1) = false then
      σ.addEdge (n - 1) (n + 1) {}
    else σ
  | _ => σ

/-- forget a node and all its edges -/
def dropNode (σ : Spec) (n : NodeId) : Spec :=
  { σ with nodes := σ.nodes.erase n, edges := σ.edges.filter (fun k _ => !k.has n) }

def removeNode (σ : Spec) (n : NodeId) : Spec × Bool :=
  if σ.nodes.contains n then ((σ.bridge n).dropNode n, true) else (σ, false)

/-- edges after merging `f` into `t`: edges of `f` go away; each of them to a third node `x` is offered to
`t` (an edge `t`–`x` that exists stays) -/
def mergedEdges (σ : Spec) (f t : NodeId) : OMap EdgeKey EdgeInfo :=
  (σ.edges.toList.filter (fun e => e.1.has f && e.1.other f != t)).foldl
    (fun m e => m.emplace (EdgeKey.of t (e.1.other f)) ⟨t, e.1.other f, e.2.attrs⟩)
    (σ.edges.filter (fun k _ => !k.has f))

/-- marks after merging: moving an edge looks it up first, which clears its mark -/
def mergedMarks (σ : Spec) (f t : NodeId) : OMap EdgeKey Place :=
  σ.marks.filter (fun k p =>
    !(k.has f && σ.edges.contains k && k.other f != t && !σ.hasEdge t (k.other f) && decide (some p = σ.placeOf k)))

def mergeNodes (σ : Spec) (f t : NodeId) : Spec × Bool :=
  if f = t then (σ, false)
  else
    match σ.key? f, σ.key? t with
    | some kf, some kt =>
      if kf ≠ kt then (σ, false)
      else ({ σ with nodes := σ.nodes.erase f, edges := σ.mergedEdges f t, marks := σ.mergedMarks f t }, true)
    | _, _ => (σ, false)

/-- mark every edge, forgetting older marks -/
def markStale (σ : Spec) : Spec :=
  { σ with marks := (σ.edges.filter (fun k _ => (σ.placeOf k).isSome)).map (fun k _ => (σ.placeOf k).getD (.across false)) }

/-- remove every marked edge (marks are kept) -/
def sweep (σ : Spec) : Spec := { σ with edges := σ.edges.filter (fun k _ => !σ.marks.contains k) }

end Spec
end Verif
