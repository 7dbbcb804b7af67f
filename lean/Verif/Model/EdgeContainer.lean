import Verif.Model.Types
/-! # `EdgeContainer` (include/spark_dsg/edge_container.h:106-141, src/edge_container.cpp) -/

namespace Verif

/-- edge_container.h:106-141: `edges`, `edge_status` and the mutable `stale_edges`. -/
structure EdgeContainer where
  edges : OMap EdgeKey Edge := ∅
  status : OMap EdgeKey EdgeStatus := ∅
  stale : OMap EdgeKey Bool := ∅
  deriving DecidableEq

namespace EdgeContainer

/-- edge_container.cpp:46-56 `insert`: `emplace` does not overwrite an existing edge, the status is set
to NEW in any case; a null info becomes default attributes. -/
def insert (c : EdgeContainer) (s t : NodeId) (info : Option EdgeAttrs) : EdgeContainer :=
  { c with
    edges := c.edges.emplace (EdgeKey.of s t) ⟨s, t, some (info.getD {})⟩
    status := c.status.insert (EdgeKey.of s t) .new }

/-- edge_container.cpp:58-62 `remove`: `edge_status.at(key)` throws for an unknown key. -/
def remove (c : EdgeContainer) (s t : NodeId) : Res EdgeContainer := do
  let _ ← Res.at? (c.status.find? (EdgeKey.of s t))
  return { c with
    status := c.status.insert (EdgeKey.of s t) .deleted
    edges := c.edges.erase (EdgeKey.of s t) }

/-- edge_container.cpp:80-82 `contains`. -/
def contains (c : EdgeContainer) (s t : NodeId) : Bool := c.edges.contains (EdgeKey.of s t)

/-- edge_container.cpp:84 `size`. -/
def size (c : EdgeContainer) : Nat := c.edges.size

/-- edge_container.cpp:86-89 `reset`: note that `stale_edges` is kept. -/
def reset (c : EdgeContainer) : EdgeContainer := { c with edges := ∅, status := ∅ }

/-- edge_container.cpp:91-94 `getStatus`. -/
def getStatus (c : EdgeContainer) (s t : NodeId) : EdgeStatus :=
  (c.status.find? (EdgeKey.of s t)).getD .nonexistent

/-- edge_container.cpp:145-153 `find(key)`: a successful lookup clears the (mutable) stale mark. -/
def findKey (c : EdgeContainer) (k : EdgeKey) : EdgeContainer × Option Edge :=
  match c.edges.find? k with
  | none => (c, none)
  | some e => ({ c with stale := c.stale.insert k false }, some e)

/-- edge_container.cpp:96-104 `find(source, target)`. -/
def find (c : EdgeContainer) (s t : NodeId) : EdgeContainer × Option Edge := c.findKey (EdgeKey.of s t)

/-- edge_container.cpp:64-78 `rewire`. -/
def rewire (c : EdgeContainer) (s t s' t' : NodeId) : Res EdgeContainer := do
  let key := EdgeKey.of s t
  let (c, prev) := c.findKey key
  match prev with
  | none => return c
  | some e =>
    let attrs ← Res.deref e.info
    let _ ← Res.at? (c.status.find? key)
    let c := { c with status := c.status.insert key .merged }
    let c ← c.remove s t
    return c.insert s' t' (some attrs)

/-- edge_container.cpp:106-118 `getNew`. Returns the keys appended to the output vector. -/
def getNew (c : EdgeContainer) (clear : Bool) : EdgeContainer × List EdgeKey :=
  ({ c with status := if clear then c.status.map (fun _ s => if s = .new then .visible else s) else c.status },
   (c.status.toList.filter (fun e => e.2 = .new)).map Prod.fst)

/-- edge_container.cpp:120-136 `getRemoved`. -/
def getRemoved (c : EdgeContainer) (clear : Bool) : EdgeContainer × List EdgeKey :=
  ({ c with status := if clear then c.status.filter (fun _ s => s ≠ .deleted) else c.status },
   (c.status.toList.filter (fun e => e.2 = .deleted)).map Prod.fst)

/-- edge_container.cpp:138-143 `setStale`: forget old marks, mark every present edge. -/
def setStale (c : EdgeContainer) : EdgeContainer := { c with stale := c.edges.map (fun _ _ => true) }

/-- Assignment through the pointer returned by `find` (`edge->info = ...`); the edge is present. -/
def setInfo (c : EdgeContainer) (k : EdgeKey) (info : Option EdgeAttrs) : EdgeContainer :=
  match c.edges.find? k with
  | none => c
  | some e => { c with edges := c.edges.insert k { e with info := info } }

end EdgeContainer
end Verif
