import Verif.Model.GraphIO
import Verif.Model.Through
/-!
# Applying a message to a graph in place (src/serialization/graph_binary_serialization.cpp:64-245)

`Rd.updateGraphFrom` gives the graph after a message that was read to its end. Here the graph is updated statement by statement, so that
it is known what a message leaves behind that turns out to be damaged half-way.
-/

namespace Verif

/-- A reader that writes to a graph: from the buffer, a position and a graph to a value, a position and a graph. -/
def Upd (α : Type) := Env → Nat → Act Graph (α × Nat)

namespace Upd
variable {α β : Type}
def pure (a : α) : Upd α := fun _ p => Pure.pure (a, p)
def bind (m : Upd α) (k : α → Upd β) : Upd β := fun E p => m E p >>= fun x => k x.1 E x.2
instance : Monad Upd where
  pure := Upd.pure
  bind := Upd.bind
/-- Read from the buffer only. -/
def rd (r : Rd α) : Upd α := fun E p => Act.read (fun _ => r E p)
/-- Write to the graph only. -/
def act (m : Act Graph α) : Upd α := fun _ p => m >>= fun a => Pure.pure (a, p)

/-- A loop `while (!isDynamicArrayEnd()) body`; running out of fuel is reported as undefined. -/
def dynLoop {S : Type} (body : S → Upd S) : Nat → S → Upd S
  | 0, _ => rd (Rd.lift .ub)
  | n + 1, s => do
    let e ← rd Rd.dynEnd
    if e = true then return s
    else do
      let s ← body s
      dynLoop body n s

/-- `checkDynamicArray(); while (!isDynamicArrayEnd()) body` -/
def dynArr {S : Type} (body : S → Upd S) (s : S) : Upd S := do
  rd Rd.dynStart
  let E ← rd Rd.env
  dynLoop body (E.buf.length + 1) s

/-- graph_binary_serialization.cpp:64-82 `parseNode` and the erasure of 189-191, 195-197; the value is the set of stale nodes. -/
def parseNode (fac : OMap UInt8 NodeClass) (stale : OSet NodeId) : Upd (OSet NodeId) := do
  rd (Rd.checkArrLen 4)
  let layer ← rd Rd.u64
  let id ← rd Rd.u64
  let t ← rd (Rd.opt Rd.stamp)
  let a ← rd (Rd.nodeAttrs fac)
  match a with
  | none => return stale.erase id
  | some a => do
    let _ ← act (Graph.addOrUpdateNodeT layer id (some a) t)
    return stale.erase id

/-- graph_binary_serialization.cpp:84-96 `parseEdge` -/
def parseEdge (fac : OMap UInt8 EdgeClass) (_ : Unit) : Upd Unit := do
  rd (Rd.checkArrLen 3)
  let s ← rd Rd.u64
  let t ← rd Rd.u64
  let a ← rd (Rd.edgeAttrs fac)
  let _ ← act (Graph.addOrUpdateEdgeT s t a)
  return ()

/-- graph_binary_serialization.cpp:209-216: an optional mesh. -/
def meshPart : Upd Unit := do
  let b ← rd Rd.checkIfTrue
  if b = true then do
    let m ← rd Rd.mesh
    act (Graph.modify (fun g => g.setMesh (some m)))
  else return ()

/-- graph_binary_serialization.cpp:172-217 `updateGraph` -/
def updateGraph (R : Registry NodeClass) (Q : Registry EdgeClass) (order : List NodeId → List NodeId) : Upd Unit := do
  rd Rd.meshLayer
  let nf ← rd (Rd.loadFactory R)
  let ef ← rd (Rd.loadFactory Q)
  let g ← act Act.get
  let stale ← dynArr (parseNode nf) (g.lookup.map (fun _ _ => ()))
  let stale ← dynArr (parseNode nf) stale
  act (Act.each (fun n => Graph.removeNodeT n >>= fun _ => (Pure.pure () : Act Graph Unit)) (order stale.keys))
  act (Graph.modify (fun g => g.markEdgesAsStale))
  dynArr (parseEdge ef) ()
  act Graph.removeAllStaleEdgesT
  meshPart

/-- graph_binary_serialization.cpp:233-245 `updateGraph(graph, buffer, length)` -/
def updateGraphFrom (R : Registry NodeClass) (Q : Registry EdgeClass) (order : List NodeId → List NodeId) : Upd Unit := do
  let ids ← rd (Rd.vec Rd.u64)
  act (Graph.modify (fun g => if g.layerIds ≠ ids then g.reset ids else g))
  updateGraph R Q order
end Upd

/-- The bytes of a message. -/
abbrev Message := { b : List UInt8 // b.length < 2 ^ 63 }

/-- What a receiving program does next: it calls the graph, or applies a message to it. -/
inductive Event where
  | call (op : Op)
  | message (m : Message)

/-- How a program is doing. -/
inductive Running where
  | up (g : Graph)
  | down      -- an assertion has failed and ended the process
  | corrupt   -- undefined behaviour

/-- One event; every exception is caught and the program goes on with the graph as it was left. -/
def Graph.serve1 (P : Prog) (v : Version) (g : Graph) : Event → Running
  | .call op =>
    match stepT op g with
    | .ok _ g' => .up g'
    | .throw _ g' => .up g'
    | .ub => .corrupt
  | .message m =>
    match Upd.updateGraphFrom P.R P.Q P.order (P.env m.1 m.2 v) 0 g with
    | .ok _ g' => .up g'
    | .throw .abort _ => .down
    | .throw _ g' => .up g'
    | .ub => .corrupt

/-- A receiving program that catches every exception. -/
def Graph.serve (P : Prog) (v : Version) (g : Graph) : List Event → Running
  | [] => .up g
  | e :: es =>
    match g.serve1 P v e with
    | .up g' => g'.serve P v es
    | r => r
end Verif
