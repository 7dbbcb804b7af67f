import Verif.Model.Codec
import Verif.Model.Graph
/-!
# Graphs in the binary format (src/serialization/graph_binary_serialization.cpp, src/serialization/file_io.cpp)

`R` and `Q` are the registries of node and edge attribute classes of the running program. The iteration order of a
`std::unordered_set<NodeId>` is a parameter.
-/

namespace Verif

namespace Wr
/-- binary_serialization.cpp:77-79 `startDynamicArray`, items, `endDynamicArray`. -/
def dynArr {α : Type} (f : α → Wr) (l : List α) : Wr := seq (type Pack.arrStart) (seq (all f l) (type Pack.arrEnd))

/-- graph_binary_serialization.cpp:43-49, through the pointer of the node store (`none` is a null pointer); `attributes()` dereferences the
attribute pointer. -/
def node (R : Registry NodeClass) : Option Node → Wr
  | none => .ub
  | some x =>
    match x.attrs with
    | none => .ub
    | some a => seq (arrLen 4) (seq (u64 x.layer) (seq (u64 x.id) (seq (opt stamp x.timestamp) (nodeAttrs R a))))

/-- graph_binary_serialization.cpp:51-56 -/
def edge (Q : Registry EdgeClass) (e : Edge) : Wr :=
  match e.info with
  | none => .ub
  | some a => seq (arrLen 3) (seq (u64 e.source) (seq (u64 e.target) (edgeAttrs Q a)))
end Wr

namespace Graph
/-- The nodes of the static layers, in iteration order (graph_binary_serialization.cpp:108-113). -/
def staticNodes (g : Graph) : List Node := g.layers.toList.flatMap (fun e => e.2.nodes.toList.map Prod.snd)
/-- The node pointers of the dynamic layers, in iteration order; some may be null (graph_binary_serialization.cpp:116-123). -/
def dynSlots (g : Graph) : List (Option Node) := g.dynList.flatMap (fun d => d.nodes)
/-- The edges in the order of graph_binary_serialization.cpp:126-150. -/
def allEdges (g : Graph) : List Edge :=
  g.layers.toList.flatMap (fun e => e.2.edges.edges.toList.map Prod.snd) ++ g.dynList.flatMap (fun d => d.edges.edges.toList.map Prod.snd) ++
    g.inter.edges.toList.map Prod.snd ++ g.dynInter.edges.toList.map Prod.snd

/-- graph_binary_serialization.cpp:98-158 `writeGraph` -/
def write (R : Registry NodeClass) (Q : Registry EdgeClass) (g : Graph) (includeMesh : Bool) : Wr :=
  Wr.seq (Wr.vec Wr.u64 g.layerIds) (Wr.seq (Wr.vec Wr.str R.names) (Wr.seq (Wr.vec Wr.str Q.names)
    (Wr.seq (Wr.dynArr (Wr.node R) (g.staticNodes.map some)) (Wr.seq (Wr.dynArr (Wr.node R) g.dynSlots)
      (Wr.seq (Wr.dynArr (Wr.edge Q) g.allEdges)
        (match (if includeMesh then g.mesh else none) with
         | none => Wr.bool false
         | some m => Wr.seq (Wr.bool true) (Wr.mesh m)))))))
end Graph

namespace Rd
/-- A loop `while (!isDynamicArrayEnd()) body`; running out of fuel is reported as undefined, so that safety includes termination. -/
def dynLoop {S : Type} (body : S → Rd S) : Nat → S → Rd S
  | 0, _ => lift .ub
  | n + 1, s => do
    let e ← dynEnd
    if e = true then return s
    else do
      let s ← body s
      dynLoop body n s

/-- `checkDynamicArray(); while (!isDynamicArrayEnd()) body`; a buffer of `n` bytes holds fewer than `n` items. -/
def dynArr {S : Type} (body : S → Rd S) (s : S) : Rd S := do
  dynStart
  let E ← env
  dynLoop body (E.buf.length + 1) s

/-- graph_binary_serialization.cpp:64-82 `parseNode` and the erasure of 189-191: the state is the graph and the stale nodes. -/
def parseNode (fac : OMap UInt8 NodeClass) (s : Graph × OSet NodeId) : Rd (Graph × OSet NodeId) := do
  checkArrLen 4
  let layer ← u64
  let id ← u64
  let t ← opt stamp
  let a ← nodeAttrs fac
  match a with
  | none => return (s.1, s.2.erase id)
  | some a => do
    let r ← lift (s.1.addOrUpdateNode layer id (some a) t)
    return (r.1, s.2.erase id)

/-- graph_binary_serialization.cpp:84-96 `parseEdge` -/
def parseEdge (fac : OMap UInt8 EdgeClass) (g : Graph) : Rd Graph := do
  checkArrLen 3
  let s ← u64
  let t ← u64
  let a ← edgeAttrs fac
  let r ← lift (g.addOrUpdateEdge s t a)
  return r.1

/-- graph_binary_serialization.cpp:160-170 `loadFactory` -/
def loadFactory {γ : Type} (R : Registry γ) : Rd (OMap UInt8 γ) := do
  let E ← env
  if E.version.lt ⟨1, 0, 2⟩ = true then return factory R.names R
  else do
    let names ← vec str
    return factory names R

/-- graph_binary_serialization.cpp:173-177: old files name the mesh layer. -/
def meshLayer : Rd Unit := do
  let E ← env
  if E.version.lt ⟨1, 0, 2⟩ = true then do
    let _ ← u64
    return ()
  else return ()

/-- graph_binary_serialization.cpp:209-216: an optional mesh. -/
def meshPart (g : Graph) : Rd Graph := do
  let b ← checkIfTrue
  if b = true then do
    let m ← mesh
    return g.setMesh (some m)
  else return g

/-- graph_binary_serialization.cpp:172-217 `updateGraph` -/
def updateGraph (R : Registry NodeClass) (Q : Registry EdgeClass) (order : List NodeId → List NodeId) (g : Graph) : Rd Graph := do
  meshLayer
  let nf ← loadFactory R
  let ef ← loadFactory Q
  let s ← dynArr (parseNode nf) (g, g.lookup.map (fun _ _ => ()))
  let s ← dynArr (parseNode nf) s
  let g ← lift (foldRes (fun g n => g.removeNode n >>= fun r => .ok r.1) s.1 (order s.2.keys))
  let g ← dynArr (parseEdge ef) g.markEdgesAsStale
  let g ← lift g.removeAllStaleEdges
  meshPart g

/-- graph_binary_serialization.cpp:219-231 `readGraph` -/
def readGraph (R : Registry NodeClass) (Q : Registry EdgeClass) (order : List NodeId → List NodeId) : Rd Graph := do
  let ids ← vec u64
  let g ← lift (Graph.create ids)
  updateGraph R Q order g

/-- graph_binary_serialization.cpp:233-245 `updateGraph(graph, buffer, length)` -/
def updateGraphFrom (R : Registry NodeClass) (Q : Registry EdgeClass) (order : List NodeId → List NodeId) (g : Graph) : Rd Graph := do
  let ids ← vec u64
  updateGraph R Q order (if g.layerIds ≠ ids then g.reset ids else g)
end Rd

/-- What a program knows besides the file: its registries, its build. -/
structure Prog where
  R : Registry NodeClass
  Q : Registry EdgeClass
  order : List NodeId → List NodeId
  isoOverflow : Bool := false
  eigenChecks : Bool := false
  fsub : F32 → F32 → F32 := fun a _ => a

/-- A buffer with the given content, read under the given version. -/
def Prog.env (P : Prog) (buf : List UInt8) (h : buf.length < 2 ^ 63) (v : Version) : Env :=
  ⟨buf, h, v, P.isoOverflow, P.eigenChecks, P.fsub⟩

/-- file_io.cpp:82-97 `saveDsgBinary`: the contents of the file -/
def Graph.saveBinary (P : Prog) (g : Graph) (includeMesh : Bool) : Wr :=
  Wr.seq FileHeader.current.write (g.write P.R P.Q includeMesh)

/-- file_io.cpp:99-116 `loadDsgBinary`, from the contents of the file. The header is read under whatever version is in force; nothing in it
depends on the version. -/
def Graph.loadBinary (P : Prog) (file : List UInt8) (h : file.length < 2 ^ 63) : Res Graph := do
  let r ← FileHeader.read (P.env file h FileHeader.current.version) 0
  let header := r.1.getD FileHeader.legacy
  header.checkCompatibility
  let g ← Rd.readGraph P.R P.Q P.order (P.env (file.drop r.2) (by simp; omega) header.version) 0
  return g.1

end Verif
