import Verif.Model.GraphIO
import Verif.Model.Json
import Verif.Model.Text
/-!
# Saving to and loading from disk (src/dynamic_scene_graph.cpp, src/serialization/file_io.cpp, src/serialization/mesh_serialization.cpp)

The disk holds regular files only, named by path. Nothing in the code asks an output stream whether it could be opened or whether all bytes
were written, so what happens to the bytes of one `std::ofstream` is a parameter, `Fate`; it also covers a process that dies while writing.
-/

namespace Verif

/-- The contents of the files, by path. -/
abbrev FileSys := Str → Option (List UInt8)

/-- What becomes of the bytes that are written to an output stream: the file could not be opened (missing directory, no permission); it was
opened, which empties it, and only the first `k` bytes arrived (full disk, crash); all bytes arrived. -/
inductive Fate
  | unopened
  | cut (k : Nat)
  | whole

/-- `std::ofstream out(p); out.write(...)` -/
def FileSys.put (d : FileSys) (p : Str) (bs : List UInt8) : Fate → FileSys
  | .unopened => d
  | .cut k => fun q => if q = p then some (bs.take k) else d q
  | .whole => fun q => if q = p then some bs else d q

/-- The JSON library: `dump` and `parse` (`none`: `parse_error`). `Json.text` says what of a tree is left in the text. -/
structure JsonLib where
  print : Json → List UInt8
  parse : List UInt8 → Option Json

/-- A program: registries and build, number conversions, JSON library. -/
structure Machine where
  P : Prog
  J : JEnv
  L : JsonLib

/-- dynamic_scene_graph.cpp:835-844 `save`, file_io.cpp:82-97 `saveDsgBinary`, 118-123 `saveDsgJson`: the disk afterwards, and how the call
ended. The JSON writer opens (and so empties) the file before it builds the text; the binary writer builds all bytes first. -/
def Graph.saveTo (H : Machine) (f : Fate) (d : FileSys) (p : Str) (g : Graph) (includeMesh : Bool) : FileSys × Res Unit :=
  match verifyFileExtension p with
  | .throw e => (d, .throw e)
  | .ub => (d, .ub)
  | .ok (q, .json) =>
    match g.writeJson H.J.toJArith H.P.R H.P.Q includeMesh with
    | .ok j => (d.put q (H.L.print j) f, .ok ())
    | .throw e => (d.put q [] f, .throw e)
    | .ub => (d.put q [] f, .ub)
  | .ok (q, _) =>
    match g.saveBinary H.P includeMesh with
    | .ok bs => (d.put q bs f, .ok ())
    | .throw e => (d, .throw e)
    | .ub => (d, .ub)

/-- What an input stream delivers: nothing if there is no such file. -/
def FileSys.get (d : FileSys) (p : Str) : List UInt8 := (d p).getD []

/-- dynamic_scene_graph.cpp:846-858 `load`, file_io.cpp:99-116 `loadDsgBinary`, 125-130 `loadDsgJson`. `std::vector` refuses more than
`2^63 - 1` bytes. -/
def Graph.loadFrom (H : Machine) (d : FileSys) (p : Str) : Res Graph :=
  if (d p).isNone then .throw .runtimeError
  else verifyFileExtension p >>= fun r =>
    match r.2 with
    | .json =>
      match H.L.parse (d.get r.1) with
      | none => .throw .json
      | some j => H.J.readGraph H.P.R H.P.Q j
    | _ => if h : (d.get r.1).length < 2 ^ 63 then Graph.loadBinary H.P (d.get r.1) h else .throw .lengthError

/-- mesh_serialization.cpp:201-205 `Mesh::serializeToBinary` after the header, as `Mesh::save` puts them together (mesh_serialization.cpp:224-231). -/
def Mesh.saveBinary (m : Mesh) : Wr := Wr.seq FileHeader.current.write (Wr.mesh m)

/-- mesh_serialization.cpp:247-261, 207-214: the binary part of `Mesh::load`. Unlike a graph, a mesh without header is refused at once, and
the version of the file does not come into force (nothing in the mesh reader depends on it). -/
def Mesh.loadBinary (P : Prog) (file : List UInt8) (h : file.length < 2 ^ 63) : Res Mesh := do
  let r ← FileHeader.read (P.env file h FileHeader.current.version) 0
  match r.1 with
  | none => .throw .runtimeError
  | some header => do
    header.checkCompatibility
    let m ← Rd.mesh (P.env (file.drop r.2) (by simp; omega) FileHeader.current.version) 0
    return m.1

/-- mesh_serialization.cpp:216-231 `Mesh::save`, 178-181 `serializeToJson`: here, too, the JSON writer opens the file first. -/
def Mesh.saveTo (H : Machine) (f : Fate) (d : FileSys) (p : Str) (m : Mesh) : FileSys × Res Unit :=
  match verifyFileExtension p with
  | .throw e => (d, .throw e)
  | .ub => (d, .ub)
  | .ok (q, .json) =>
    match (H.J.toJArith.mesh m).text with
    | .ok j => (d.put q (H.L.print j) f, .ok ())
    | .throw e => (d.put q [] f, .throw e)
    | .ub => (d.put q [] f, .ub)
  | .ok (q, _) =>
    match m.saveBinary with
    | .ok bs => (d.put q bs f, .ok ())
    | .throw e => (d, .throw e)
    | .ub => (d, .ub)

/-- mesh_serialization.cpp:234-261 `Mesh::load` -/
def Mesh.loadFrom (H : Machine) (d : FileSys) (p : Str) : Res Mesh :=
  if (d p).isNone then .throw .runtimeError
  else verifyFileExtension p >>= fun r =>
    match r.2 with
    | .json =>
      match H.L.parse (d.get r.1) with
      | none => .throw .json
      | some j => H.J.meshDoc j
    | _ => if h : (d.get r.1).length < 2 ^ 63 then Mesh.loadBinary H.P (d.get r.1) h else .throw .lengthError

end Verif
