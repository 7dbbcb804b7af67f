import Verif.Model.Types
import Verif.Base.OMap
/-! # src/mesh.cpp: editing a mesh

`std::unordered_set<size_t>` and `std::unordered_map<size_t, size_t>` are ordered maps here: the code only inserts, looks up and counts, so
the iteration order is never observed. Running out of memory is not modelled. -/

namespace Verif

/-- mesh.h:53 `Mesh::Face` -/
abbrev Face := UInt64 × UInt64 × UInt64

/-- `std::vector::resize(n, v)` -/
def resizeList {α : Type} (l : List α) (n : Nat) (v : α) : List α := l.take n ++ List.replicate (n - l.length) v

namespace Mesh

/-- mesh.cpp:41-48 constructor -/
def create (hasColors hasTimestamps hasLabels hasFirstSeen : Bool) : Mesh :=
  { hasColors := hasColors, hasTimestamps := hasTimestamps, hasLabels := hasLabels, hasFirstSeen := hasFirstSeen }

/-- mesh.cpp:78 `empty` -/
def empty (m : Mesh) : Bool := m.points.isEmpty && m.faces.isEmpty

/-- mesh.cpp:80-87 `clear` -/
def clear (m : Mesh) : Mesh := { m with points := [], colors := [], stamps := [], firstSeen := [], labels := [], faces := [] }

/-- mesh.cpp:93-107 `resizeVertices`. `Eigen::Vector3f`'s default constructor leaves the new points uninitialised: `junk` is what happens to be
there. -/
def resizeVertices (m : Mesh) (size : UInt64) (junk : V3f) : Mesh :=
  { m with
    points := resizeList m.points size.toNat junk
    colors := if m.hasColors then resizeList m.colors size.toNat {} else m.colors
    stamps := if m.hasTimestamps then resizeList m.stamps size.toNat 0 else m.stamps
    labels := if m.hasLabels then resizeList m.labels size.toNat 0 else m.labels
    firstSeen := if m.hasFirstSeen then resizeList m.firstSeen size.toNat 0 else m.firstSeen }

/-- mesh.cpp:109 `resizeFaces`; new faces are value-initialised. -/
def resizeFaces (m : Mesh) (size : UInt64) : Mesh := { m with faces := resizeList m.faces size.toNat (0, 0, 0) }

/-- mesh.cpp:113 -/
def pos (m : Mesh) (i : UInt64) : Res V3f := Res.at? m.points[i.toNat]?
/-- mesh.cpp:117 -/
def color (m : Mesh) (i : UInt64) : Res Color := Res.at? m.colors[i.toNat]?
/-- mesh.cpp:121 -/
def timestamp (m : Mesh) (i : UInt64) : Res UInt64 := Res.at? m.stamps[i.toNat]?
/-- mesh.cpp:127-129 -/
def firstSeenTimestamp (m : Mesh) (i : UInt64) : Res UInt64 := Res.at? m.firstSeen[i.toNat]?
/-- mesh.cpp:135 -/
def label (m : Mesh) (i : UInt64) : Res UInt32 := Res.at? m.labels[i.toNat]?
/-- mesh.cpp:139-141 -/
def face (m : Mesh) (i : UInt64) : Res Face := Res.at? m.faces[i.toNat]?

/-- `v.at(i) = x` -/
def putAt {α : Type} (l : List α) (i : UInt64) (x : α) : Res (List α) := if i.toNat < l.length then .ok (l.set i.toNat x) else .throw .outOfRange

/-- mesh.cpp:115 -/
def setPos (m : Mesh) (i : UInt64) (x : V3f) : Res Mesh := putAt m.points i x >>= fun l => .ok { m with points := l }
/-- mesh.cpp:119 -/
def setColor (m : Mesh) (i : UInt64) (x : Color) : Res Mesh := putAt m.colors i x >>= fun l => .ok { m with colors := l }
/-- mesh.cpp:123-125 -/
def setTimestamp (m : Mesh) (i : UInt64) (x : UInt64) : Res Mesh := putAt m.stamps i x >>= fun l => .ok { m with stamps := l }
/-- mesh.cpp:131-133 -/
def setFirstSeenTimestamp (m : Mesh) (i : UInt64) (x : UInt64) : Res Mesh := putAt m.firstSeen i x >>= fun l => .ok { m with firstSeen := l }
/-- mesh.cpp:137 -/
def setLabel (m : Mesh) (i : UInt64) (x : UInt32) : Res Mesh := putAt m.labels i x >>= fun l => .ok { m with labels := l }
/-- mesh.cpp:141: writing through the reference returned by `face(i)` -/
def setFace (m : Mesh) (i : UInt64) (x : Face) : Res Mesh := putAt m.faces i x >>= fun l => .ok { m with faces := l }

/-- mesh.cpp:245-249 `transform`; `f` is the transformation of one point. -/
def transform (m : Mesh) (f : V3f → V3f) : Mesh := { m with points := m.points.map f }

/-- mesh.cpp:111 `clone` -/
def clone (m : Mesh) : Mesh := m

/-! ### eraseVertices -/

/-- mesh.cpp:144-152, 170: the local variables of `eraseVertices`. -/
structure Kept where
  oldToNew : OMap UInt64 UInt64 := ∅
  points : List V3f := []
  colors : List Color := []
  stamps : List UInt64 := []
  firstSeen : List UInt64 := []
  labels : List UInt32 := []
  next : UInt64 := 0

/-- `if (flag) new.push_back(old[i]);` with an unchecked access -/
def pushIf {α : Type} (flag : Bool) (new old : List α) (i : Nat) : Res (List α) :=
  if flag then Res.deref old[i]? >>= fun x => .ok (new ++ [x]) else .ok new

/-- mesh.cpp:171-189: one round of the copying loop. -/
def keepVertex (m : Mesh) (indices : OSet UInt64) (k : Kept) (i : Nat) : Res Kept :=
  if indices.contains (UInt64.ofNat i) then .ok k
  else do
    let points ← pushIf true k.points m.points i
    let colors ← pushIf m.hasColors k.colors m.colors i
    let stamps ← pushIf m.hasTimestamps k.stamps m.stamps i
    let labels ← pushIf m.hasLabels k.labels m.labels i
    let firstSeen ← pushIf m.hasFirstSeen k.firstSeen m.firstSeen i
    .ok { oldToNew := k.oldToNew.insert (UInt64.ofNat i) k.next, points, colors, stamps, firstSeen, labels, next := k.next + 1 }

/-- mesh.cpp:200-208: re-indexing one face; `none`: the face is to be erased. -/
def reindex (oldToNew : OMap UInt64 UInt64) (f : Face) : Option Face :=
  match oldToNew.find? f.1 with
  | none => none
  | some a =>
    match oldToNew.find? f.2.1 with
    | none => none
    | some b =>
      match oldToNew.find? f.2.2 with
      | none => none
      | some c => some (a, b, c)

/-- mesh.cpp:199-214: the loop over the faces. `erase` moves the later faces up and returns the position of the next one. -/
def reindexFaces (oldToNew : OMap UInt64 UInt64) : List Face → List Face
  | [] => []
  | f :: fs =>
    match reindex oldToNew f with
    | none => reindexFaces oldToNew fs
    | some f' => f' :: reindexFaces oldToNew fs

/-- mesh.cpp:143-215 `eraseVertices`. With more indices than vertices, `numVertices() - indices.size()` wraps around and `reserve` throws
`length_error`. -/
def eraseVertices (m : Mesh) (indices : OSet UInt64) : Res Mesh :=
  if m.points.length < indices.size then .throw .lengthError
  else foldRes (m.keepVertex indices) {} (List.range m.points.length) >>= fun k =>
    .ok { m with points := k.points, colors := k.colors, stamps := k.stamps, labels := k.labels, firstSeen := k.firstSeen,
                 faces := reindexFaces k.oldToNew m.faces }

/-- mesh.cpp:220-226: the faces that stay; `i` is the index of the first one in the list. -/
def keepFaces (indices : OSet UInt64) : Nat → List Face → List Face
  | _, [] => []
  | i, f :: fs => if indices.contains (UInt64.ofNat i) then keepFaces indices (i + 1) fs else f :: keepFaces indices (i + 1) fs

/-- mesh.cpp:232-241: the vertices that no face uses. -/
def unusedVertices (n : Nat) (faces : List Face) : OSet UInt64 :=
  faces.foldl (fun s f => ((s.erase f.1).erase f.2.1).erase f.2.2) ((List.range n).foldl (fun s i => s.add (UInt64.ofNat i)) ∅)

/-- mesh.cpp:217-243 `eraseFaces` -/
def eraseFaces (m : Mesh) (indices : OSet UInt64) (updateVertices : Bool) : Res Mesh :=
  if m.faces.length < indices.size then .throw .lengthError
  else
    let m := { m with faces := keepFaces indices 0 m.faces }
    if updateVertices then m.eraseVertices (unusedVertices m.points.length m.faces) else .ok m

/-! ### Sequences of calls -/

/-- The calls that change a mesh. -/
inductive Call
  | clear
  | resizeVertices (size : UInt64) (junk : V3f)
  | resizeFaces (size : UInt64)
  | setPos (i : UInt64) (x : V3f)
  | setColor (i : UInt64) (x : Color)
  | setTimestamp (i : UInt64) (x : UInt64)
  | setFirstSeenTimestamp (i : UInt64) (x : UInt64)
  | setLabel (i : UInt64) (x : UInt32)
  | setFace (i : UInt64) (x : Face)
  | transform (f : V3f → V3f)
  | eraseVertices (indices : OSet UInt64)
  | eraseFaces (indices : OSet UInt64) (updateVertices : Bool)
  | clone

/-- One call. -/
def step (m : Mesh) : Call → Res Mesh
  | .clear => .ok m.clear
  | .resizeVertices n j => .ok (m.resizeVertices n j)
  | .resizeFaces n => .ok (m.resizeFaces n)
  | .setPos i x => m.setPos i x
  | .setColor i x => m.setColor i x
  | .setTimestamp i x => m.setTimestamp i x
  | .setFirstSeenTimestamp i x => m.setFirstSeenTimestamp i x
  | .setLabel i x => m.setLabel i x
  | .setFace i x => m.setFace i x
  | .transform f => .ok (m.transform f)
  | .eraseVertices s => m.eraseVertices s
  | .eraseFaces s u => m.eraseFaces s u
  | .clone => .ok m.clone

/-- A sequence of calls. An exception leaves the mesh as it was (each throwing call throws before its first change) and the program goes on
with the next call. -/
def run (m : Mesh) : List Call → Res Mesh
  | [] => .ok m
  | c :: cs =>
    match m.step c with
    | .ok m' => m'.run cs
    | .throw _ => m.run cs
    | .ub => .ub

end Mesh
end Verif
