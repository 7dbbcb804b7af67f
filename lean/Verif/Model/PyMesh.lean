import Verif.Model.MeshOps
import Verif.Model.Json
import Verif.Model.Color
/-!
# Meshes as arrays in Python (python/bindings/spark_dsg_bindings.cpp:60-129)

`Mesh.get_vertices`, `set_vertices`, `get_faces` and `set_faces`. An Eigen matrix is a number of rows and a list of columns; pybind11's copy between
numpy arrays and Eigen matrices is not modelled. Running out of memory is not modelled.
-/

namespace Verif

/-- `Eigen::MatrixXd`, `Eigen::MatrixXi`: every column has `rows` entries. -/
structure PyArray (α : Type) where
  rows : Nat
  columns : List (List α)
  deriving DecidableEq, Repr

/-- every column has the right number of entries -/
def PyArray.Shaped {α : Type} (A : PyArray α) : Prop := ∀ c ∈ A.columns, c.length = A.rows

namespace F64
/-- The magnitude of a finite double, in units of `2^-1074`. -/
def magVal (d : F64) : Nat :=
  let e := d.toNat / 2 ^ 52 % 2 ^ 11
  let m := d.toNat % 2 ^ 52
  if e = 0 then m else (2 ^ 52 + m) * 2 ^ (e - 1)
/-- The bits of a non-negative double of value `v` units, for a representable `v`. -/
def ofUnits (v : Nat) : F64 :=
  UInt64.ofNat (if v < 2 ^ 52 then v else (v.log2 - 52 + 1) * 2 ^ 52 + (v / 2 ^ (v.log2 - 52) - 2 ^ 52))
/-- spark_dsg_bindings.cpp:70-72 `c.r / 255.0` -/
def share (c : UInt8) : F64 := ofUnits (Dbl.near (c.toNat * 2 ^ 1074) 255)
/-- the sign bit -/
def negative (d : F64) : Bool := d.toNat / 2 ^ 63 % 2 = 1
/-- spark_dsg_bindings.cpp:94-97 `static_cast<uint8_t>(points(3, i) * 255)`: a product, rounded, then truncated; undefined if the result does not
fit, for infinities and NaN. -/
def toByte (d : F64) : Res UInt8 :=
  if !d.finite then .ub
  else
    let v := Dbl.near (d.magVal * 255) 1
    if d.negative then (if v < Dbl.one then .ok 0 else .ub)
    else if v < 256 * Dbl.one then .ok (UInt8.ofNat (v / Dbl.one)) else .ub
end F64

namespace PyMesh

/-- spark_dsg_bindings.cpp:63-79: column `i`. -/
def vertexColumn (m : Mesh) (i : Nat) : Res (List F64) := do
  let pos ← m.pos (UInt64.ofNat i)
  let xyz := [pos.x.toDouble, pos.y.toDouble, pos.z.toDouble]
  if i < m.colors.length then do
    let c ← m.color (UInt64.ofNat i)
    return xyz ++ [F64.share c.r, F64.share c.g, F64.share c.b]
  else return xyz ++ [0, 0, 0]

/-- spark_dsg_bindings.cpp:60-80 `getEigenVertices` -/
def getVertices (m : Mesh) : Res (PyArray F64) := do
  let cs ← foldRes (fun cs i => do let c ← vertexColumn m i; return cs ++ [c]) [] (List.range m.points.length)
  return ⟨6, cs⟩

/-- spark_dsg_bindings.cpp:91-99: one column; accesses to the matrix are unchecked in release builds. -/
def putVertex (A : PyArray F64) (m : Mesh) (i : Nat) : Res Mesh := do
  let c ← Res.deref A.columns[i]?
  let x ← Res.deref c[0]?
  let y ← Res.deref c[1]?
  let z ← Res.deref c[2]?
  let m ← m.setPos (UInt64.ofNat i) ⟨x.toFloat, y.toFloat, z.toFloat⟩
  if m.hasColors then do
    let r ← Res.deref c[3]?
    let g ← Res.deref c[4]?
    let b ← Res.deref c[5]?
    let r ← r.toByte
    let g ← g.toByte
    let b ← b.toByte
    m.setColor (UInt64.ofNat i) ⟨r, g, b, 255⟩
  else return m

/-- spark_dsg_bindings.cpp:82-101 `setEigenVertices`. The loop counter is an `int`: with `2^31` columns or more it overflows. `junk` is what
`resizeVertices` leaves in new points. -/
def setVertices (m : Mesh) (A : PyArray F64) (junk : V3f) : Res Mesh :=
  if A.rows ≠ 6 then .throw .invalidArgument
  else if 2 ^ 31 ≤ A.columns.length then .ub
  else foldRes (putVertex A) (m.resizeVertices (UInt64.ofNat A.columns.length) junk) (List.range A.columns.length)

/-- `int` from `size_t` (spark_dsg_bindings.cpp:108-110): the low 32 bits (modulo `2^32`, as a bit pattern). -/
def indexToInt (n : UInt64) : UInt32 := UInt32.ofNat n.toNat
/-- `static_cast<size_t>(int)` (spark_dsg_bindings.cpp:124-126): modulo `2^64`, so negative numbers become huge. -/
def intToIndex (i : UInt32) : UInt64 := if i.toNat < 2 ^ 31 then UInt64.ofNat i.toNat else UInt64.ofNat (i.toNat + (2 ^ 64 - 2 ^ 32))

/-- spark_dsg_bindings.cpp:103-113 `getEigenFaces`; entries are bit patterns of `int`. -/
def getFaces (m : Mesh) : Res (PyArray UInt32) := do
  let cs ← foldRes (fun cs i => do
    let f ← m.face (UInt64.ofNat i)
    return cs ++ [[indexToInt f.1, indexToInt f.2.1, indexToInt f.2.2]]) [] (List.range m.faces.length)
  return ⟨3, cs⟩

/-- spark_dsg_bindings.cpp:123-128: one column. -/
def putFace (A : PyArray UInt32) (m : Mesh) (i : Nat) : Res Mesh := do
  let c ← Res.deref A.columns[i]?
  let a ← Res.deref c[0]?
  let b ← Res.deref c[1]?
  let d ← Res.deref c[2]?
  m.setFace (UInt64.ofNat i) (intToIndex a, intToIndex b, intToIndex d)

/-- spark_dsg_bindings.cpp:115-129 `setEigenFaces` -/
def setFaces (m : Mesh) (A : PyArray UInt32) : Res Mesh :=
  if A.rows ≠ 3 then .throw .invalidArgument
  else if 2 ^ 31 ≤ A.columns.length then .ub
  else foldRes (putFace A) (m.resizeFaces (UInt64.ofNat A.columns.length)) (List.range A.columns.length)

end PyMesh
end Verif
