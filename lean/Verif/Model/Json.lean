import Verif.Model.GraphIO
/-!
# The JSON format (src/serialization/json_conversions.cpp, mesh_serialization.cpp, graph_json_serialization.cpp, and the headers)

A document is modelled as the tree that `nlohmann::json` holds. Printing and parsing are the library's; what they do to a tree is `Json.text`
below: numbers that are not finite become `null`, strings must be UTF-8, everything else survives. Conversions between float and double
are those of IEEE 754; other arithmetic is a parameter (`JArith`). The readers follow the code for every tree, whoever wrote it.
-/

namespace Verif

/-- `nlohmann::json`. A `std::map` from names to values is a list of pairs here; the order of the pairs is never looked at by the code
modelled, except when a node or edge list is an object. -/
inductive Json
  | null
  | bool (b : Bool)
  | uint (n : UInt64)      -- number_unsigned
  | int (n : UInt64)       -- number_integer: bit pattern of an int64
  | num (d : F64)          -- number_float
  | str (s : Str)
  | arr (l : List Json)
  | obj (fs : List (Str × Json))

/-! ## Floating-point conversions (IEEE 754, on bit patterns) -/

/-- `float` to `double` (the conversion in `json(float)`, json_conversions.h:97): exact, NaNs keep their payload -/
def F32.toDouble (x : F32) : F64 :=
  let n := x.toNat
  let s := n / 2 ^ 31 * 2 ^ 63
  let e := n / 2 ^ 23 % 2 ^ 8
  let m := n % 2 ^ 23
  UInt64.ofNat (
    if e = 255 then s + 2047 * 2 ^ 52 + m * 2 ^ 29
    else if e = 0 then (if m = 0 then s else s + (m.log2 + 874) * 2 ^ 52 + (m * 2 ^ (52 - m.log2) - 2 ^ 52))
    else s + (e + 896) * 2 ^ 52 + m * 2 ^ 29)
/-- division by `2^k`, to nearest, ties to even -/
def roundShift (n k : Nat) : Nat :=
  let q := n / 2 ^ k
  let r := n % 2 ^ k
  if 2 * r > 2 ^ k ∨ 2 * r = 2 ^ k ∧ q % 2 = 1 then q + 1 else q
/-- `double` to `float` (`get<float>`, json_conversions.h:129), rounding to nearest even -/
def F64.toFloat (d : F64) : F32 :=
  let n := d.toNat
  let s := n / 2 ^ 63 * 2 ^ 31
  let e := n / 2 ^ 52 % 2 ^ 11
  let m := n % 2 ^ 52
  UInt32.ofNat (
    if e = 2047 then (if m = 0 then s + 255 * 2 ^ 23 else s + 255 * 2 ^ 23 + 2 ^ 22 + m / 2 ^ 29 % 2 ^ 22)
    else if e = 0 then s
    else if e < 897 then s + roundShift (2 ^ 52 + m) (926 - e)
    else s + min ((e - 897) * 2 ^ 23 + roundShift (2 ^ 52 + m) 29) (255 * 2 ^ 23))

/-- What the C++ implementation does with numbers. -/
structure JArith where
  /-- uint64 or int64 (by bit pattern) to double -/
  ofUInt : UInt64 → F64
  ofInt : UInt64 → F64
  /-- uint64 or int64 to float -/
  ofUInt32 : UInt64 → F32
  ofInt32 : UInt64 → F32
  /-- a double without its fraction; none for infinities and NaN -/
  trunc : F64 → Option Int
  /-- Eigen: rotation matrix to quaternion (w, x, y, z) and back -/
  toQuat : Matrix F32 → F32 × F32 × F32 × F32
  ofQuat : F32 × F32 × F32 × F32 → Matrix F32
  fsub : F32 → F32 → F32
  /-- what the machine makes of a double that the language does not convert to an integer -/
  cast : F64 → UInt64 := fun _ => 0
/-- float to double -/
def JArith.widen (_ : JArith) : F32 → F64 := F32.toDouble
/-- double to float -/
def JArith.narrow (_ : JArith) : F64 → F32 := F64.toFloat

/-- What happens to be in the memory of members that the constructors of attribute classes leave uninitialised (node_attributes.cpp:352-359
`ellipse_centroid`, `ellipse_matrix_compress`, `ellipse_matrix_expand`; 409 `world_R_body`, `external_key`). -/
structure Garbage where
  centroid : V3d := ⟨0, 0, 0⟩
  compress : F64 × F64 × F64 × F64 := (0, 0, 0, 0)
  expand : F64 × F64 × F64 × F64 := (0, 0, 0, 0)
  body : Quat := ⟨0, 0, 0, 0⟩
  key : NodeId := 0
  deriving DecidableEq

/-- What reading depends on besides the document: number conversions, the version in force (`GlobalInfo::loadedHeader`), whether signed
overflow and the conversion of a double to an integer type that cannot hold it are undefined, whether Eigen's assertions are compiled in, and
what is in fresh memory. -/
structure JEnv extends JArith where
  version : Version
  isoOverflow : Bool := true
  eigenChecks : Bool := false
  fresh : Garbage := {}

/-- A 2×2 matrix of the given coefficients. -/
def Matrix.of4 (x : F64 × F64 × F64 × F64) : Matrix F64 := ⟨2, 2, [x.1, x.2.1, x.2.2.1, x.2.2.2]⟩

/-! ## Text -/

/-- an exponent below the maximal one -/
def F64.finite (d : F64) : Bool := (d >>> 52) &&& 0x7FF != 0x7FF
/-- the same for floats -/
def F32.finite (x : F32) : Bool := (x >>> 23) &&& 0xFF != 0xFF
/-- `std::numeric_limits<double>::quiet_NaN()` -/
def F64.nan : F64 := 0x7ff8000000000000
/-- `std::numeric_limits<float>::quiet_NaN()` -/
def F32.nan : F32 := 0x7fc00000

/-- a UTF-8 continuation byte in the given range -/
def contByte (b lo hi : UInt8) : Bool := decide (lo ≤ b) && decide (b ≤ hi)

/-- Well-formed UTF-8 (the Unicode standard's table 3-7), which `nlohmann::json::dump` insists on. -/
def utf8 : Str → Bool
  | [] => true
  | a :: l =>
    if a < 0x80 then utf8 l else
    match l with
    | [] => false
    | b :: l =>
      if 0xC2 ≤ a && a ≤ 0xDF then contByte b 0x80 0xBF && utf8 l else
      match l with
      | [] => false
      | c :: l =>
        if 0xE0 ≤ a && a ≤ 0xEF then
          contByte b (if a = 0xE0 then 0xA0 else 0x80) (if a = 0xED then 0x9F else 0xBF) && contByte c 0x80 0xBF && utf8 l else
        match l with
        | [] => false
        | d :: l =>
          (decide (0xF0 ≤ a) && decide (a ≤ 0xF4)) && contByte b (if a = 0xF0 then 0x90 else 0x80) (if a = 0xF4 then 0x8F else 0xBF) &&
            contByte c 0x80 0xBF && contByte d 0x80 0xBF && utf8 l

namespace Json

mutual
/-- `nlohmann::json::parse(j.dump())`: what is left of a tree after it was printed and parsed. `dump` throws for strings that are not UTF-8
and prints numbers that are not finite as `null`; the parser takes integers without a sign as unsigned. -/
def text : Json → Res Json
  | .null => .ok .null
  | .bool b => .ok (.bool b)
  | .uint n => .ok (.uint n)
  | .int n => .ok (if n < 0x8000000000000000 then .uint n else .int n)
  | .num d => .ok (if F64.finite d = true then .num d else .null)
  | .str s => if utf8 s = true then .ok (.str s) else .throw .json
  | .arr l => do
    let l ← textAll l
    return .arr l
  | .obj fs => do
    let fs ← textFields fs
    return .obj fs
/-- the same for the items of an array -/
def textAll : List Json → Res (List Json)
  | [] => .ok []
  | j :: l => do
    let j ← text j
    let l ← textAll l
    return j :: l
/-- the same for the fields of an object -/
def textFields : List (Str × Json) → Res (List (Str × Json))
  | [] => .ok []
  | (k, j) :: fs => if utf8 k = true then do
      let j ← text j
      let fs ← textFields fs
      return (k, j) :: fs
    else .throw .json
end

/-! ## Access (nlohmann::json) -/

/-- `contains`/`find`: nothing for a value that is not an object -/
def find (k : Str) : Json → Option Json
  | .obj fs => (fs.find? (fun e => e.1 = k)).map Prod.snd
  | _ => none
/-- `at(key)`: throws if there is no such field, or if it is no object -/
def at' (j : Json) (k : Str) : Res Json :=
  match j.find k with
  | some v => .ok v
  | none => .throw .json
/-- `at(index)`: throws if there is no such item, or if it is no array -/
def nth (j : Json) (i : Nat) : Res Json :=
  match j with
  | .arr l => match l[i]? with
    | some v => .ok v
    | none => .throw .json
  | _ => .throw .json
/-- `size()` -/
def size : Json → Nat
  | .null => 0
  | .arr l => l.length
  | .obj fs => fs.length
  | _ => 1
/-- what a range-based `for` visits -/
def items : Json → List Json
  | .null => []
  | .arr l => l
  | .obj fs => fs.map Prod.snd
  | j => [j]
/-- `is_null()` -/
def isNull : Json → Bool
  | .null => true
  | _ => false

end Json

/-- a loop that appends to a vector -/
def allRes {α β : Type} (f : α → Res β) : List α → Res (List β)
  | [] => .ok []
  | a :: l => do
    let b ← f a
    let l ← allRes f l
    return b :: l

namespace JEnv
variable (E : JEnv)

/-! ## `get<T>()` for numbers, strings and containers (nlohmann::json)

Integers are converted with `static_cast`; converting a double whose integral part does not fit is undefined. -/

/-- the conversion of a double to an integer type that cannot hold it -/
def badCast (d : F64) : Res UInt64 := if E.isoOverflow = true then .ub else .ok (E.cast d)
/-- `get<T>` for an integral type with values from `lo` to `hi`: 64 bits of the result. Booleans are accepted for all types but the
library's own 64-bit ones. -/
def integral (lo hi : Int) (bools : Bool) : Json → Res UInt64
  | .uint n => .ok n
  | .int n => .ok n
  | .num d => match E.trunc d with
    | some i => if lo ≤ i ∧ i ≤ hi then .ok (UInt64.ofBitVec (BitVec.ofInt 64 i)) else E.badCast d
    | none => E.badCast d
  | .bool b => if bools = true then .ok (if b = true then 1 else 0) else .throw .json
  | _ => .throw .json
/-- `get<uint64_t>`, `get<size_t>` -/
def u64 (j : Json) : Res UInt64 := E.integral 0 (2 ^ 64 - 1) false j
/-- `get<uint32_t>` -/
def u32 (j : Json) : Res UInt32 := do
  let n ← E.integral 0 (2 ^ 32 - 1) true j
  return n.toUInt32
/-- `get<int32_t>` (bit pattern) -/
def i32 (j : Json) : Res UInt32 := do
  let n ← E.integral (-2 ^ 31) (2 ^ 31 - 1) true j
  return n.toUInt32
/-- `get<uint8_t>` -/
def u8 (j : Json) : Res UInt8 := do
  let n ← E.integral 0 255 true j
  return n.toUInt8
/-- `get<bool>` -/
def bool : Json → Res Bool
  | .bool b => .ok b
  | _ => .throw .json
/-- `get<double>` -/
def f64 : Json → Res F64
  | .num d => .ok d
  | .uint n => .ok (E.ofUInt n)
  | .int n => .ok (E.ofInt n)
  | _ => .throw .json
/-- `get<float>` -/
def f32 : Json → Res F32
  | .num d => .ok (E.narrow d)
  | .uint n => .ok (E.ofUInt32 n)
  | .int n => .ok (E.ofInt32 n)
  | .bool b => .ok (if b = true then 0x3f800000 else 0)
  | _ => .throw .json
/-- `get<std::string>` -/
def str : Json → Res Str
  | .str s => .ok s
  | _ => .throw .json
/-- `get<std::vector<T>>`, `get<std::list<T>>` -/
def vec {α : Type} (r : Json → Res α) : Json → Res (List α)
  | .arr l => allRes r l
  | _ => .throw .json
/-- `get<std::map<std::string, T>>` -/
def map {α : Type} (r : Json → Res α) : Json → Res (OMap Str α)
  | .obj fs => foldRes (fun m e => do
      let v ← r e.2
      return m.insert e.1 v) ∅ fs
  | _ => .throw .json

/-! ## Eigen types (json_conversions.h:85-146) -/

/-- The 32-bit signed product of json_conversions.h:116. -/
def mulInt (a b : Int) : Res Int :=
  if -2 ^ 31 ≤ a * b ∧ a * b < 2 ^ 31 then .ok (a * b)
  else if E.isoOverflow = true then .ub
  else .ok ((a * b + 2 ^ 31) % 2 ^ 32 - 2 ^ 31)

/-- json_conversions.h:124-130: one coefficient; `null` is read as a quiet NaN -/
def coeff {α : Type} (elem : Json → Res α) (nan : α) (j : Json) : Res α := if j.isNull = true then .ok nan else elem j

/-- json_conversions.h:116-130, with the dimensions and the list of coefficients. A negative dimension violates Eigen's precondition: its
assertion ends the program, without it memory before the allocation may be written. -/
def matrix {α : Type} (elem : Json → Res α) (nan : α) (rows cols : Int) (vec : Json) : Res (Matrix α) := do
  let n ← E.mulInt rows cols
  if ¬ ((vec.size : Int) = n) then .throw .runtimeError
  else if rows < 0 ∨ cols < 0 then (if E.eigenChecks = true then .throw .abort else .ub)
  else do
    let data ← (match vec with
      | .arr l => allRes (coeff elem nan) l
      | .null => .ok []
      | .obj [] => .ok []
      | _ => .throw .json : Res (List α))
    return ⟨rows, cols, data⟩

/-- An `int` read from the document, as a number. -/
def dim (j : Json) : Res Int := do
  let n ← E.i32 j
  return n.toBitVec.toInt

/-- json_conversions.h:102-131, both dimensions dynamic -/
def matrixDyn {α : Type} (elem : Json → Res α) (nan : α) (j : Json) : Res (Matrix α) := do
  let r ← j.at' (Str.lit "rows")
  let rows ← E.dim r
  let c ← j.at' (Str.lit "cols")
  let cols ← E.dim c
  let d ← j.at' (Str.lit "data")
  E.matrix elem nan rows cols d
/-- json_conversions.h:102-131 with `Cols = 1` and dynamic rows -/
def column {α : Type} (elem : Json → Res α) (nan : α) (j : Json) : Res (Matrix α) := E.matrix elem nan j.size 1 j
/-- json_conversions.h:102-131, both dimensions fixed -/
def matrixFixed {α : Type} (elem : Json → Res α) (nan : α) (rows cols : Int) (j : Json) : Res (Matrix α) := E.matrix elem nan rows cols j

/-- `Eigen::Vector3d` -/
def v3d (j : Json) : Res V3d := do
  let m ← E.matrixFixed E.f64 F64.nan 3 1 j
  match m.data with
  | [x, y, z] => .ok ⟨x, y, z⟩
  | _ => .ub
/-- `Eigen::Vector3f` -/
def v3f (j : Json) : Res V3f := do
  let m ← E.matrixFixed E.f32 F32.nan 3 1 j
  match m.data with
  | [x, y, z] => .ok ⟨x, y, z⟩
  | _ => .ub
/-- json_conversions.h:140-145: `Eigen::Quaterniond` -/
def quat (j : Json) : Res Quat := do
  let w ← j.at' (Str.lit "w") >>= E.f64
  let x ← j.at' (Str.lit "x") >>= E.f64
  let y ← j.at' (Str.lit "y") >>= E.f64
  let z ← j.at' (Str.lit "z") >>= E.f64
  return ⟨w, x, y, z⟩
/-- `Eigen::Quaternionf` -/
def quatf (j : Json) : Res (F32 × F32 × F32 × F32) := do
  let w ← j.at' (Str.lit "w") >>= E.f32
  let x ← j.at' (Str.lit "x") >>= E.f32
  let y ← j.at' (Str.lit "y") >>= E.f32
  let z ← j.at' (Str.lit "z") >>= E.f32
  return (w, x, y, z)

/-! ## Members of attributes (json_conversions.cpp) -/

/-- json_conversions.h:44-50 `NLOHMANN_JSON_SERIALIZE_ENUM`: anything unknown is the first entry -/
def bboxType : Json → UInt32
  | .str s => if s = Str.lit "AABB" then 1 else if s = Str.lit "RAABB" then 3 else if s = Str.lit "OBB" then 2 else 0
  | _ => 0
/-- json_conversions.cpp:57-81 -/
def bbox (j : Json) : Res BBox := do
  let t ← j.at' (Str.lit "type")
  if bboxType t = 0 then return {}
  else do
    let d ← (if E.version.lt ⟨1, 0, 3⟩ = true then do
        let mx ← j.at' (Str.lit "max") >>= E.v3f
        let mn ← j.at' (Str.lit "min") >>= E.v3f
        return ⟨E.fsub mx.x mn.x, E.fsub mx.y mn.y, E.fsub mx.z mn.z⟩
      else do
        let d ← j.at' (Str.lit "dimensions") >>= E.v3f
        return d : Res V3f)
    let c ← j.at' (Str.lit "world_P_center") >>= E.v3f
    let q ← j.at' (Str.lit "world_R_center") >>= E.quatf
    return { type := bboxType t, dims := d, center := c, rot := E.ofQuat q }
/-- json_conversions.cpp:94-106 -/
def nvi (j : Json) : Res NearestVertexInfo := do
  let b ← j.at' (Str.lit "block")
  let b0 ← b.nth 0 >>= E.i32
  let b1 ← b.nth 1 >>= E.i32
  let b2 ← b.nth 2 >>= E.i32
  let p ← j.at' (Str.lit "voxel_pos")
  let p0 ← p.nth 0 >>= E.f64
  let p1 ← p.nth 1 >>= E.f64
  let p2 ← p.nth 2 >>= E.f64
  let v ← j.at' (Str.lit "vertex") >>= E.u64
  match j.find (Str.lit "label") with
  | none => return ⟨(b0, b1, b2), (p0, p1, p2), v, none⟩
  | some l =>
    if l.isNull = true then return ⟨(b0, b1, b2), (p0, p1, p2), v, none⟩
    else do
      let l ← E.u32 l
      return ⟨(b0, b1, b2), (p0, p1, p2), v, some l⟩
/-- json_conversions.cpp:115-136 -/
def color (j : Json) : Res Color := do
  match j with
  | .arr l => do
    let r ← j.nth 0 >>= E.u8
    let g ← j.nth 1 >>= E.u8
    let b ← j.nth 2 >>= E.u8
    if 3 < l.length then do
      let a ← j.nth 3 >>= E.u8
      return ⟨r, g, b, a⟩
    else return ⟨r, g, b, 255⟩
  | _ => do
    let r ← j.at' (Str.lit "r") >>= E.u8
    let g ← j.at' (Str.lit "g") >>= E.u8
    let b ← j.at' (Str.lit "b") >>= E.u8
    match j.find (Str.lit "a") with
    | none => return ⟨r, g, b, 255⟩
    | some a => do
      let a ← E.u8 a
      return ⟨r, g, b, a⟩
/-- `get<std::array<size_t, 3>>` -/
def face (j : Json) : Res (UInt64 × UInt64 × UInt64) := do
  let a ← j.nth 0 >>= E.u64
  let b ← j.nth 1 >>= E.u64
  let c ← j.nth 2 >>= E.u64
  return (a, b, c)

/-- A field that may be missing: the default stays (attribute_serialization.h:88-95 and the `contains` tests of the mesh). -/
def field {α : Type} (j : Json) (k : Str) (dflt : α) (r : Json → Res α) : Res α :=
  match j.find k with
  | none => .ok dflt
  | some v => r v

/-- mesh_serialization.cpp:106-133 -/
def mesh (j : Json) : Res Mesh := do
  let hc ← j.at' (Str.lit "has_colors") >>= bool
  let ht ← j.at' (Str.lit "has_timestamps") >>= bool
  let hl ← j.at' (Str.lit "has_labels") >>= bool
  let hf ← j.at' (Str.lit "has_first_seen_stamps") >>= bool
  let points ← field j (Str.lit "points") [] (vec E.v3f)
  let colors ← field j (Str.lit "colors") [] (vec E.color)
  let stamps ← field j (Str.lit "stamps") [] (vec E.u64)
  let firstSeen ← field j (Str.lit "first_seen_stamps") [] (vec E.u64)
  let labels ← field j (Str.lit "labels") [] (vec E.u32)
  let faces ← field j (Str.lit "faces") [] (vec E.face)
  return { hasColors := hc, hasTimestamps := ht, hasLabels := hl, hasFirstSeen := hf, points, colors, stamps, firstSeen, labels, faces }

/-! ## Attribute classes: `serialization_info()` of a freshly constructed object (node_attributes.cpp, edge_attributes.cpp:68-71) -/

/-- node_attributes.cpp:130-140 -/
def baseAttrs (j : Json) : Res BaseAttrs := do
  let p ← field j (Str.lit "position") ⟨0, 0, 0⟩ E.v3d
  let t ← field j (Str.lit "last_update_time_ns") 0 E.u64
  let a ← field j (Str.lit "is_active") false bool
  if E.version.lt ⟨1, 0, 4⟩ = true then return { position := p, lastUpdate := t, isActive := a }
  else do
    let q ← field j (Str.lit "is_predicted") false bool
    return { position := p, lastUpdate := t, isActive := a, isPredicted := q }
/-- node_attributes.cpp:184-192: up to version 1.0.2 the colour is a vector, which stays uninitialised if the field is missing. -/
def semanticColor (j : Json) : Res Color :=
  if E.version.le ⟨1, 0, 2⟩ = true then
    match j.find (Str.lit "color") with
    | none => .ub
    | some v => do
      let m ← E.matrixFixed E.u8 0 3 1 v
      match m.data with
      | [r, g, b] => .ok ⟨r, g, b, 255⟩
      | _ => .ub
  else field j (Str.lit "color") {} E.color
/-- node_attributes.cpp:181-196 -/
def semanticAttrs (j : Json) : Res SemanticAttrs := do
  let n ← field j (Str.lit "name") [] str
  let c ← E.semanticColor j
  let b ← field j (Str.lit "bounding_box") {} E.bbox
  let l ← field j (Str.lit "semantic_label") 0xFFFFFFFF E.u32
  let f ← field j (Str.lit "semantic_feature") ⟨0, 0, []⟩ (E.matrixDyn E.f64 F64.nan)
  return ⟨n, c, b, l, f⟩
/-- node_attributes.cpp:231-236 -/
def objectAttrs (j : Json) : Res ObjectAttrs := do
  let m ← field j (Str.lit "mesh_connections") [] (vec E.u64)
  let r ← field j (Str.lit "registered") false bool
  let q ← field j (Str.lit "world_R_object") ⟨0x3ff0000000000000, 0, 0, 0⟩ E.quat
  return ⟨m, r, q⟩
/-- node_attributes.cpp:309-323 -/
def placeAttrs (j : Json) : Res PlaceAttrs := do
  let d ← field j (Str.lit "distance") 0 E.f64
  let n ← field j (Str.lit "num_basis_points") 0 E.u32
  let vb ← field j (Str.lit "voxblox_mesh_connections") [] (vec E.nvi)
  let pcl ← field j (Str.lit "pcl_mesh_connections") [] (vec E.u64)
  let labels ← field j (Str.lit "mesh_vertex_labels") [] (vec E.u8)
  let de ← field j (Str.lit "deformation_connections") [] (vec E.u64)
  let real ← field j (Str.lit "real_place") true bool
  let act ← field j (Str.lit "active_frontier") false bool
  let sc ← field j (Str.lit "frontier_scale") ⟨0, 0, 0⟩ E.v3d
  let ori ← field j (Str.lit "orientation") ⟨0x3ff0000000000000, 0, 0, 0⟩ E.quat
  let cl ← field j (Str.lit "need_cleanup") false bool
  let nf ← field j (Str.lit "num_frontier_voxels") 0 E.u64
  return { distance := d, numBasisPoints := n, voxblox := vb, pcl := pcl, labels := labels, deformation := de, realPlace := real,
           needCleanup := cl, activeFrontier := act, frontierScale := sc, orientation := ori, numFrontierVoxels := nf }
/-- node_attributes.cpp:371-384; the constructor (352-359) leaves the ellipse uninitialised -/
def place2dAttrs (j : Json) : Res Place2dAttrs := do
  let bd ← field j (Str.lit "boundary") [] (vec E.v3d)
  let ec ← field j (Str.lit "ellipse_centroid") E.fresh.centroid E.v3d
  let co ← field j (Str.lit "ellipse_matrix_compress") (.of4 E.fresh.compress) (E.matrixFixed E.f64 F64.nan 2 2)
  let ex ← field j (Str.lit "ellipse_matrix_expand") (.of4 E.fresh.expand) (E.matrixFixed E.f64 F64.nan 2 2)
  let pb ← field j (Str.lit "pcl_boundary_connections") [] (vec E.u64)
  let vb ← field j (Str.lit "voxblox_mesh_connections") [] (vec E.nvi)
  let pcl ← field j (Str.lit "pcl_mesh_connections") [] (vec E.u64)
  let labels ← field j (Str.lit "mesh_vertex_labels") [] (vec E.u8)
  let de ← field j (Str.lit "deformation_connections") [] (vec E.u64)
  let nc ← field j (Str.lit "need_cleanup_splitting") false bool
  let ha ← field j (Str.lit "has_active_mesh_indices") false bool
  return { boundary := bd, ellipseCentroid := ec, compress := co, expand := ex, pclBoundary := pb, voxblox := vb, pcl := pcl,
           labels := labels, deformation := de, needCleanupSplitting := nc, hasActiveMeshIndices := ha }
/-- node_attributes.cpp:428-434; the constructor (409) leaves the first two members uninitialised -/
def agentAttrs (j : Json) : Res AgentAttrs := do
  let q ← field j (Str.lit "world_R_body") E.fresh.body E.quat
  let k ← field j (Str.lit "external_key") E.fresh.key E.u64
  let ids ← field j (Str.lit "dbow_ids") ⟨0, 1, []⟩ (E.column E.u32 0)
  let vals ← field j (Str.lit "dbow_values") ⟨0, 1, []⟩ (E.column E.f32 F32.nan)
  return ⟨q, k, ids, vals⟩
/-- node_attributes.cpp:472-481; the default mesh is that of 451 -/
def khronosAttrs (j : Json) : Res KhronosAttrs := do
  let fo ← field j (Str.lit "first_observed_ns") [] (vec E.u64)
  let lo ← field j (Str.lit "last_observed_ns") [] (vec E.u64)
  let m ← field j (Str.lit "mesh") { hasColors := true, hasTimestamps := false, hasLabels := false } E.mesh
  let tp ← field j (Str.lit "trajectory_positions") [] (vec E.v3f)
  let tt ← field j (Str.lit "trajectory_timestamps") [] (vec E.u64)
  let dp ← field j (Str.lit "dynamic_object_points") [] (vec (vec E.v3f))
  let de ← field j (Str.lit "details") ∅ (map (vec E.u64))
  return { firstObserved := fo, lastObserved := lo, mesh := m, trajectoryTimestamps := tt, trajectoryPositions := tp, dynamicPoints := dp,
           details := de }

/-- The virtual `serialization_info()`, while reading. -/
def fields (j : Json) : NodeClass → Res NodeAttrs
  | .base => do
    let b ← E.baseAttrs j
    return .base b
  | .semantic => do
    let b ← E.baseAttrs j
    let s ← E.semanticAttrs j
    return .semantic b s
  | .object => do
    let b ← E.baseAttrs j
    let s ← E.semanticAttrs j
    let o ← E.objectAttrs j
    return .object b s o
  | .room => do
    let b ← E.baseAttrs j
    let s ← E.semanticAttrs j
    let p ← field j (Str.lit "semantic_class_probabilities") ∅ (map E.f64)
    return .room b s p
  | .place => do
    let b ← E.baseAttrs j
    let s ← E.semanticAttrs j
    let p ← E.placeAttrs j
    return .place b s p
  | .place2d => do
    let b ← E.baseAttrs j
    let s ← E.semanticAttrs j
    let p ← E.place2dAttrs j
    return .place2d b s p
  | .agent => do
    let b ← E.baseAttrs j
    let a ← E.agentAttrs j
    return .agent b a
  | .khronos => do
    let b ← E.baseAttrs j
    let s ← E.semanticAttrs j
    let k ← E.khronosAttrs j
    return .khronos b s {} k

end JEnv

/-- attribute_registry.h:52-83: `AttributeFactory::create(name)` of the running program, by way of the eight-bit type id -/
def Registry.create {γ : Type} (R : Registry γ) (name : Str) : Option γ :=
  match R.names.idxOf? name with
  | none => none
  | some i => (factory R.names R).find? (UInt8.ofNat i)
/-- attribute_registry.h:126-171: `registration().name` of a class: the name under which it was first registered -/
def Registry.nameOf {γ : Type} [DecidableEq γ] (R : Registry γ) (c : γ) : Str :=
  match R.entries.find? (fun e => e.2 = c) with
  | some e => e.1
  | none => []

namespace JEnv
variable (E : JEnv)

/-- attribute_serialization.h:188-203 `Visitor::from(factory, json)`: null for an unknown class -/
def nodeAttrs (R : Registry NodeClass) (j : Json) : Res (Option NodeAttrs) := do
  let n ← j.at' (Str.lit "type") >>= str
  match R.create n with
  | none => return none
  | some c => do
    let a ← E.fields j c
    return some a
/-- the same for edges -/
def edgeAttrs (Q : Registry EdgeClass) (j : Json) : Res (Option EdgeAttrs) := do
  let n ← j.at' (Str.lit "type") >>= str
  match Q.create n with
  | none => return none
  | some _ => do
    let w ← field j (Str.lit "weighted") false bool
    let x ← field j (Str.lit "weight") 0x3ff0000000000000 E.f64
    return some ⟨w, x⟩

/-! ## Graphs (graph_json_serialization.cpp) -/

/-- graph_json_serialization.cpp:63-89 `read_node_from_json` -/
def readNode (R : Registry NodeClass) (g : Graph) (j : Json) : Res Graph := do
  let id ← j.at' (Str.lit "id") >>= E.u64
  let layer ← j.at' (Str.lit "layer") >>= E.u64
  let a ← j.at' (Str.lit "attributes") >>= E.nodeAttrs R
  match a with
  | none => .throw .runtimeError
  | some a =>
    match j.find (Str.lit "timestamp") with
    | some t => do
      let t ← E.u64 t
      let r ← g.emplacePrev layer id t (some a)
      if r.2 = true then return r.1 else .throw .runtimeError
    | none =>
      if (g.emplaceNode layer id (some a)).2 = true then return (g.emplaceNode layer id (some a)).1 else .throw .runtimeError

/-- graph_json_serialization.cpp:91-104 `read_edge_from_json`; for an unknown class `insertEdge` gets a null pointer -/
def readEdge (Q : Registry EdgeClass) (g : Graph) (j : Json) : Res Graph := do
  let s ← j.at' (Str.lit "source") >>= E.u64
  let t ← j.at' (Str.lit "target") >>= E.u64
  let a ← j.at' (Str.lit "info") >>= E.edgeAttrs Q
  let r ← g.insertEdge s t a
  if r.2 = true then return r.1 else .throw .runtimeError

/-- json_conversions.cpp:158-163 -/
def header (j : Json) : Res FileHeader := do
  let p ← j.at' (Str.lit "project_name") >>= str
  let v ← j.at' (Str.lit "version")
  let a ← v.at' (Str.lit "major") >>= E.u8
  let v ← j.at' (Str.lit "version")
  let b ← v.at' (Str.lit "minor") >>= E.u8
  let v ← j.at' (Str.lit "version")
  let c ← v.at' (Str.lit "patch") >>= E.u8
  return ⟨p, ⟨a, b, c⟩⟩

/-- the header in a field, or the one of old files (graph_json_serialization.cpp:167-172, mesh_serialization.cpp:185-187) -/
def headerIn (j : Json) (k : Str) : Res FileHeader :=
  match j.find k with
  | none => .ok FileHeader.legacy
  | some h => E.header h

/-- mesh_serialization.cpp:48-74: one vertex of the old format -/
def legacyVertex (j : Json) : Res (V3f × Color) := do
  let x ← j.at' (Str.lit "x") >>= E.f32
  let y ← j.at' (Str.lit "y") >>= E.f32
  let z ← j.at' (Str.lit "z") >>= E.f32
  let r ← j.at' (Str.lit "r") >>= E.u8
  let g ← j.at' (Str.lit "g") >>= E.u8
  let b ← j.at' (Str.lit "b") >>= E.u8
  return (⟨x, y, z⟩, ⟨r, g, b, 255⟩)
/-- mesh_serialization.cpp:48-74 `deserializeMeshLegacy` -/
def legacyMesh (j : Json) : Res Mesh := do
  let vs ← (match j.find (Str.lit "vertices") with
    | none => .ok []
    | some v => allRes E.legacyVertex v.items : Res (List (V3f × Color)))
  let fs ← (match j.find (Str.lit "faces") with
    | none => .ok []
    | some v => allRes E.face v.items : Res (List (UInt64 × UInt64 × UInt64)))
  return { points := vs.map Prod.fst, colors := vs.map Prod.snd, faces := fs }

/-- versioning.h:148-155 `ScopedInfo`: another version is in force -/
def under (v : Version) : JEnv := { E with version := v }

/-- mesh_serialization.cpp:183-199 `Mesh::deserializeFromJson`, from the parsed text -/
def meshDoc (j : Json) : Res Mesh := do
  let h ← E.headerIn j (Str.lit "header")
  if h.version.le ⟨1, 0, 1⟩ = true then E.legacyMesh j
  else (E.under h.version).mesh j

/-- the name of the header field -/
def headerKey : Str := Str.lit "SPARK_DSG_header"

/-- graph_json_serialization.cpp:164-195 `readGraph`, from the parsed text -/
def readGraph (R : Registry NodeClass) (Q : Registry EdgeClass) (j : Json) : Res Graph := do
  let h ← E.headerIn j headerKey
  let ids ← j.at' (Str.lit "layer_ids") >>= vec E.u64
  let g ← Graph.create ids
  let ns ← j.at' (Str.lit "nodes")
  let g ← foldRes ((E.under h.version).readNode R) g ns.items
  let es ← j.at' (Str.lit "edges")
  let g ← foldRes ((E.under h.version).readEdge Q) g es.items
  match j.find (Str.lit "mesh") with
  | none => return g
  | some m => do
    let m ← m.text
    let m ← (E.under h.version).meshDoc m
    return g.setMesh (some m)

end JEnv

/-! ## Writing -/

namespace JArith
variable (F : JArith)

/-- `int32_t` to `int64_t` -/
def int32 (n : UInt32) : Json := .int (UInt64.ofBitVec (n.toBitVec.signExtend 64))
/-- `uint32_t`, `uint8_t` -/
def uint32 (n : UInt32) : Json := .uint n.toUInt64
def uint8 (n : UInt8) : Json := .uint n.toUInt64
/-- `float` -/
def float (x : F32) : Json := .num (F.widen x)

/-- json_conversions.h:87-100: a matrix with a fixed dimension; an empty one stays null -/
def coeffs {α : Type} (w : α → Json) (m : Matrix α) : Json :=
  match m.data with
  | [] => .null
  | d => .arr (d.map w)
/-- json_conversions.h:87-100, both dimensions dynamic -/
def matrixDyn {α : Type} (w : α → Json) (m : Matrix α) : Json :=
  .obj [(Str.lit "rows", .int (UInt64.ofBitVec (BitVec.ofInt 64 m.rows))), (Str.lit "cols", .int (UInt64.ofBitVec (BitVec.ofInt 64 m.cols))), (Str.lit "data", coeffs w m)]
/-- `Eigen::Vector3d` -/
def v3d (v : V3d) : Json := .arr [.num v.x, .num v.y, .num v.z]
/-- `Eigen::Vector3f` -/
def v3f (v : V3f) : Json := .arr [F.float v.x, F.float v.y, F.float v.z]
/-- json_conversions.h:136-138 -/
def quat (q : Quat) : Json := .obj [(Str.lit "w", .num q.w), (Str.lit "x", .num q.x), (Str.lit "y", .num q.y), (Str.lit "z", .num q.z)]
/-- the same for floats -/
def quatf (q : F32 × F32 × F32 × F32) : Json :=
  .obj [(Str.lit "w", F.float q.1), (Str.lit "x", F.float q.2.1), (Str.lit "y", F.float q.2.2.1), (Str.lit "z", F.float q.2.2.2)]
/-- json_conversions.h:44-50: an unknown enumerator is written as the first one -/
def bboxType (t : UInt32) : Json :=
  .str (if t = 1 then Str.lit "AABB" else if t = 3 then Str.lit "RAABB" else if t = 2 then Str.lit "OBB" else Str.lit "INVALID")
/-- json_conversions.cpp:50-55 -/
def bbox (b : BBox) : Json :=
  .obj [(Str.lit "type", bboxType b.type), (Str.lit "dimensions", F.v3f b.dims), (Str.lit "world_P_center", F.v3f b.center),
    (Str.lit "world_R_center", F.quatf (F.toQuat b.rot))]
/-- json_conversions.cpp:87-91: the label, or null -/
def label : Option UInt32 → Json
  | some l => uint32 l
  | none => .null
/-- json_conversions.cpp:83-92 -/
def nvi (x : NearestVertexInfo) : Json :=
  .obj [(Str.lit "block", .arr [int32 x.block.1, int32 x.block.2.1, int32 x.block.2.2]),
    (Str.lit "voxel_pos", .arr [.num x.voxelPos.1, .num x.voxelPos.2.1, .num x.voxelPos.2.2]),
    (Str.lit "vertex", .uint x.vertex),
    (Str.lit "label", label x.label)]
/-- json_conversions.cpp:108-113 -/
def color (c : Color) : Json :=
  .obj [(Str.lit "r", uint8 c.r), (Str.lit "g", uint8 c.g), (Str.lit "b", uint8 c.b), (Str.lit "a", uint8 c.a)]
/-- `std::array<size_t, 3>` -/
def face (f : UInt64 × UInt64 × UInt64) : Json := .arr [.uint f.1, .uint f.2.1, .uint f.2.2]
/-- `std::vector`, `std::list` -/
def vec {α : Type} (w : α → Json) (l : List α) : Json := .arr (l.map w)
/-- `std::map<std::string, T>` -/
def map {α : Type} (w : α → Json) (m : OMap Str α) : Json := .obj (m.toList.map (fun e => (e.1, w e.2)))
/-- json_conversions.cpp:150-156 -/
def header (h : FileHeader) : Json :=
  .obj [(Str.lit "project_name", .str h.project),
    (Str.lit "version", .obj [(Str.lit "major", uint8 h.version.major), (Str.lit "minor", uint8 h.version.minor),
      (Str.lit "patch", uint8 h.version.patch)])]
/-- a field that is left out if the vector is empty (mesh_serialization.cpp:86-103) -/
def nonempty {α : Type} (k : Str) (w : α → Json) (l : List α) : List (Str × Json) :=
  match l with
  | [] => []
  | l => [(k, vec w l)]
/-- mesh_serialization.cpp:76-104 -/
def mesh (m : Mesh) : Json :=
  .obj ([(Str.lit "header", header FileHeader.current), (Str.lit "has_colors", .bool m.hasColors), (Str.lit "has_timestamps", .bool m.hasTimestamps),
      (Str.lit "has_labels", .bool m.hasLabels), (Str.lit "has_first_seen_stamps", .bool m.hasFirstSeen)] ++
    nonempty (Str.lit "points") F.v3f m.points ++ nonempty (Str.lit "colors") color m.colors ++ nonempty (Str.lit "stamps") Json.uint m.stamps ++
    nonempty (Str.lit "first_seen_stamps") Json.uint m.firstSeen ++ nonempty (Str.lit "labels") uint32 m.labels ++
    nonempty (Str.lit "faces") face m.faces)

/-- node_attributes.cpp:130-140 -/
def baseAttrs (b : BaseAttrs) : List (Str × Json) :=
  [(Str.lit "position", v3d b.position), (Str.lit "last_update_time_ns", .uint b.lastUpdate), (Str.lit "is_active", .bool b.isActive),
    (Str.lit "is_predicted", .bool b.isPredicted)]
/-- node_attributes.cpp:181-196, after the base class -/
def semanticAttrs (s : SemanticAttrs) : List (Str × Json) :=
  [(Str.lit "name", .str s.name), (Str.lit "color", color s.color), (Str.lit "bounding_box", F.bbox s.bbox),
    (Str.lit "semantic_label", uint32 s.label), (Str.lit "semantic_feature", matrixDyn Json.num s.feature)]
/-- node_attributes.cpp:231-236 -/
def objectAttrs (o : ObjectAttrs) : List (Str × Json) :=
  [(Str.lit "mesh_connections", vec Json.uint o.meshConnections), (Str.lit "registered", .bool o.registered),
    (Str.lit "world_R_object", quat o.worldRObject)]
/-- node_attributes.cpp:309-323 -/
def placeAttrs (p : PlaceAttrs) : List (Str × Json) :=
  [(Str.lit "distance", .num p.distance), (Str.lit "num_basis_points", uint32 p.numBasisPoints),
    (Str.lit "voxblox_mesh_connections", vec nvi p.voxblox), (Str.lit "pcl_mesh_connections", vec Json.uint p.pcl),
    (Str.lit "mesh_vertex_labels", vec uint8 p.labels), (Str.lit "deformation_connections", vec Json.uint p.deformation),
    (Str.lit "real_place", .bool p.realPlace), (Str.lit "active_frontier", .bool p.activeFrontier),
    (Str.lit "frontier_scale", v3d p.frontierScale), (Str.lit "orientation", quat p.orientation),
    (Str.lit "need_cleanup", .bool p.needCleanup), (Str.lit "num_frontier_voxels", .uint p.numFrontierVoxels)]
/-- node_attributes.cpp:371-384 -/
def place2dAttrs (p : Place2dAttrs) : List (Str × Json) :=
  [(Str.lit "boundary", vec v3d p.boundary), (Str.lit "ellipse_centroid", v3d p.ellipseCentroid),
    (Str.lit "ellipse_matrix_compress", coeffs Json.num p.compress), (Str.lit "ellipse_matrix_expand", coeffs Json.num p.expand),
    (Str.lit "pcl_boundary_connections", vec Json.uint p.pclBoundary), (Str.lit "voxblox_mesh_connections", vec nvi p.voxblox),
    (Str.lit "pcl_mesh_connections", vec Json.uint p.pcl), (Str.lit "mesh_vertex_labels", vec uint8 p.labels),
    (Str.lit "deformation_connections", vec Json.uint p.deformation), (Str.lit "need_cleanup_splitting", .bool p.needCleanupSplitting),
    (Str.lit "has_active_mesh_indices", .bool p.hasActiveMeshIndices)]
/-- node_attributes.cpp:428-434 -/
def agentAttrs (a : AgentAttrs) : List (Str × Json) :=
  [(Str.lit "world_R_body", quat a.worldRBody), (Str.lit "external_key", .uint a.externalKey), (Str.lit "dbow_ids", coeffs uint32 a.dbowIds),
    (Str.lit "dbow_values", coeffs F.float a.dbowValues)]
/-- node_attributes.cpp:472-481 -/
def khronosAttrs (k : KhronosAttrs) : List (Str × Json) :=
  [(Str.lit "first_observed_ns", vec Json.uint k.firstObserved), (Str.lit "last_observed_ns", vec Json.uint k.lastObserved),
    (Str.lit "mesh", F.mesh k.mesh), (Str.lit "trajectory_positions", vec F.v3f k.trajectoryPositions),
    (Str.lit "trajectory_timestamps", vec Json.uint k.trajectoryTimestamps),
    (Str.lit "dynamic_object_points", vec (vec F.v3f) k.dynamicPoints), (Str.lit "details", map (vec Json.uint) k.details)]

/-- The virtual `serialization_info()` while writing. -/
def fields : NodeAttrs → List (Str × Json)
  | .base b => baseAttrs b
  | .semantic b s => baseAttrs b ++ F.semanticAttrs s
  | .object b s o => baseAttrs b ++ F.semanticAttrs s ++ objectAttrs o
  | .room b s p => baseAttrs b ++ F.semanticAttrs s ++ [(Str.lit "semantic_class_probabilities", map Json.num p)]
  | .place b s p => baseAttrs b ++ F.semanticAttrs s ++ placeAttrs p
  | .place2d b s p => baseAttrs b ++ F.semanticAttrs s ++ place2dAttrs p
  | .agent b a => baseAttrs b ++ F.agentAttrs a
  | .khronos b s _ k => baseAttrs b ++ F.semanticAttrs s ++ F.khronosAttrs k
/-- attribute_serialization.h:168-176 `Visitor::to(json&, attrs)` -/
def nodeAttrs (R : Registry NodeClass) (a : NodeAttrs) : Json := .obj ((Str.lit "type", .str (R.nameOf a.cls)) :: F.fields a)
/-- the same for edges (edge_attributes.cpp:68-71) -/
def edgeAttrs (Q : Registry EdgeClass) (a : EdgeAttrs) : Json :=
  .obj [(Str.lit "type", .str (Q.nameOf .base)), (Str.lit "weighted", .bool a.weighted), (Str.lit "weight", .num a.weight)]

/-- graph_json_serialization.cpp:49-56; `attributes()` dereferences the attribute pointer -/
def node (R : Registry NodeClass) (x : Node) : Res Json := do
  let a ← Res.deref x.attrs
  return .obj ([(Str.lit "id", .uint x.id), (Str.lit "layer", .uint x.layer), (Str.lit "attributes", F.nodeAttrs R a)] ++
    (match x.timestamp with | none => [] | some t => [(Str.lit "timestamp", .int t)]))
/-- graph_json_serialization.cpp:58-61 -/
def edge (Q : Registry EdgeClass) (e : Edge) : Res Json := do
  let i ← Res.deref e.info
  return .obj [(Str.lit "source", .uint e.source), (Str.lit "target", .uint e.target), (Str.lit "info", edgeAttrs Q i)]
end JArith

/-- graph_json_serialization.cpp:154-161: the mesh, printed and parsed, if there is one -/
def JArith.meshField (F : JArith) : Option Mesh → Res (List (Str × Json))
  | none => .ok []
  | some m => do
    let m ← (F.mesh m).text
    return [(Str.lit "mesh", m)]

namespace Graph
/-- The nodes in the order of graph_json_serialization.cpp:118-152: static layers, then dynamic layers without their null slots. -/
def jsonNodes (g : Graph) : List Node := g.staticNodes ++ g.dynSlots.filterMap id
/-- The edges in the order of graph_json_serialization.cpp:118-152. -/
def jsonEdges (g : Graph) : List Edge :=
  g.layers.toList.flatMap (fun e => e.2.edges.edges.toList.map Prod.snd) ++ g.inter.edges.toList.map Prod.snd ++
    g.dynInter.edges.toList.map Prod.snd ++ g.dynList.flatMap (fun d => d.edges.edges.toList.map Prod.snd)

/-- graph_json_serialization.cpp:108-162 `writeGraph`, and the parsing of its text by the reader: the document that a reader sees. The mesh
is printed and parsed once more. -/
def writeJson (F : JArith) (R : Registry NodeClass) (Q : Registry EdgeClass) (g : Graph) (includeMesh : Bool) : Res Json := do
  let ns ← allRes (F.node R) g.jsonNodes
  let es ← allRes (JArith.edge Q) g.jsonEdges
  let m ← F.meshField (if includeMesh then g.mesh else none)
  (Json.obj ([(JEnv.headerKey, JArith.header FileHeader.current), (Str.lit "directed", .bool false), (Str.lit "multigraph", .bool false),
    (Str.lit "nodes", .arr ns), (Str.lit "edges", .arr es), (Str.lit "layer_ids", JArith.vec Json.uint g.layerIds)] ++ m)).text
end Graph

end Verif
