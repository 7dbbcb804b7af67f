import Verif.Model.Binary
/-!
# Attributes, meshes and file headers in the binary format

Writers are modelled for the current version (nothing is written while an old file's header is in force); readers for every version.
-/

namespace Verif

/-- `std::string` literal -/
def Str.lit (s : String) : Str := s.toUTF8.toList

/-! ## Attribute classes and their registry (attribute_registry.h) -/

/-- The classes of node attributes that spark_dsg registers (node_attributes.h, `REGISTER_NODE_ATTRIBUTES`). -/
inductive NodeClass
  | base | semantic | object | room | place | place2d | agent | khronos
  deriving DecidableEq, Repr

/-- The one class of edge attributes (edge_attributes.h:103-104). -/
inductive EdgeClass
  | base
  deriving DecidableEq, Repr

/-- attribute_registry.h:90-151 `AttributeRegistry`: names with their constructors, in order of registration. Registering a name twice
throws, so names are distinct. -/
structure Registry (γ : Type) where
  entries : List (Str × γ)
  nodup : (entries.map Prod.fst).Nodup

namespace Registry
variable {γ : Type}
/-- attribute_registry.h:104-107 `names` -/
def names (R : Registry γ) : List Str := R.entries.map Prod.fst
/-- The map `factories_`. -/
def find? (R : Registry γ) (n : Str) : Option γ := (R.entries.find? (fun e => e.1 = n)).map Prod.snd
/-- attribute_registry.h:126-138, 164-171: the type id of a class is its registration index, cast to eight bits. -/
def typeId [DecidableEq γ] (R : Registry γ) (c : γ) : UInt8 := UInt8.ofNat ((R.entries.map Prod.snd).idxOf c)
end Registry

/-- attribute_registry.h:52-63 constructor of `AttributeFactory`: index (cast to eight bits) to constructor, for the known names. -/
def factory {γ : Type} (names : List Str) (R : Registry γ) : OMap UInt8 γ :=
  names.zipIdx.foldl (fun m e => match R.find? e.1 with
    | none => m
    | some c => m.insert (UInt8.ofNat e.2) c) ∅

/-- The registry of an unmodified spark_dsg, in header order (node_attributes.h:141-422). -/
def stdNodes : Registry NodeClass where
  entries := [(Str.lit "NodeAttributes", .base), (Str.lit "SemanticNodeAttributes", .semantic), (Str.lit "ObjectNodeAttributes", .object),
    (Str.lit "RoomNodeAttributes", .room), (Str.lit "PlaceNodeAttributes", .place), (Str.lit "Place2dNodeAttributes", .place2d),
    (Str.lit "AgentNodeAttributes", .agent), (Str.lit "KhronosObjectAttributes", .khronos)]
  nodup := by decide +kernel
/-- edge_attributes.h:103-104 -/
def stdEdges : Registry EdgeClass where
  entries := [(Str.lit "EdgeAttributes", .base)]
  nodup := by decide +kernel

/-! ## Field types -/

namespace Wr
/-- binary_conversions.cpp:72-78 `BoundingBox` -/
def bbox (b : BBox) : Wr := seq (arrLen 4) (seq (i32 b.type) (seq (v3f b.dims) (seq (v3f b.center) (matrix f32 b.rot))))
/-- binary_conversions.cpp:99-116 `NearestVertexInfo` -/
def nvi (x : NearestVertexInfo) : Wr :=
  seq (arrLen 4) (seq (arrLen 3) (seq (i32 x.block.1) (seq (i32 x.block.2.1) (seq (i32 x.block.2.2)
    (seq (arrLen 3) (seq (f64 x.voxelPos.1) (seq (f64 x.voxelPos.2.1) (seq (f64 x.voxelPos.2.2)
      (seq (u64 x.vertex) (opt u32 x.label))))))))))
/-- binary_conversions.cpp:125-130 `Color` -/
def color (c : Color) : Wr := seq (u8 c.r) (seq (u8 c.g) (seq (u8 c.b) (u8 c.a)))
/-- A face: `std::array<size_t, 3>` (binary_serialization.h:480-486). -/
def face (f : UInt64 × UInt64 × UInt64) : Wr := seq (arrLen 3) (seq (u64 f.1) (seq (u64 f.2.1) (u64 f.2.2)))
/-- mesh_serialization.cpp:135-156 -/
def mesh (m : Mesh) : Wr :=
  seq (bool m.hasColors) (seq (bool m.hasTimestamps) (seq (bool m.hasLabels) (seq (bool m.hasFirstSeen)
    (seq (vec v3f m.points) (seq (vec color m.colors) (seq (vec u64 m.stamps) (seq (vec u32 m.labels)
      (seq (vec u64 m.firstSeen) (vec face m.faces)))))))))

/-- node_attributes.cpp:130-140 -/
def baseAttrs (b : BaseAttrs) : Wr := seq (v3d b.position) (seq (u64 b.lastUpdate) (seq (bool b.isActive) (bool b.isPredicted)))
/-- node_attributes.cpp:181-196, after the base class -/
def semanticAttrs (s : SemanticAttrs) : Wr :=
  seq (str s.name) (seq (color s.color) (seq (bbox s.bbox) (seq (u32 s.label) (matrix f64 s.feature))))
/-- node_attributes.cpp:231-236 -/
def objectAttrs (o : ObjectAttrs) : Wr := seq (vec u64 o.meshConnections) (seq (bool o.registered) (quat o.worldRObject))
/-- node_attributes.cpp:309-323 -/
def placeAttrs (p : PlaceAttrs) : Wr :=
  seq (f64 p.distance) (seq (u32 p.numBasisPoints) (seq (vec nvi p.voxblox) (seq (vec u64 p.pcl) (seq (vec u8 p.labels)
    (seq (vec u64 p.deformation) (seq (bool p.realPlace) (seq (bool p.activeFrontier) (seq (v3d p.frontierScale)
      (seq (quat p.orientation) (seq (bool p.needCleanup) (u64 p.numFrontierVoxels)))))))))))
/-- node_attributes.cpp:371-384 -/
def place2dAttrs (p : Place2dAttrs) : Wr :=
  seq (vec v3d p.boundary) (seq (v3d p.ellipseCentroid) (seq (matrix f64 p.compress) (seq (matrix f64 p.expand)
    (seq (vec u64 p.pclBoundary) (seq (vec nvi p.voxblox) (seq (vec u64 p.pcl) (seq (vec u8 p.labels)
      (seq (vec u64 p.deformation) (seq (bool p.needCleanupSplitting) (bool p.hasActiveMeshIndices))))))))))
/-- node_attributes.cpp:428-434 -/
def agentAttrs (a : AgentAttrs) : Wr :=
  seq (quat a.worldRBody) (seq (u64 a.externalKey) (seq (matrix u32 a.dbowIds) (matrix f32 a.dbowValues)))
/-- node_attributes.cpp:472-481 (the `ObjectNodeAttributes` fields are skipped) -/
def khronosAttrs (k : KhronosAttrs) : Wr :=
  seq (vec u64 k.firstObserved) (seq (vec u64 k.lastObserved) (seq (mesh k.mesh) (seq (vec v3f k.trajectoryPositions)
    (seq (vec u64 k.trajectoryTimestamps) (seq (vec (vec v3f) k.dynamicPoints) (map str (vec u64) k.details))))))
end Wr

/-- The dynamic class of an attribute object (`registration()`). -/
def NodeAttrs.cls : NodeAttrs → NodeClass
  | .base _ => .base
  | .semantic _ _ => .semantic
  | .object _ _ _ => .object
  | .room _ _ _ => .room
  | .place _ _ _ => .place
  | .place2d _ _ _ => .place2d
  | .agent _ _ => .agent
  | .khronos _ _ _ _ => .khronos

namespace Wr
/-- The virtual `serialization_info()` while writing. -/
def fields : NodeAttrs → Wr
  | .base b => baseAttrs b
  | .semantic b s => seq (baseAttrs b) (semanticAttrs s)
  | .object b s o => seq (baseAttrs b) (seq (semanticAttrs s) (objectAttrs o))
  | .room b s p => seq (baseAttrs b) (seq (semanticAttrs s) (map str f64 p))
  | .place b s p => seq (baseAttrs b) (seq (semanticAttrs s) (placeAttrs p))
  | .place2d b s p => seq (baseAttrs b) (seq (semanticAttrs s) (place2dAttrs p))
  | .agent b a => seq (baseAttrs b) (agentAttrs a)
  | .khronos b s _ k => seq (baseAttrs b) (seq (semanticAttrs s) (khronosAttrs k))
/-- attribute_serialization.h:178-186 `Visitor::to(BinarySerializer&, attrs)` -/
def nodeAttrs (R : Registry NodeClass) (a : NodeAttrs) : Wr := seq (u8 (R.typeId a.cls)) (fields a)
/-- attribute_serialization.h:178-186 and edge_attributes.cpp:68-71 -/
def edgeAttrs (R : Registry EdgeClass) (a : EdgeAttrs) : Wr := seq (u8 (R.typeId .base)) (seq (bool a.weighted) (f64 a.weight))
end Wr

namespace Rd
/-- binary_conversions.cpp:44-70 -/
def bbox : Rd BBox := do
  let E ← env
  if E.version.lt ⟨1, 0, 3⟩ = true then do
    checkArrLen 5
    let t ← i32
    let mn ← v3f
    let mx ← v3f
    let c ← v3f
    let R ← matrixFixed f32 3 3
    return { type := t, dims := ⟨E.fsub mx.x mn.x, E.fsub mx.y mn.y, E.fsub mx.z mn.z⟩, center := c, rot := R }
  else do
    checkArrLen 4
    let t ← i32
    let d ← v3f
    let c ← v3f
    let R ← matrixFixed f32 3 3
    return { type := t, dims := d, center := c, rot := R }
/-- binary_conversions.cpp:80-97 -/
def nvi : Rd NearestVertexInfo := do
  checkArrLen 4
  checkArrLen 3
  let b0 ← i32
  let b1 ← i32
  let b2 ← i32
  checkArrLen 3
  let p0 ← f64
  let p1 ← f64
  let p2 ← f64
  let v ← u64
  let l ← opt u32
  return ⟨(b0, b1, b2), (p0, p1, p2), v, l⟩
/-- binary_conversions.cpp:118-123 -/
def color : Rd Color := do
  let r ← u8
  let g ← u8
  let b ← u8
  let a ← u8
  return ⟨r, g, b, a⟩
/-- binary_serialization.h:488-494 -/
def face : Rd (UInt64 × UInt64 × UInt64) := do
  checkArrLen 3
  let a ← u64
  let b ← u64
  let c ← u64
  return (a, b, c)
/-- mesh_serialization.cpp:158-176 -/
def mesh : Rd Mesh := do
  let hc ← bool
  let ht ← bool
  let hl ← bool
  let hf ← bool
  let points ← vec v3f
  let colors ← vec color
  let stamps ← vec u64
  let labels ← vec u32
  let firstSeen ← vec u64
  let faces ← vec face
  return { hasColors := hc, hasTimestamps := ht, hasLabels := hl, hasFirstSeen := hf, points, colors, stamps, firstSeen, labels, faces }

/-- node_attributes.cpp:130-140 -/
def baseAttrs : Rd BaseAttrs := do
  let p ← v3d
  let t ← u64
  let a ← bool
  let E ← env
  if E.version.lt ⟨1, 0, 4⟩ = true then return { position := p, lastUpdate := t, isActive := a }
  else do
    let q ← bool
    return { position := p, lastUpdate := t, isActive := a, isPredicted := q }
/-- node_attributes.cpp:184-192: the colour -/
def semanticColor : Rd Color := do
  let E ← env
  if E.version.le ⟨1, 0, 2⟩ = true then do
    let r ← u8
    let g ← u8
    let b ← u8
    return ⟨r, g, b, 255⟩
  else color
/-- node_attributes.cpp:181-196 -/
def semanticAttrs : Rd SemanticAttrs := do
  let n ← str
  let c ← semanticColor
  let b ← bbox
  let l ← u32
  let f ← matrixDyn f64
  return ⟨n, c, b, l, f⟩
/-- node_attributes.cpp:231-236 -/
def objectAttrs : Rd ObjectAttrs := do
  let m ← vec u64
  let r ← bool
  let q ← quat
  return ⟨m, r, q⟩
/-- node_attributes.cpp:309-323 -/
def placeAttrs : Rd PlaceAttrs := do
  let d ← f64
  let n ← u32
  let vb ← vec nvi
  let pcl ← vec u64
  let labels ← vec u8
  let de ← vec u64
  let real ← bool
  let act ← bool
  let sc ← v3d
  let ori ← quat
  let cl ← bool
  let nf ← u64
  return { distance := d, numBasisPoints := n, voxblox := vb, pcl := pcl, labels := labels, deformation := de, realPlace := real,
           needCleanup := cl, activeFrontier := act, frontierScale := sc, orientation := ori, numFrontierVoxels := nf }
/-- node_attributes.cpp:371-384; the other members keep their defaults (349-359) -/
def place2dAttrs : Rd Place2dAttrs := do
  let bd ← vec v3d
  let ec ← v3d
  let co ← matrixFixed f64 2 2
  let ex ← matrixFixed f64 2 2
  let pb ← vec u64
  let vb ← vec nvi
  let pcl ← vec u64
  let labels ← vec u8
  let de ← vec u64
  let nc ← bool
  let ha ← bool
  return { boundary := bd, ellipseCentroid := ec, compress := co, expand := ex, pclBoundary := pb, voxblox := vb, pcl := pcl,
           labels := labels, deformation := de, needCleanupSplitting := nc, hasActiveMeshIndices := ha }
/-- node_attributes.cpp:428-434 -/
def agentAttrs : Rd AgentAttrs := do
  let q ← quat
  let k ← u64
  let ids ← columnVec u32
  let vals ← columnVec f32
  return ⟨q, k, ids, vals⟩
/-- node_attributes.cpp:472-481 -/
def khronosAttrs : Rd KhronosAttrs := do
  let fo ← vec u64
  let lo ← vec u64
  let m ← mesh
  let tp ← vec v3f
  let tt ← vec u64
  let dp ← vec (vec v3f)
  let de ← map str (vec u64)
  return { firstObserved := fo, lastObserved := lo, mesh := m, trajectoryTimestamps := tt, trajectoryPositions := tp, dynamicPoints := dp,
           details := de }

/-- The virtual `serialization_info()` of a freshly constructed object, while reading. -/
def fields : NodeClass → Rd NodeAttrs
  | .base => do return .base (← baseAttrs)
  | .semantic => do
    let b ← baseAttrs
    let s ← semanticAttrs
    return .semantic b s
  | .object => do
    let b ← baseAttrs
    let s ← semanticAttrs
    let o ← objectAttrs
    return .object b s o
  | .room => do
    let b ← baseAttrs
    let s ← semanticAttrs
    let p ← map str f64
    return .room b s p
  | .place => do
    let b ← baseAttrs
    let s ← semanticAttrs
    let p ← placeAttrs
    return .place b s p
  | .place2d => do
    let b ← baseAttrs
    let s ← semanticAttrs
    let p ← place2dAttrs
    return .place2d b s p
  | .agent => do
    let b ← baseAttrs
    let a ← agentAttrs
    return .agent b a
  | .khronos => do
    let b ← baseAttrs
    let s ← semanticAttrs
    let k ← khronosAttrs
    return .khronos b s {} k

/-- attribute_serialization.h:205-222 `Visitor::from(factory, BinaryDeserializer&)`: a null pointer for an unknown type id. -/
def nodeAttrs (fac : OMap UInt8 NodeClass) : Rd (Option NodeAttrs) := do
  let t ← u8
  match fac.find? t with
  | none => return none
  | some c => do
    let a ← fields c
    return some a
/-- The same for edges. -/
def edgeAttrs (fac : OMap UInt8 EdgeClass) : Rd (Option EdgeAttrs) := do
  let t ← u8
  match fac.find? t with
  | none => return none
  | some _ => do
    let w ← bool
    let x ← f64
    return some ⟨w, x⟩
end Rd

/-! ## File headers (versioning.h, versioning.cpp) -/

/-- versioning.h:83-113 `FileHeader`. -/
structure FileHeader where
  project : Str := Str.lit "main"
  version : Version := ⟨0, 0, 0⟩
  deriving DecidableEq

namespace FileHeader
/-- versioning.h:87 `IDENTIFIER_STRING` -/
def identifier : Str := Str.lit "SPARK_DSG"
/-- versioning.cpp:132-139 `current` (version 1.0.4 at the pinned commit) -/
def current : FileHeader := { project := Str.lit "main", version := ⟨1, 0, 4⟩ }
/-- versioning.cpp:141-146 `legacy` -/
def legacy : FileHeader := { project := Str.lit "main", version := ⟨1, 0, 0⟩ }

/-- versioning.cpp:124-130 `serializeToBinary`, binary_conversions.cpp:151-156 -/
def write (h : FileHeader) : Wr :=
  Wr.seq (Wr.str identifier) (Wr.seq (Wr.str h.project) (Wr.seq (Wr.u8 h.version.major) (Wr.seq (Wr.u8 h.version.minor) (Wr.u8 h.version.patch))))

/-- versioning.cpp:166-188 `deserializeFromBinary`, binary_conversions.cpp:144-149. The final position is the offset; it is written
only together with a header. -/
def read : Rd (Option FileHeader) := do
  let t ← Rd.currType
  if t ≠ Pack.arr32 then return none
  else do
    let s ← Rd.str
    if s ≠ identifier then return none
    else do
      let p ← Rd.str
      let a ← Rd.u8
      let b ← Rd.u8
      let c ← Rd.u8
      return some ⟨p, ⟨a, b, c⟩⟩

/-- versioning.cpp:47-98 `checkCompatibility` against the current header; `PROJECT_COMPATIBILITY` is empty (versioning.h:51-52). -/
def checkCompatibility (h : FileHeader) : Res Unit :=
  if h.version.lt ⟨1, 0, 2⟩ = true then .throw .runtimeError
  else if h.project = current.project then .ok ()
  else .throw .runtimeError
end FileHeader

end Verif
