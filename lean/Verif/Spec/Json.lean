import Verif.Model.Json
import Verif.Spec.GraphIO
import Verif.Spec.Utf8
/-! # Specification for the JSON format: what it can represent, and what it keeps -/

namespace Verif

/-- What is assumed of the conversions between `float` and `double`: finite floats widen to finite doubles and narrow back exactly. -/
def JArith.Exact (F : JArith) : Prop := ∀ x : F32, F32.finite x = true → F64.finite (F.widen x) = true ∧ F.narrow (F.widen x) = x

/-- all coordinates are finite numbers -/
def V3d.Finite (v : V3d) : Prop := F64.finite v.x = true ∧ F64.finite v.y = true ∧ F64.finite v.z = true
/-- the same for floats -/
def V3f.Finite (v : V3f) : Prop := F32.finite v.x = true ∧ F32.finite v.y = true ∧ F32.finite v.z = true
/-- the same for quaternions -/
def Quat.Finite (q : Quat) : Prop := F64.finite q.w = true ∧ F64.finite q.x = true ∧ F64.finite q.y = true ∧ F64.finite q.z = true

/-! ## Numbers that are not finite: in vectors and matrices they come back as NaN -/

/-- a coefficient -/
def F64.printed (d : F64) : F64 := if F64.finite d = true then d else F64.nan
/-- the same for floats -/
def F32.printed (x : F32) : F32 := if F32.finite x = true then x else F32.nan
def V3d.printed (v : V3d) : V3d := ⟨v.x.printed, v.y.printed, v.z.printed⟩
def V3f.printed (v : V3f) : V3f := ⟨v.x.printed, v.y.printed, v.z.printed⟩
def Matrix.printed (m : Matrix F64) : Matrix F64 := { m with data := m.data.map F64.printed }
def Mesh.printed (m : Mesh) : Mesh := { m with points := m.points.map V3f.printed }
def BaseAttrs.printed (b : BaseAttrs) : BaseAttrs := { b with position := b.position.printed }
def PlaceAttrs.printed (p : PlaceAttrs) : PlaceAttrs := { p with frontierScale := p.frontierScale.printed }
def Place2dAttrs.printed (p : Place2dAttrs) : Place2dAttrs :=
  { p with boundary := p.boundary.map V3d.printed, ellipseCentroid := p.ellipseCentroid.printed, compress := p.compress.printed, expand := p.expand.printed }
def AgentAttrs.printed (a : AgentAttrs) : AgentAttrs := { a with dbowValues := { a.dbowValues with data := a.dbowValues.data.map F32.printed } }
def KhronosAttrs.printed (k : KhronosAttrs) : KhronosAttrs :=
  { k with mesh := k.mesh.printed, trajectoryPositions := k.trajectoryPositions.map V3f.printed,
           dynamicPoints := k.dynamicPoints.map (List.map V3f.printed) }

/-- one of the three kinds of valid bounding boxes -/
def BBox.Valid (b : BBox) : Prop := b.type = 1 ∨ b.type = 2 ∨ b.type = 3
instance (b : BBox) : Decidable b.Valid := by unfold BBox.Valid; infer_instance

/-- the quaternion of the rotation of a valid bounding box is finite -/
def BBox.Printable (F : JArith) (b : BBox) : Prop :=
  b.Valid → F32.finite (F.toQuat b.rot).1 = true ∧ F32.finite (F.toQuat b.rot).2.1 = true ∧ F32.finite (F.toQuat b.rot).2.2.1 = true ∧
    F32.finite (F.toQuat b.rot).2.2.2 = true

/-- A matrix with fewer than `2^31` coefficients. -/
def Matrix.Printable (m : Matrix F64) : Prop := m.rows < 2 ^ 31 ∧ m.cols < 2 ^ 31 ∧ m.rows * m.cols < 2 ^ 31

/-- a voxel position with finite coordinates -/
def NearestVertexInfo.Finite (x : NearestVertexInfo) : Prop :=
  F64.finite x.voxelPos.1 = true ∧ F64.finite x.voxelPos.2.1 = true ∧ F64.finite x.voxelPos.2.2 = true

def SemanticAttrs.Printable (F : JArith) (s : SemanticAttrs) : Prop :=
  Str.IsText s.name ∧ s.bbox.Printable F ∧ s.feature.Printable

/-- The JSON format can represent the attributes: strings are UTF-8, and the numbers are finite that are not coefficients of a vector or matrix:
probabilities, distances, quaternions, voxel positions. -/
def NodeAttrs.Printable (F : JArith) : NodeAttrs → Prop
  | .base _ => True
  | .semantic _ s => s.Printable F
  | .object _ s o => s.Printable F ∧ o.worldRObject.Finite
  | .room _ s p => s.Printable F ∧ ∀ e ∈ p.toList, Str.IsText e.1 ∧ F64.finite e.2 = true
  | .place _ s p => s.Printable F ∧ F64.finite p.distance = true ∧ p.orientation.Finite ∧ ∀ x ∈ p.voxblox, x.Finite
  | .place2d _ s p => s.Printable F ∧ ∀ x ∈ p.voxblox, x.Finite
  | .agent _ a => a.worldRBody.Finite ∧ a.dbowIds.rows < 2 ^ 31 ∧ a.dbowValues.rows < 2 ^ 31
  | .khronos _ s _ k => s.Printable F ∧ ∀ e ∈ k.details.toList, Str.IsText e.1

/-- What the format keeps of a bounding box: nothing of an invalid one; the rotation goes through a quaternion. -/
def BBox.jsonKept (F : JArith) (b : BBox) : BBox :=
  if b.Valid then ⟨b.type, b.dims.printed, b.center.printed, F.ofQuat (F.toQuat b.rot)⟩ else {}
def SemanticAttrs.jsonKept (F : JArith) (s : SemanticAttrs) : SemanticAttrs := { s with bbox := s.bbox.jsonKept F, feature := s.feature.printed }

/-- What the format keeps of an attribute object: what the binary format keeps, with the changes above. -/
def NodeAttrs.jsonKept (F : JArith) : NodeAttrs → NodeAttrs
  | .base b => .base b.printed
  | .semantic b s => .semantic b.printed (s.jsonKept F)
  | .object b s o => .object b.printed (s.jsonKept F) o
  | .room b s p => .room b.printed (s.jsonKept F) p
  | .place b s p => .place b.printed (s.jsonKept F) p.printed
  | .place2d b s p => .place2d b.printed (s.jsonKept F) { p.printed with pclMin := 0, pclMax := 0, needFinishMerge := false }
  | .agent b a => .agent b.printed a.printed
  | .khronos b s _ k => .khronos b.printed (s.jsonKept F) {} k.printed

/-- Bounding boxes are kept as they are: they are valid or have no members, and the quaternion gives the rotation back. -/
def BBox.Lossless (F : JArith) (b : BBox) : Prop :=
  if b.Valid then b.dims.printed = b.dims ∧ b.center.printed = b.center ∧ F.ofQuat (F.toQuat b.rot) = b.rot else b = {}

/-- what a document keeps of a node -/
def NodeInfo.jsonKept (F : JArith) (i : NodeInfo) : NodeInfo := { i with attrs := i.attrs.jsonKept F }

/-- What the JSON format can represent: nodes of static layers carry no time stamp; no dynamic layer has `2^32` slots; matrix members have the
sizes of their C++ types; strings are UTF-8; the numbers of `NodeAttrs.Printable` and the weights of edges are finite. -/
structure Graph.Printable (F : JArith) (g : Graph) : Prop where
  plain : ∀ n i, g.nodeObs n = some i → i.key.dynamic = false → i.stamp = none
  slots : ∀ d ∈ g.dynList, d.nodes.length < 2 ^ 32
  typed : ∀ n i, g.nodeObs n = some i → i.attrs.Typed
  nodes : ∀ n i, g.nodeObs n = some i → i.attrs.Printable F
  edges : ∀ a b i, g.edgeObs a b = some i → F64.finite i.attrs.weight = true

/-- The reader (registries `R`, `Q`) knows every attribute class that the writer (`W`, `V`) uses for the nodes and edges of `g`, by a name in
UTF-8; the writer registered no class twice, the reader at most 256. -/
structure Graph.Nameable (g : Graph) (W R : Registry NodeClass) (V Q : Registry EdgeClass) : Prop where
  nodesOnce : W.Once
  edgesOnce : V.Once
  nodesFew : R.entries.length ≤ 256
  edgesFew : Q.entries.length ≤ 256
  nodes : ∀ n i, g.nodeObs n = some i → ∃ name, Str.IsText name ∧ (name, i.attrs.cls) ∈ W.entries ∧ R.find? name = some i.attrs.cls
  edges : ∃ name, Str.IsText name ∧ (name, EdgeClass.base) ∈ V.entries ∧ Q.find? name = some .base

/-- `h` is what a document keeps of `g`: same layer ids, nodes (layer, stamp, attributes as far as they are kept), edges with orientation and
attributes, and adjacency sets. -/
structure Graph.Copies (F : JArith) (h g : Graph) : Prop where
  layerIds : h.layerIds = g.layerIds
  nodes : ∀ n, h.nodeObs n = (g.nodeObs n).map (NodeInfo.jsonKept F)
  edges : ∀ a b, h.edgeObs a b = g.edgeObs a b
  adjacent : ∀ n, h.adjObs n = g.adjObs n

end Verif
