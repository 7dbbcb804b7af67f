import Verif.Model.Types
/-!
# `operator==` of attributes, bounding boxes and meshes

src/node_attributes.cpp, src/edge_attributes.cpp, src/bounding_box.cpp:240-254, src/mesh.cpp:251-258. Numbers are compared as IEEE 754 prescribes.
-/

namespace Verif

/-- `std::isnan(double)` -/
def F64.isNan (x : F64) : Bool := (x >>> 52) &&& 0x7FF == 0x7FF && x &&& 0xFFFFFFFFFFFFF != 0
/-- `std::isnan(float)` -/
def F32.isNan (x : F32) : Bool := (x >>> 23) &&& 0xFF == 0xFF && x &&& 0x7FFFFF != 0
/-- `==` on doubles: NaN differs from everything, the two zeros are equal. -/
def F64.eq (x y : F64) : Bool := !x.isNan && !y.isNan && (x == y || (x &&& 0x7FFFFFFFFFFFFFFF == 0 && y &&& 0x7FFFFFFFFFFFFFFF == 0))
/-- `==` on floats -/
def F32.eq (x y : F32) : Bool := !x.isNan && !y.isNan && (x == y || (x &&& 0x7FFFFFFF == 0 && y &&& 0x7FFFFFFF == 0))

/-- `==` on `std::vector` and `std::list`: sizes, then the elements. -/
def listEq {α : Type} (eq : α → α → Bool) : List α → List α → Bool
  | [], [] => true
  | x :: xs, y :: ys => eq x y && listEq eq xs ys
  | _, _ => false

/-- `==` on `Eigen::Vector3d` -/
def V3d.eq (a b : V3d) : Bool := F64.eq a.x b.x && F64.eq a.y b.y && F64.eq a.z b.z
/-- `==` on `Eigen::Vector3f` -/
def V3f.eq (a b : V3f) : Bool := F32.eq a.x b.x && F32.eq a.y b.y && F32.eq a.z b.z
/-- node_attributes.cpp:238-243 `quaternionsEqual` -/
def Quat.eq (a b : Quat) : Bool := F64.eq a.w b.w && F64.eq a.x b.x && F64.eq a.y b.y && F64.eq a.z b.z

/-- node_attributes.cpp:74-92 `matricesEqual`, one coefficient: two NaNs count as equal. -/
def F64.eqNan (x y : F64) : Bool := (x.isNan && y.isNan) || F64.eq x y

/-- `==` on Eigen matrices of fixed size: all coefficients. -/
def Matrix.eqFixed {α : Type} (eq : α → α → Bool) (a b : Matrix α) : Bool := listEq eq a.data b.data
/-- `==` on Eigen matrices of dynamic size. Eigen requires that the sizes agree: otherwise its assertion ends the program if assertions are
compiled in, and if not, the coefficients at the positions of the right operand are compared, and read past the end of a smaller left one.
Simplified: without assertions every disagreement counts as undefined. -/
def Matrix.eqDyn {α : Type} (assertions : Bool) (eq : α → α → Bool) (a b : Matrix α) : Res Bool :=
  if a.rows = b.rows ∧ a.cols = b.cols then .ok (listEq eq a.data b.data)
  else if assertions then .throw .abort else .ub

/-- edge_attributes.cpp:77-79 `EdgeAttributes::is_equal` -/
def EdgeAttrs.eq (a b : EdgeAttrs) : Bool := a.weighted == b.weighted && F64.eq a.weight b.weight

/-- bounding_box.cpp:240-254 `BoundingBox::operator==` -/
def BBox.eq (a b : BBox) : Bool :=
  if a.type != b.type then false
  else if a.type == 0 then true
  else if !V3f.eq a.dims b.dims || !V3f.eq a.center b.center then false
  else if a.type == 1 then true
  else Matrix.eqFixed F32.eq a.rot b.rot

/-- mesh.cpp:251-258 -/
def Mesh.eq (a b : Mesh) : Bool :=
  a.hasColors == b.hasColors && a.hasTimestamps == b.hasTimestamps && a.hasLabels == b.hasLabels && a.hasFirstSeen == b.hasFirstSeen &&
  listEq V3f.eq a.points b.points && a.colors == b.colors && a.stamps == b.stamps && a.firstSeen == b.firstSeen && a.labels == b.labels &&
  a.faces == b.faces

/-- node_attributes.cpp:94-100 -/
def NearestVertexInfo.eq (a b : NearestVertexInfo) : Bool :=
  a.block == b.block && (F64.eq a.voxelPos.1 b.voxelPos.1 && F64.eq a.voxelPos.2.1 b.voxelPos.2.1 && F64.eq a.voxelPos.2.2 b.voxelPos.2.2) &&
  a.vertex == b.vertex && a.label == b.label

/-- node_attributes.cpp:146-150 `NodeAttributes::is_equal` -/
def BaseAttrs.eq (a b : BaseAttrs) : Bool :=
  (F64.eqNan a.position.x b.position.x && F64.eqNan a.position.y b.position.y && F64.eqNan a.position.z b.position.z) &&
  a.lastUpdate == b.lastUpdate && a.isActive == b.isActive && a.isPredicted == b.isPredicted

/-- node_attributes.cpp:208-211: the members of `SemanticNodeAttributes` -/
def SemanticAttrs.eq (assertions : Bool) (a b : SemanticAttrs) : Res Bool :=
  if a.name == b.name && a.color == b.color && BBox.eq a.bbox b.bbox && a.label == b.label then
    Matrix.eqDyn assertions F64.eq a.feature b.feature
  else .ok false

/-- node_attributes.cpp:255-257: the members of `ObjectNodeAttributes` -/
def ObjectAttrs.eq (a b : ObjectAttrs) : Bool :=
  a.meshConnections == b.meshConnections && a.registered == b.registered && Quat.eq a.worldRObject b.worldRObject

/-- node_attributes.cpp:335-346 -/
def PlaceAttrs.eq (a b : PlaceAttrs) : Bool :=
  F64.eq a.distance b.distance && a.numBasisPoints == b.numBasisPoints && listEq NearestVertexInfo.eq a.voxblox b.voxblox && a.pcl == b.pcl &&
  a.labels == b.labels && a.deformation == b.deformation && a.realPlace == b.realPlace && a.activeFrontier == b.activeFrontier &&
  V3d.eq a.frontierScale b.frontierScale && Quat.eq a.orientation b.orientation && a.needCleanup == b.needCleanup &&
  a.numFrontierVoxels == b.numFrontierVoxels

/-- node_attributes.cpp:396-406 -/
def Place2dAttrs.eq (a b : Place2dAttrs) : Bool :=
  listEq V3d.eq a.boundary b.boundary && V3d.eq a.ellipseCentroid b.ellipseCentroid && Matrix.eqFixed F64.eq a.compress b.compress &&
  Matrix.eqFixed F64.eq a.expand b.expand && a.pclBoundary == b.pclBoundary && listEq NearestVertexInfo.eq a.voxblox b.voxblox &&
  a.pcl == b.pcl && a.labels == b.labels && a.deformation == b.deformation && a.needCleanupSplitting == b.needCleanupSplitting &&
  a.hasActiveMeshIndices == b.hasActiveMeshIndices

/-- node_attributes.cpp:446-448 -/
def AgentAttrs.eq (assertions : Bool) (a b : AgentAttrs) : Res Bool :=
  if Quat.eq a.worldRBody b.worldRBody && a.externalKey == b.externalKey then
    Matrix.eqDyn assertions (· == ·) a.dbowIds b.dbowIds >>= fun e =>
      if e then Matrix.eqDyn assertions F32.eq a.dbowValues b.dbowValues else .ok false
  else .ok false

/-- node_attributes.cpp:493-497 -/
def KhronosAttrs.eq (a b : KhronosAttrs) : Bool :=
  a.firstObserved == b.firstObserved && a.lastObserved == b.lastObserved && Mesh.eq a.mesh b.mesh &&
  listEq V3f.eq a.trajectoryPositions b.trajectoryPositions && listEq (listEq V3f.eq) a.dynamicPoints b.dynamicPoints &&
  decide (a.details = b.details)

namespace NodeAttrs

/-- `dynamic_cast<const SemanticNodeAttributes*>` -/
def semantic? : NodeAttrs → Option SemanticAttrs
  | semantic _ s | object _ s _ | room _ s _ | place _ s _ | place2d _ s _ | khronos _ s _ _ => some s
  | _ => none
/-- `dynamic_cast<const ObjectNodeAttributes*>` -/
def object? : NodeAttrs → Option ObjectAttrs
  | object _ _ o | khronos _ _ o _ => some o
  | _ => none

/-- node_attributes.cpp:198-212 `SemanticNodeAttributes::is_equal`, non-virtually -/
def semanticEq (assertions : Bool) (b : BaseAttrs) (s : SemanticAttrs) (other : NodeAttrs) : Res Bool :=
  match other.semantic? with
  | none => .ok false
  | some s' => if !b.eq other.base' then .ok false else s.eq assertions s'

/-- node_attributes.cpp:245-258 `ObjectNodeAttributes::is_equal`, non-virtually -/
def objectEq (assertions : Bool) (b : BaseAttrs) (s : SemanticAttrs) (o : ObjectAttrs) (other : NodeAttrs) : Res Bool :=
  match other.object? with
  | none => .ok false
  | some o' => semanticEq assertions b s other >>= fun e => if !e then .ok false else .ok (o.eq o')

/-- node_attributes.cpp:115-117 `operator==`: the virtual `is_equal` of the left operand (146-150, 198-212, 245-258, 276-283, 325-347, 386-407,
436-449, 483-498). -/
def isEqual (assertions : Bool) (a other : NodeAttrs) : Res Bool :=
  match a with
  | base b => .ok (b.eq other.base')
  | semantic b s => semanticEq assertions b s other
  | object b s o => objectEq assertions b s o other
  | room b s _ => match other with
    | room _ _ _ => semanticEq assertions b s other
    | _ => .ok false
  | place b s p => match other with
    | place _ _ p' => semanticEq assertions b s other >>= fun e => if !e then .ok false else .ok (p.eq p')
    | _ => .ok false
  | place2d b s p => match other with
    | place2d _ _ p' => semanticEq assertions b s other >>= fun e => if !e then .ok false else .ok (p.eq p')
    | _ => .ok false
  | agent b x => match other with
    | agent _ x' => if !b.eq other.base' then .ok false else x.eq assertions x'
    | _ => .ok false
  | khronos b s o k => match other with
    | khronos _ _ _ k' => objectEq assertions b s o other >>= fun e => if !e then .ok false else .ok (k.eq k')
    | _ => .ok false

end NodeAttrs
end Verif
