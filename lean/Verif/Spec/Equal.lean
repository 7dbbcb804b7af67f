import Verif.Model.Equal
import Verif.Spec.Codec
/-!
# Specification of attribute equality: the members that count, the numbers among them, and base classes
-/

namespace Verif

/-- Neither NaN nor negative zero: a number whose bits say what it is. -/
def F64.Plain (x : F64) : Prop := x.isNan = false ∧ x ≠ 0x8000000000000000
def F32.Plain (x : F32) : Prop := x.isNan = false ∧ x ≠ 0x80000000

/-! ## The numbers that are compared -/

def V3d.nums (a : V3d) : List F64 := [a.x, a.y, a.z]
def V3f.nums (a : V3f) : List F32 := [a.x, a.y, a.z]
def Quat.nums (a : Quat) : List F64 := [a.w, a.x, a.y, a.z]
def NearestVertexInfo.nums (a : NearestVertexInfo) : List F64 := [a.voxelPos.1, a.voxelPos.2.1, a.voxelPos.2.2]
/-- An invalid box (type 0) has no geometry; an axis-aligned one (type 1) has no rotation. -/
def BBox.nums (a : BBox) : List F32 :=
  if a.type = 0 then [] else if a.type = 1 then a.dims.nums ++ a.center.nums else a.dims.nums ++ a.center.nums ++ a.rot.data
def PlaceAttrs.nums (a : PlaceAttrs) : List F64 :=
  [a.distance] ++ a.voxblox.flatMap (·.nums) ++ a.frontierScale.nums ++ a.orientation.nums
def Place2dAttrs.nums (a : Place2dAttrs) : List F64 :=
  a.boundary.flatMap (·.nums) ++ a.ellipseCentroid.nums ++ a.compress.data ++ a.expand.data ++ a.voxblox.flatMap (·.nums)
def KhronosAttrs.nums (a : KhronosAttrs) : List F32 :=
  a.mesh.points.flatMap (·.nums) ++ a.trajectoryPositions.flatMap (·.nums) ++ a.dynamicPoints.flatMap (·.flatMap (·.nums))

namespace NodeAttrs
/-- The doubles of an attribute object, except its position. -/
def doubles : NodeAttrs → List F64
  | base _ => []
  | semantic _ s => s.feature.data
  | object _ s o => s.feature.data ++ o.worldRObject.nums
  | room _ s _ => s.feature.data
  | place _ s p => s.feature.data ++ p.nums
  | place2d _ s p => s.feature.data ++ p.nums
  | agent _ a => a.worldRBody.nums
  | khronos _ s o _ => s.feature.data ++ o.worldRObject.nums
/-- The floats of an attribute object. -/
def floats : NodeAttrs → List F32
  | base _ => []
  | semantic _ s | object _ s _ | room _ s _ | place _ s _ | place2d _ s _ => s.bbox.nums
  | agent _ a => a.dbowValues.data
  | khronos _ s _ k => s.bbox.nums ++ k.nums

/-- No NaN, except perhaps in the position. -/
def NanFree (a : NodeAttrs) : Prop := (∀ x ∈ a.doubles, x.isNan = false) ∧ ∀ x ∈ a.floats, x.isNan = false
/-- Plain numbers only. -/
def Plain (a : NodeAttrs) : Prop := (∀ x ∈ a.position.nums ++ a.doubles, x.Plain) ∧ ∀ x ∈ a.floats, x.Plain
end NodeAttrs

/-! ## The members that do not count -/

/-- The geometry of an invalid box and the rotation of an axis-aligned one. -/
def BBox.forget (a : BBox) : BBox := if a.type = 0 then {} else if a.type = 1 then { a with rot := ({} : BBox).rot } else a
def SemanticAttrs.forget (s : SemanticAttrs) : SemanticAttrs := { s with bbox := s.bbox.forget }

namespace NodeAttrs
/-- Reset the members that equality ignores: besides those of bounding boxes, the class probabilities of rooms, three members of 2D places and
the time stamps of a Khronos object's trajectory. -/
def forget : NodeAttrs → NodeAttrs
  | base b => base b
  | semantic b s => semantic b s.forget
  | object b s o => object b s.forget o
  | room b s _ => room b s.forget ∅
  | place b s p => place b s.forget p
  | place2d b s p => place2d b s.forget { p with pclMin := 0, pclMax := 0, needFinishMerge := false }
  | agent b a => agent b a
  | khronos b s o k => khronos b s.forget o { k with trajectoryTimestamps := [] }

/-- The subobject of the given class, if the object's class is that class or derived from it. -/
def slice (c : NodeClass) (a : NodeAttrs) : Option NodeAttrs :=
  match c, a with
  | .base, a => some (base a.base')
  | .semantic, semantic b s | .semantic, object b s _ | .semantic, room b s _ | .semantic, place b s _ | .semantic, place2d b s _
  | .semantic, khronos b s _ _ => some (semantic b s)
  | .object, object b s o | .object, khronos b s o _ => some (object b s o)
  | .room, room b s p => some (room b s p)
  | .place, place b s p => some (place b s p)
  | .place2d, place2d b s p => some (place2d b s p)
  | .agent, agent b x => some (agent b x)
  | .khronos, khronos b s o k => some (khronos b s o k)
  | _, _ => none

/-- The semantic feature of an object that has one. -/
def feature? : NodeAttrs → Option (Matrix F64)
  | semantic _ s | object _ s _ | room _ s _ | place _ s _ | place2d _ s _ | khronos _ s _ _ => some s.feature
  | _ => none

/-- The matrices of dynamic size that both objects have agree in size. -/
def SameShape : NodeAttrs → NodeAttrs → Prop
  | agent _ x, agent _ y => x.dbowIds.rows = y.dbowIds.rows ∧ x.dbowIds.cols = y.dbowIds.cols ∧
      x.dbowValues.rows = y.dbowValues.rows ∧ x.dbowValues.cols = y.dbowValues.cols
  | a, b => ∀ s ∈ a.feature?, ∀ t ∈ b.feature?, s.rows = t.rows ∧ s.cols = t.cols
end NodeAttrs
end Verif
