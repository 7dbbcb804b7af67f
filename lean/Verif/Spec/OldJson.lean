import Verif.Spec.OldFormat
import Verif.Spec.Json
/-! # Specification: documents in the layouts of versions 1.0.0 to 1.0.4

The changes are those of the binary layouts; versions before 1.0.2 used the members of 1.0.2. -/

namespace Verif
namespace Supported

/-- The versions that use the members of `v`. -/
def Uses (x : Version) (v : Supported) : Prop := x = v.version ∨ (v = v102 ∧ (x = ⟨1, 0, 0⟩ ∨ x = ⟨1, 0, 1⟩))

/-- members of the base class -/
def jsonBase (v : Supported) (b : BaseAttrs) : List (Str × Json) :=
  match v with
  | v104 => JArith.baseAttrs b
  | _ => [(Str.lit "position", JArith.v3d b.position), (Str.lit "last_update_time_ns", .uint b.lastUpdate), (Str.lit "is_active", .bool b.isActive)]
/-- a colour: an array of three numbers, or an object with four -/
def jsonColor (v : Supported) (c : Color) : Json :=
  match v with
  | v102 => .arr [JArith.uint8 c.r, JArith.uint8 c.g, JArith.uint8 c.b]
  | _ => JArith.color c
/-- a bounding box, by its corners or by its dimensions -/
def jsonBox (F : JArith) (v : Supported) (c : V3f × V3f) (b : BBox) : Json :=
  match v with
  | v102 => .obj [(Str.lit "type", JArith.bboxType b.type), (Str.lit "min", F.v3f c.1), (Str.lit "max", F.v3f c.2),
      (Str.lit "world_P_center", F.v3f b.center), (Str.lit "world_R_center", F.quatf (F.toQuat b.rot))]
  | _ => F.bbox b
/-- members of semantic attributes -/
def jsonSemantic (F : JArith) (v : Supported) (c : V3f × V3f) (s : SemanticAttrs) : List (Str × Json) :=
  [(Str.lit "name", .str s.name), (Str.lit "color", v.jsonColor s.color), (Str.lit "bounding_box", jsonBox F v c s.bbox),
    (Str.lit "semantic_label", JArith.uint32 s.label), (Str.lit "semantic_feature", JArith.matrixDyn Json.num s.feature)]

/-- What is read of an old box: the extent between the corners; nothing of an invalid one. -/
def readBox (F : JArith) (v : Supported) (c : V3f × V3f) (b : BBox) : BBox :=
  match v with
  | v102 =>
    if b.Valid then ⟨b.type, ⟨F.fsub c.2.x.printed c.1.x.printed, F.fsub c.2.y.printed c.1.y.printed, F.fsub c.2.z.printed c.1.z.printed⟩, b.center.printed, F.ofQuat (F.toQuat b.rot)⟩ else {}
  | _ => b.jsonKept F
/-- What is read of semantic attributes. -/
def readJson (F : JArith) (v : Supported) (c : V3f × V3f) (s : SemanticAttrs) : SemanticAttrs :=
  match v with
  | v102 => ⟨s.name, { s.color with a := 255 }, readBox F v c s.bbox, s.label, s.feature.printed⟩
  | _ => s.jsonKept F

/-- The members of an attribute object, apart from its class name. -/
def jsonFields (F : JArith) (v : Supported) (c : V3f × V3f) : NodeAttrs → List (Str × Json)
  | .base b => v.jsonBase b
  | .semantic b s => v.jsonBase b ++ jsonSemantic F v c s
  | .object b s o => v.jsonBase b ++ jsonSemantic F v c s ++ JArith.objectAttrs o
  | .room b s p => v.jsonBase b ++ jsonSemantic F v c s ++ [(Str.lit "semantic_class_probabilities", JArith.map Json.num p)]
  | .place b s p => v.jsonBase b ++ jsonSemantic F v c s ++ JArith.placeAttrs p
  | .place2d b s p => v.jsonBase b ++ jsonSemantic F v c s ++ JArith.place2dAttrs p
  | .agent b a => v.jsonBase b ++ F.agentAttrs a
  | .khronos b s _ k => v.jsonBase b ++ jsonSemantic F v c s ++ F.khronosAttrs k
/-- What is read of an attribute object. -/
def readJsonAttrs (F : JArith) (v : Supported) (c : V3f × V3f) : NodeAttrs → NodeAttrs
  | .base b => .base (v.readBase b.printed)
  | .semantic b s => .semantic (v.readBase b.printed) (readJson F v c s)
  | .object b s o => .object (v.readBase b.printed) (readJson F v c s) o
  | .room b s p => .room (v.readBase b.printed) (readJson F v c s) p
  | .place b s p => .place (v.readBase b.printed) (readJson F v c s) p.printed
  | .place2d b s p => .place2d (v.readBase b.printed) (readJson F v c s) { p.printed with pclMin := 0, pclMax := 0, needFinishMerge := false }
  | .agent b a => .agent (v.readBase b.printed) a.printed
  | .khronos b s _ k => .khronos (v.readBase b.printed) (readJson F v c s) {} k.printed

end Supported
end Verif
