import Verif.Spec.Format
/-! # Specification: the file layouts of versions 1.0.2 to 1.0.4

Version 1.0.4 added the flag `is_predicted`; version 1.0.3 replaced the corners of bounding boxes by dimensions and added an alpha channel to
colours. -/

namespace Verif

/-- The versions whose binary files are supported. -/
inductive Supported
  | v102 | v103 | v104
  deriving DecidableEq

namespace Supported
/-- the version number -/
def version : Supported → Version
  | v102 => ⟨1, 0, 2⟩
  | v103 => ⟨1, 0, 3⟩
  | v104 => ⟨1, 0, 4⟩

/-- layout of the base class -/
def base (v : Supported) (b : BaseAttrs) : Wr :=
  match v with
  | v104 => Wr.baseAttrs b
  | _ => Wr.seq (Wr.v3d b.position) (Wr.seq (Wr.u64 b.lastUpdate) (Wr.bool b.isActive))
/-- layout of colours -/
def color (v : Supported) (c : Color) : Wr :=
  match v with
  | v102 => Wr.seq (Wr.u8 c.r) (Wr.seq (Wr.u8 c.g) (Wr.u8 c.b))
  | _ => Wr.color c
/-- layout of bounding boxes; `c` are the two corners -/
def bbox (v : Supported) (c : V3f × V3f) (b : BBox) : Wr :=
  match v with
  | v102 => Wr.seq (Wr.arrLen 5) (Wr.seq (Wr.i32 b.type) (Wr.seq (Wr.v3f c.1) (Wr.seq (Wr.v3f c.2) (Wr.seq (Wr.v3f b.center) (Wr.matrix Wr.f32 b.rot)))))
  | _ => Wr.bbox b
/-- layout of semantic attributes -/
def semantic (v : Supported) (c : V3f × V3f) (s : SemanticAttrs) : Wr :=
  Wr.seq (Wr.str s.name) (Wr.seq (v.color s.color) (Wr.seq (v.bbox c s.bbox) (Wr.seq (Wr.u32 s.label) (Wr.matrix Wr.f64 s.feature))))
/-- layout of an attribute object -/
def fields (v : Supported) (c : V3f × V3f) : NodeAttrs → Wr
  | .base b => v.base b
  | .semantic b s => Wr.seq (v.base b) (v.semantic c s)
  | .object b s o => Wr.seq (v.base b) (Wr.seq (v.semantic c s) (Wr.objectAttrs o))
  | .room b s p => Wr.seq (v.base b) (Wr.seq (v.semantic c s) (Wr.map Wr.str Wr.f64 p))
  | .place b s p => Wr.seq (v.base b) (Wr.seq (v.semantic c s) (Wr.placeAttrs p))
  | .place2d b s p => Wr.seq (v.base b) (Wr.seq (v.semantic c s) (Wr.place2dAttrs p))
  | .agent b a => Wr.seq (v.base b) (Wr.agentAttrs a)
  | .khronos b s _ k => Wr.seq (v.base b) (Wr.seq (v.semantic c s) (Wr.khronosAttrs k))

/-- What is read of the base class: nothing is predicted in old files. -/
def readBase (v : Supported) (b : BaseAttrs) : BaseAttrs :=
  match v with
  | v104 => b
  | _ => { b with isPredicted := false }
/-- What is read of semantic attributes: old colours are opaque, old boxes extend from one corner to the other. -/
def readSemantic (fsub : F32 → F32 → F32) (v : Supported) (c : V3f × V3f) (s : SemanticAttrs) : SemanticAttrs :=
  match v with
  | v102 => { s with color := { s.color with a := 255 }, bbox := { s.bbox with dims := ⟨fsub c.2.x c.1.x, fsub c.2.y c.1.y, fsub c.2.z c.1.z⟩ } }
  | _ => s
/-- What is read of an attribute object. -/
def read (fsub : F32 → F32 → F32) (v : Supported) (c : V3f × V3f) : NodeAttrs → NodeAttrs
  | .base b => .base (v.readBase b)
  | .semantic b s => .semantic (v.readBase b) (readSemantic fsub v c s)
  | .object b s o => .object (v.readBase b) (readSemantic fsub v c s) o
  | .room b s p => .room (v.readBase b) (readSemantic fsub v c s) p
  | .place b s p => .place (v.readBase b) (readSemantic fsub v c s) p
  | .place2d b s p => .place2d (v.readBase b) (readSemantic fsub v c s) p
  | .agent b a => .agent (v.readBase b) a
  | .khronos b s o k => .khronos (v.readBase b) (readSemantic fsub v c s) o k

/-- The format of a version, for a graph whose nodes had boxes with the given corners. -/
def fmt (fsub : F32 → F32 → F32) (v : Supported) (corners : NodeId → V3f × V3f) : Fmt where
  fields n a := v.fields (corners n) a
  kept n a := (v.read fsub (corners n) a).kept

/-- A file of the version: header and graph. -/
def file (v : Supported) (corners : NodeId → V3f × V3f) (P : Prog) (g : Graph) (includeMesh : Bool) : Wr :=
  Wr.seq (FileHeader.write ⟨Str.lit "main", v.version⟩) (g.writeAs (v.fmt P.fsub corners) P.R P.Q includeMesh)
end Supported

end Verif
