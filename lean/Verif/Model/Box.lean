import Verif.Model.Float32
/-!
# Bounding boxes: src/bounding_box.cpp, src/bounding_box_extraction.cpp

Eigen's reductions over three coefficients are evaluated as `f c0 (f c1 c2)` (`redux_novec_unroller`); its `min` and `max` are `std::min` and
`std::max`. No fused multiply-add.
-/

namespace Verif

namespace F32
/-- `std::min(x, y)` -/
def min' (x y : F32) : F32 := if y.lt x then y else x
/-- `std::max(x, y)` -/
def max' (x y : F32) : F32 := if x.lt y then y else x
/-- `x / 2`: the integer is converted to `float`. -/
def half (x : F32) : F32 := x.div two
end F32

namespace V3f
/-- Coefficient-wise operations of Eigen. -/
def map (f : F32 → F32) (a : V3f) : V3f := ⟨f a.x, f a.y, f a.z⟩
def zip (f : F32 → F32 → F32) (a b : V3f) : V3f := ⟨f a.x b.x, f a.y b.y, f a.z b.z⟩
def add (a b : V3f) : V3f := a.zip F32.add b
def sub (a b : V3f) : V3f := a.zip F32.sub b
/-- `redux` -/
def reduce (f : F32 → F32 → F32) (a : V3f) : F32 := f a.x (f a.y a.z)
/-- comparisons, `.all()` -/
def all (p : F32 → F32 → Bool) (a b : V3f) : Bool := p a.x b.x && p a.y b.y && p a.z b.z
end V3f

/-- `Eigen::Matrix3f` times a vector, `a` in column-major order; `transpose` swaps rows and columns. -/
def Matrix.mulVec (m : Matrix F32) (transpose : Bool) (v : V3f) : V3f :=
  let c (i j : Nat) : F32 := m.data.getD (if transpose then 3 * i + j else 3 * j + i) 0
  let row (i : Nat) : F32 := ((c i 0).mul v.x).add (((c i 1).mul v.y).add ((c i 2).mul v.z))
  ⟨row 0, row 1, row 2⟩

namespace BBox

/-- bounding_box.h:53-58 -/
def INVALID : UInt32 := 0
def AABB : UInt32 := 1
def OBB : UInt32 := 2
def RAABB : UInt32 := 3

/-- bounding_box.cpp:45-47 -/
def aabb (dims center : V3f) : BBox := { type := AABB, dims, center }

/-- bounding_box.cpp:86-91 -/
def isValid (b : BBox) : Bool :=
  if b.type == INVALID then false else (F32.lt 0 b.dims.x && F32.lt 0 b.dims.y && F32.lt 0 b.dims.z)
/-- bounding_box.cpp:93-98 -/
def volume (b : BBox) : F32 := if !b.isValid then 0 else b.dims.reduce F32.mul
/-- bounding_box.cpp:100-105 -/
def hasRotation (b : BBox) : Bool :=
  if b.type == INVALID || b.type == AABB then false else !(Matrix.eqFixed F32.eq b.rot ({} : BBox).rot)
/-- bounding_box.cpp:107-109 -/
def minCorner (b : BBox) : V3f := b.center.sub (b.dims.map F32.half)
/-- bounding_box.cpp:111-113 -/
def maxCorner (b : BBox) : V3f := b.center.add (b.dims.map F32.half)
/-- bounding_box.cpp:115-138 -/
def corners (b : BBox) : List V3f :=
  let mn : V3f := b.dims.map (fun d => d.neg.half)
  let mx : V3f := b.dims.map F32.half
  let cs : List V3f := [mn, ⟨mx.x, mn.y, mn.z⟩, ⟨mx.x, mx.y, mn.z⟩, ⟨mn.x, mx.y, mn.z⟩,
    ⟨mn.x, mn.y, mx.z⟩, ⟨mx.x, mn.y, mx.z⟩, mx, ⟨mn.x, mx.y, mx.z⟩]
  let cs := if b.hasRotation then cs.map (b.rot.mulVec false) else cs
  cs.map (·.add b.center)

/-- bounding_box_extraction.cpp:189-197 `extractAABB` of `p :: ps` -/
def extractAABB (p : V3f) (ps : List V3f) : BBox :=
  let mn := ps.foldl (V3f.zip F32.min') p
  let mx := ps.foldl (V3f.zip F32.max') p
  aabb (mx.sub mn) ((mn.add mx).map F32.half)
/-- bounding_box_extraction.cpp:227-242 `extract`. Simplified: the yaw-aligned box (201-225, with `atan2`, `sin`, `cos`) is a parameter. -/
def extract (raabb : List V3f → BBox) (points : List V3f) (type : UInt32) : BBox :=
  match points with
  | [] => {}
  | p :: ps =>
    if type == AABB then extractAABB p ps
    else if type == OBB then {}
    else if type == RAABB then raabb points
    else {}

/-- bounding_box.cpp:157-162 -/
def mergeAABB (a b : BBox) : BBox :=
  let mn := a.minCorner.zip F32.min' b.minCorner
  let mx := a.maxCorner.zip F32.max' b.maxCorner
  { a with dims := mx.sub mn, center := (mn.add mx).map F32.half }
/-- bounding_box.cpp:164-178 -/
def mergeGeneral (raabb : List V3f → BBox) (a b : BBox) : BBox := extract raabb (a.corners ++ b.corners) a.type
/-- bounding_box.cpp:140-155 -/
def merge (raabb : List V3f → BBox) (a b : BBox) : BBox :=
  if !b.isValid then a
  else if !a.isValid then b
  else if a.type == AABB && b.type == AABB then a.mergeAABB b
  else a.mergeGeneral raabb b

/-- bounding_box.cpp:188-194 -/
def pointToBoxFrame (b : BBox) (p : V3f) : V3f :=
  if b.hasRotation then b.rot.mulVec true (p.sub b.center) else p.sub b.center
/-- bounding_box.cpp:180-186 -/
def pointToWorldFrame (b : BBox) (p : V3f) : V3f :=
  if b.hasRotation then (b.rot.mulVec false p).add b.center else p.add b.center
/-- bounding_box.cpp:277-279 -/
def isInside (b : BBox) (p : V3f) : Bool := (((p.map F32.abs).sub (b.dims.map F32.half)).reduce F32.max').le 0
/-- bounding_box.cpp:196-201 -/
def contains (b : BBox) (p : V3f) : Bool := if !b.isValid then false else b.isInside (b.pointToBoxFrame p)
/-- bounding_box.cpp:203-205 -/
def containsD (b : BBox) (p : V3d) : Bool := b.contains ⟨p.x.toFloat, p.y.toFloat, p.z.toFloat⟩
/-- bounding_box.cpp:207-219 -/
def intersects (a b : BBox) : Bool :=
  if !a.isValid || !b.isValid then false
  else if a.type != AABB || b.type != AABB then false
  else a.minCorner.all F32.lt b.maxCorner && a.maxCorner.all (fun x y => F32.lt y x) b.minCorner
/-- bounding_box.cpp:221-238 -/
def computeIoU (a b : BBox) : F32 :=
  if !a.isValid || !b.isValid then 0
  else if a.type != AABB || b.type != AABB then 0
  else
    let mn := a.minCorner.zip F32.max' b.minCorner
    let mx := a.maxCorner.zip F32.min' b.maxCorner
    let size := (mx.sub mn).map (fun x => F32.max' x 0)
    let inter := size.reduce F32.mul
    let union := (a.volume.add b.volume).sub inter
    inter.div union

end BBox
end Verif
