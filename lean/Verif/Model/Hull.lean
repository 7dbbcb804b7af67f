import Verif.Model.Box
/-!
# Yaw-aligned boxes: src/bounding_box_extraction.cpp:42-225

`PointAdaptor` is a list of points. `std::sort` is a parameter: any function that sorts by a strict weak ordering; with another comparison it is undefined
behaviour. `std::sin`, `std::cos` and `std::atan2` are parameters. Eigen: `normalized`, the scalar product, the inverse of a 2x2 matrix and
`AngleAxis::toRotationMatrix` are spelt out; no vectorisation, no fused multiply-add. As everywhere, the NaN that an operation produces is one bit pattern.
-/

namespace Verif

/-- `Eigen::Vector2f` -/
structure V2f where
  x : F32
  y : F32
  deriving DecidableEq, Repr

namespace F32
/-- One binary digit after the other: the largest `r` with `r * r ≤ n` that agrees with `r` above the last `i` digits. -/
def isqrtGo (n : Nat) : Nat → Nat → Nat
  | 0, r => r
  | i + 1, r => if (r + 2 ^ i) * (r + 2 ^ i) ≤ n then isqrtGo n i (r + 2 ^ i) else isqrtGo n i r
/-- the integer part of the square root -/
def isqrt (n : Nat) : Nat := isqrtGo n (n.log2 / 2 + 1) 0
/-- `std::sqrt`, correctly rounded (IEEE 754). The root of `v` units is the root of `v * 2^149` in units; if that is not a whole number, it is rounded like the
number half way between its neighbours: numbers where rounding changes are whole there. -/
def sqrt (x : F32) : F32 :=
  if x.isNan then nan
  else if x.magBits = 0 then x
  else if x.neg? then nan
  else if x.isInf then x
  else
    let n := magVal x.magBits * 2 ^ 149
    let r := isqrt n
    pack false (roundMag (if r * r = n then 2 * r else 2 * r + 1) 2)
/-- `1.0e-9f` -/
def tiny : F32 := 0x3089705F
end F32

namespace V2f
def sub (a b : V2f) : V2f := ⟨a.x.sub b.x, a.y.sub b.y⟩
/-- `a.dot(b)` -/
def dot (a b : V2f) : F32 := (a.x.mul b.x).add (a.y.mul b.y)
/-- Eigen: `normalized()` divides by the norm if its square is positive. -/
def normalized (a : V2f) : V2f :=
  let z := a.dot a
  if F32.lt 0 z then ⟨a.x.div z.sqrt, a.y.div z.sqrt⟩ else a
end V2f

/-- `head<2>()` -/
def V3f.head2 (p : V3f) : V2f := ⟨p.x, p.y⟩

/-- bounding_box_extraction.cpp:42-47 -/
def getAngle (curr root : V3f) : F32 := F32.one.sub (curr.head2.sub root.head2).normalized.x
/-- bounding_box_extraction.cpp:49-51 -/
def getDist (curr root : V3f) : F32 :=
  let d := curr.head2.sub root.head2
  d.x.abs.add d.y.abs
/-- bounding_box_extraction.cpp:53-59 -/
def getJointDirection (prev curr next : V3f) : F32 :=
  let v1 := curr.head2.sub prev.head2
  let v2 := next.head2.sub prev.head2
  (v1.x.mul v2.y).sub (v1.y.mul v2.x)

namespace Hull

/-- `points[i]`; indices outside never occur (C63). -/
def pt (ps : List V3f) (i : Nat) : V3f := ps.getD i ⟨0, 0, 0⟩

/-- bounding_box_extraction.cpp:64-76: one turn of the loop; the state is the index of the root. -/
def rootStep (ps : List V3f) (root i : Nat) : Nat :=
  if F32.lt (pt ps root).y (pt ps i).y then root
  else if (pt ps i).y.eq (pt ps root).y && F32.lt (pt ps root).x (pt ps i).x then root
  else i
/-- bounding_box_extraction.cpp:62-76 -/
def findRoot (ps : List V3f) : Nat := (List.range ps.length).foldl (rootStep ps) 0

/-- bounding_box_extraction.cpp:78-90 `compare` -/
def before (ps : List V3f) (root i j : Nat) : Bool :=
  let a_i := getAngle (pt ps i) (pt ps root)
  let a_j := getAngle (pt ps j) (pt ps root)
  if (a_i.sub a_j).abs.lt F32.tiny then (getDist (pt ps i) (pt ps root)).lt (getDist (pt ps j) (pt ps root))
  else a_i.lt a_j

/-- bounding_box_extraction.cpp:92-97 -/
def others (ps : List V3f) (root : Nat) : List Nat := (List.range ps.length).filter (· != root)

/-- What `std::sort` requires of its comparison, on the elements of the range ([alg.sorting]): irreflexive, transitive, and so is "neither before". -/
def strictWeak (lt : Nat → Nat → Bool) (l : List Nat) : Bool :=
  l.all fun a => !lt a a && l.all fun b => l.all fun c =>
    (!(lt a b && lt b c) || lt a c) && (!(!lt a b && !lt b a && !lt b c && !lt c b) || (!lt a c && !lt c a))

/-- bounding_box_extraction.cpp:101-116: the hull so far, last first. -/
def push (ps : List V3f) : List Nat → Nat → List Nat
  | prev :: curr :: rest, idx =>
    if (getJointDirection (pt ps prev) (pt ps curr) (pt ps idx)).lt 0 then idx :: prev :: curr :: rest else push ps (curr :: rest) idx
  | hull, idx => idx :: hull

/-- bounding_box_extraction.cpp:61-119 `get2dConvexHull`, for at least one point. -/
def hull (sort : (Nat → Nat → Bool) → List Nat → List Nat) (ps : List V3f) : Res (List Nat) :=
  let root := findRoot ps
  if !strictWeak (before ps root) (others ps root) then .ub
  else .ok ((sort (before ps root) (others ps root)).foldl (push ps) [root]).reverse

/-- bounding_box_extraction.cpp:121-126 -/
structure Flat where
  xMin : V2f := ⟨0, 0⟩
  xMax : V2f := ⟨0, 0⟩
  minArea : Option F32 := none
  yaw : F32 := 0
  deriving DecidableEq, Repr

/-- `std::atan2`, `std::sin`, `std::cos` for `float`. -/
structure Trig where
  atan2 : F32 → F32 → F32
  sin : F32 → F32
  cos : F32 → F32

/-- bounding_box_extraction.cpp:145-147: the distances from the lines along and across an edge. -/
structure Spread where
  maxW : F32 := 0
  minH : F32 := 0
  maxH : F32 := 0
  deriving DecidableEq, Repr

/-- bounding_box_extraction.cpp:148-163 -/
def spreadStep (nw nh : V2f) (bw bh : F32) (s : Spread) (x : V2f) : Spread :=
  let w := (nw.dot x).add bw
  let h := (nh.dot x).add bh
  ⟨if s.maxW.le w then w else s.maxW, if h.le s.minH then h else s.minH, if s.maxH.le h then h else s.maxH⟩

/-- bounding_box_extraction.cpp:172-182 `-A.inverse() * b` for the matrix with rows `r0`, `r1`. -/
def solve (r0 r1 b : V2f) : V2f :=
  let invdet := F32.one.div ((r0.x.mul r1.y).sub (r1.x.mul r0.y))
  let a00 := r1.y.mul invdet
  let a10 := r1.x.neg.mul invdet
  let a01 := r0.y.neg.mul invdet
  let a11 := r0.x.mul invdet
  ⟨(a00.neg.mul b.x).add (a01.neg.mul b.y), (a10.neg.mul b.x).add (a11.neg.mul b.y)⟩

/-- bounding_box_extraction.cpp:133-139: the direction of the edge from hull point `i` to the next. -/
def edgeDir (ps : List V3f) (h : List Nat) (i : Nat) : V2f :=
  ((pt ps (h.getD ((i + 1) % h.length) 0)).head2.sub (pt ps (h.getD i 0)).head2).normalized
/-- bounding_box_extraction.cpp:140 -/
def across (n : V2f) : V2f := ⟨n.y.neg, n.x⟩

/-- bounding_box_extraction.cpp:141-163 -/
def spread (ps : List V3f) (h : List Nat) (i : Nat) : Spread :=
  let xc := (pt ps (h.getD i 0)).head2
  let nh := edgeDir ps h i
  let nw := across nh
  ((List.range (h.length - 1)).map fun j => (pt ps (h.getD ((i + (j + 1)) % h.length) 0)).head2).foldl
    (spreadStep nw nh (nw.dot xc).neg (nh.dot xc).neg) {}

/-- bounding_box_extraction.cpp:133-184: one turn of the loop. -/
def flatStep (t : Trig) (ps : List V3f) (h : List Nat) (r : Flat) (i : Nat) : Flat :=
  let xc := (pt ps (h.getD i 0)).head2
  let nh := edgeDir ps h i
  let nw := across nh
  let bw := (nw.dot xc).neg
  let bh := (nh.dot xc).neg
  let s := spread ps h i
  let area := s.maxW.mul (s.maxH.sub s.minH)
  let replace : Flat := ⟨solve nw nh ⟨bw, bh.sub s.minH⟩, solve nw nh ⟨bw.sub s.maxW, bh.sub s.maxH⟩, some area, t.atan2 nh.y nh.x⟩
  match r.minArea with
  | some a => if a.le area then r else replace
  | none => replace
/-- bounding_box_extraction.cpp:128-187 `getMin2DBox` -/
def minBox (t : Trig) (ps : List V3f) (h : List Nat) : Flat := (List.range h.length).foldl (flatStep t ps h) {}

/-- Eigen `AngleAxisf(yaw, UnitZ).toRotationMatrix()`, column by column. -/
def rotation (t : Trig) (yaw : F32) : Matrix F32 :=
  let s := t.sin yaw
  let c := t.cos yaw
  let sx := s.mul 0
  let sz := s.mul F32.one
  let cx := (F32.one.sub c).mul 0
  let cz := (F32.one.sub c).mul F32.one
  let t01 := cx.mul 0
  let t02 := cx.mul F32.one
  ⟨3, 3, [(cx.mul 0).add c, t01.add sz, t02.sub sx, t01.sub sz, (cx.mul 0).add c, t02.add sx, t02.add sx, t02.sub sx, (cz.mul F32.one).add c]⟩

/-- bounding_box.cpp:49-54 -/
def yawed (t : Trig) (dims center : V3f) (yaw : F32) : BBox := { type := BBox.RAABB, dims, center, rot := rotation t yaw }

/-- bounding_box_extraction.cpp:201-225 `extractRAABB` -/
def extractRAABB (sort : (Nat → Nat → Bool) → List Nat → List Nat) (t : Trig) (ps : List V3f) : Res BBox := do
  let h ← hull sort ps
  let r := minBox t ps h
  match r.minArea with
  | none => return {}
  | some _ =>
    let z0 := (pt ps 0).z
    let minZ := (ps.drop 1).foldl (fun m p => F32.min' p.z m) z0
    let maxZ := (ps.drop 1).foldl (fun m p => F32.max' p.z m) z0
    let pMin : V3f := ⟨r.xMin.x, r.xMin.y, minZ⟩
    let pMax : V3f := ⟨r.xMax.x, r.xMax.y, maxZ⟩
    let b := yawed t ⟨0, 0, 0⟩ ((pMin.add pMax).map F32.half) r.yaw
    return { b with dims := (b.pointToBoxFrame pMax).sub (b.pointToBoxFrame pMin) }

end Hull
end Verif
