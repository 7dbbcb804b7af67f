# round 6: floats and bounding boxes
M=[]
def m(id,file,d,old,new,claim,**k): M.append(dict(id=id,file=file,definition=d,old=old,new=new,claim=claim,**k))
B="Model/Box.lean"; F="Model/Float32.lean"
m("M228",B,"isValid","(F32.lt 0 b.dims.x && F32.lt 0 b.dims.y && F32.lt 0 b.dims.z)","(F32.lt 0 b.dims.x && F32.lt 0 b.dims.y)","C57: valid iff two points differ on every axis")
m("M229",B,"isValid","F32.lt 0 b.dims.z)","F32.le 0 b.dims.z)","C57: a flat fit is invalid")
m("M230",B,"isValid","if b.type == INVALID then false else","if b.type == AABB then false else","C55: valid boxes contain their points")
m("M231",B,"volume","if !b.isValid then 0 else b.dims.reduce F32.mul","b.dims.reduce F32.mul","C55: an invalid box has volume 0")
m("M232",B,"hasRotation","if b.type == INVALID || b.type == AABB then false","if b.type == INVALID then false","C55: axis-aligned boxes ignore the rotation")
m("M233",B,"minCorner","b.center.sub (b.dims.map F32.half)","b.center.sub b.dims","C56: intersects is exact on a grid")
m("M234",B,"maxCorner","b.center.add (b.dims.map F32.half)","b.center.add b.dims","C56: intersects is exact on a grid")
m("M235",B,"corners","⟨mx.x, mx.y, mn.z⟩","⟨mx.x, mn.y, mn.z⟩","C55: the eight corners",nth=0)
m("M236",B,"corners","cs.map (·.add b.center)","cs","C55: corners are in the world frame")
m("M237",B,"extractAABB","ps.foldl (V3f.zip F32.max') p","ps.foldl (V3f.zip F32.min') p","C57: the extent of the points")
m("M238",B,"extractAABB","aabb (mx.sub mn) ((mn.add mx).map F32.half)","aabb (mx.sub mn) (mn.add mx)","C57: the centre is half way")
m("M239",B,"extractAABB","aabb (mx.sub mn)","aabb ((mx.sub mn).map F32.half)","C57: dims are the extent")
m("M240",B,"extract","else if type == OBB then {}","else if type == OBB then extractAABB p ps","C57: no fit of type OBB")
m("M241",B,"mergeAABB","let mn := a.minCorner.zip F32.min' b.minCorner","let mn := a.minCorner","C57: the merged box covers both")
m("M242",B,"mergeAABB","{ a with dims := mx.sub mn, center := (mn.add mx).map F32.half }","{ a with dims := mx.sub mn }","C57: the merged box covers both")
m("M243",B,"merge","if !b.isValid then a\n","if !b.isValid then b\n","C57: merging an invalid box changes nothing")
m("M244",B,"merge","else if !a.isValid then b\n","else if !a.isValid then a\n","C57: merging into an invalid box copies")
m("M245",B,"merge","if a.type == AABB && b.type == AABB then","if a.type == AABB then","C57: merging an oriented box covers its corners")
m("M246",B,"pointToBoxFrame","b.rot.mulVec true (p.sub b.center)","b.rot.mulVec false (p.sub b.center)","C55: rotated boxes")
m("M247",B,"pointToBoxFrame","else p.sub b.center","else p","C55: contains")
m("M248",B,"pointToWorldFrame","(b.rot.mulVec false p).add b.center","b.rot.mulVec false (p.add b.center)","C55: world frame")
m("M249",B,"isInside","(b.dims.map F32.half)","b.dims","C55: accepted points are near",nth=2)
m("M250",B,"isInside",".reduce F32.max').le 0",".reduce F32.max').lt 0","C55: the boundary is included")
m("M251",B,"isInside","((p.map F32.abs).sub","(p.sub","C55: accepted points are near")
m("M252",B,"contains","if !b.isValid then false else b.isInside","if false then false else b.isInside","C55: an invalid box contains nothing")
m("M253",B,"intersects","a.minCorner.all F32.lt b.maxCorner","a.minCorner.all F32.le b.maxCorner","C56: touching does not count")
m("M254",B,"intersects"," && a.maxCorner.all (fun x y => F32.lt y x) b.minCorner","","C56: reported boxes overlap")
m("M255",B,"intersects","else if a.type != AABB || b.type != AABB then false","else if a.type != AABB then false","C56: symmetric")
m("M256",B,"computeIoU","a.minCorner.zip F32.max' b.minCorner","a.minCorner.zip F32.min' b.minCorner","C56: IoU zero if disjoint")
m("M257",B,"computeIoU","(mx.sub mn).map (fun x => F32.max' x 0)","mx.sub mn","C56: IoU zero if disjoint")
m("M258",B,"computeIoU","(a.volume.add b.volume).sub inter","a.volume.add b.volume","C56: IoU of equal boxes is 1")
m("M259",B,"computeIoU","inter.div union","union.div inter","C56: IoU at most 1")
m("M260",B,"computeIoU","a.volume.add b.volume","a.volume.add a.volume","C56: IoU symmetric")
m("M261",B,"V3f.all","p a.x b.x && p a.y b.y && p a.z b.z","p a.x b.x && p a.y b.y","C56: intersects is exact on a grid")
m("M262",B,"V3f.reduce","f a.x (f a.y a.z)","f a.x (f a.y a.y)","C55: contains looks at all axes")
m("M263",B,"Matrix.mulVec","((c i 1).mul v.y).add ((c i 2).mul v.z)","((c i 1).mul v.y).sub ((c i 2).mul v.z)","C55: rotated boxes")
m("M264",F,"nearest","2 * (p % q) > q ∨","2 * (p % q) ≥ q ∨","rounding ties to even (a half-way case)")
m("M265",F,"roundMag","nearest p (q * 2 ^ s)","(p / (q * 2 ^ s))","rounding to nearest: error bounds of C55-C57")
m("M266",B,"containsD","p.y.toFloat","p.x.toFloat","C55: doubles")
m("M267",B,"F32.min'","if y.lt x then y else x","if x.lt y then y else x","C57: extent")
m("M268",B,"half","x.div two","x.div F32.one","C55")
