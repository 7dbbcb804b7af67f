# Round 11: yaw-aligned boxes (Model/Hull.lean)
M=[]
def m(id,file,d,old,new,claim,**k): M.append(dict(id=id,file=file,definition=d,old=old,new=new,claim=claim,**k))
H="Model/Hull.lean"
m("M338",H,"getAngle","F32.one.sub (curr.head2.sub root.head2).normalized.x","(curr.head2.sub root.head2).normalized.x","C63: convex hull (clockwise order)")
m("M339",H,"getDist","d.x.abs.add d.y.abs","d.x.add d.y","C63: comparison is a strict weak ordering / hull (no effect in separated case?)")
m("M340",H,"getJointDirection","(v1.x.mul v2.y).sub (v1.y.mul v2.x)","(v1.x.mul v2.y).add (v1.y.mul v2.x)","C63: convex hull")
m("M341",H,"rootStep","F32.lt (pt ps root).y (pt ps i).y then root","F32.lt (pt ps i).y (pt ps root).y then root","C63: hull starts with the lowest point")
m("M342",H,"rootStep","&& F32.lt (pt ps root).x (pt ps i).x then root","&& F32.lt (pt ps i).x (pt ps root).x then root","C63: leftmost of the lowest")
m("M343",H,"before","else a_i.lt a_j","else a_j.lt a_i","C63: convex hull")
m("M344",H,"before","if (a_i.sub a_j).abs.lt F32.tiny then","if (a_i.sub a_j).lt F32.tiny then","C63: strict weak ordering")
m("M345",H,"others","(List.range ps.length).filter (· != root)","List.range ps.length","C63: hull lists distinct points")
m("M346",H,"push","(pt ps idx)).lt 0 then","(pt ps idx)).le 0 then","C63: corners are strict (collinear kept)")
m("M347",H,"push","else push ps (curr :: rest) idx","else idx :: curr :: rest","C63: convex hull (pops at most one)")
m("M348",H,"spreadStep","if h.le s.minH then h else s.minH","s.minH","C63: box contains the points")
m("M349",H,"spreadStep","if s.maxW.le w then w else s.maxW","if s.maxH.le w then w else s.maxW","C63: box contains the points")
m("M350",H,"solve","⟨(a00.neg.mul b.x).add (a01.neg.mul b.y), (a10.neg.mul b.x).add (a11.neg.mul b.y)⟩","⟨(a00.mul b.x).add (a01.mul b.y), (a10.mul b.x).add (a11.mul b.y)⟩","C63: box contains the points (sign)")
m("M351",H,"solve","let a10 := r1.x.neg.mul invdet","let a10 := r1.x.mul invdet","C63: box contains the points (inverse)")
m("M352",H,"edgeDir","((i + 1) % h.length)","(i + 1)","C63: closing edge")
m("M353",H,"spread","(List.range (h.length - 1))","(List.range (h.length - 2))","C63: last point skipped")
m("M354",H,"flatStep","if a.le area then r else replace","if area.le a then r else replace","C63: smallest")
m("M355",H,"flatStep","s.maxW.mul (s.maxH.sub s.minH)","s.maxW.mul s.maxH","C63: smallest (area)")
m("M356",H,"flatStep","⟨bw.sub s.maxW, bh.sub s.maxH⟩","⟨bw.sub s.maxW, bh.sub s.minH⟩","C63: box contains the points")
m("M357",H,"flatStep","t.atan2 nh.y nh.x","t.atan2 nh.x nh.y","C63: yaw")
m("M358",H,"rotation","t01.add sz","t01.sub sz","C63: rotation matrix")
m("M359",H,"extractRAABB","F32.max' p.z m","F32.min' p.z m","C63: box contains the points (height)")
m("M360",H,"extractRAABB","(b.pointToBoxFrame pMax).sub (b.pointToBoxFrame pMin)","pMax.sub pMin","C63: dimensions in the box frame")
m("M361",H,"extractRAABB","let z0 := (pt ps 0).z","let z0 := F32.one","C63: box contains points / smallest z: height is not claimed to be exact",)
m("M362",H,"yawed","{ type := BBox.RAABB,","{ type := BBox.OBB,","C63: a RAABB box")
