# Round 10: meshes as Python arrays (Model/PyMesh.lean)
M=[]
def m(id,file,d,old,new,claim,**k): M.append(dict(id=id,file=file,definition=d,old=old,new=new,claim=claim,**k))
P="Model/PyMesh.lean"
m("M322",P,"F64.toByte","else if v < 256 * Dbl.one then","else if v < 255 * Dbl.one then","C62: colours come back")
m("M323",P,"F64.toByte","if !d.finite then .ub","if !d.finite then .ok 0","C62: infinities are undefined")
m("M324",P,"F64.toByte","(if v < Dbl.one then .ok 0 else .ub)",".ok 0","C62: colours of -1/255 or less are undefined")
m("M325",P,"F64.share","(c.toNat * 2 ^ 1074) 255","(c.toNat * 2 ^ 1074) 256","C62: colours are shares of 255")
m("M326",P,"putVertex","⟨x.toFloat, y.toFloat, z.toFloat⟩","⟨x.toFloat, z.toFloat, y.toFloat⟩","C62: rows 0-2 are x, y, z")
m("M327",P,"putVertex","⟨r, g, b, 255⟩","⟨r, g, b, 0⟩","C62: alpha is 255")
m("M328",P,"setVertices","if A.rows ≠ 6 then","if A.rows < 6 then","C62: other row counts are refused")
m("M329",P,"putVertex","if m.hasColors then do","if true then do","C62: a mesh without colours ignores rows 3-5")
m("M330",P,"intToIndex","UInt64.ofNat (i.toNat + (2 ^ 64 - 2 ^ 32))","UInt64.ofNat i.toNat","C62: negative entries wrap modulo 2^64")
m("M331",P,"getFaces","[indexToInt f.1, indexToInt f.2.1, indexToInt f.2.2]","[indexToInt f.1, indexToInt f.2.2, indexToInt f.2.1]","C62: order of a face's vertices")
m("M332",P,"vertexColumn","if i < m.colors.length then do","if i ≤ m.colors.length then do","C62: vertices without a colour get 0")
m("M333",P,"vertexColumn","[F64.share c.r, F64.share c.g, F64.share c.b]","[F64.share c.b, F64.share c.g, F64.share c.r]","C62: rows 3-5 are red, green, blue")
m("M334",P,"setFaces","(m.resizeFaces (UInt64.ofNat A.columns.length))","m","C62: the mesh has as many faces as columns")
m("M335",P,"setFaces","if A.rows ≠ 3 then","if A.rows < 3 then","C62: other row counts are refused")
m("M336",P,"putFace","(intToIndex a, intToIndex b, intToIndex d)","(intToIndex a, intToIndex d, intToIndex b)","C62: order of a face's vertices")
m("M337",P,"F64.toByte",".ok (UInt8.ofNat (v / Dbl.one))",".ok (UInt8.ofNat ((v + Dbl.one / 2) / Dbl.one))","C62: truncated, not rounded")
M=[x for x in M if x]
