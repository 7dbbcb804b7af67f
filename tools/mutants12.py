# Round 12: boxes below a node (Model/AncestorBox.lean), files (Model/Disk.lean)
M=[]
def m(id,file,d,old,new,claim,**k): M.append(dict(id=id,file=file,definition=d,old=old,new=new,claim=claim,**k))
A="Model/AncestorBox.lean"
m("M363",A,"adaptorPoint","⟨p.x.toFloat, p.y.toFloat, p.z.toFloat⟩","⟨p.y.toFloat, p.x.toFloat, p.z.toFloat⟩","C64: box of the positions")
m("M364",A,"adaptorPoint","p.z.toFloat⟩","p.y.toFloat⟩","C64: box of the positions")
m("M365",A,"adaptorPoints","return p :: ps","return ps","C64: positions of exactly the nodes")
m("M366",A,"extractNodes","else if type == BBox.AABB then do","else if type == BBox.RAABB then do","C64: type of the box",nth=0)
m("M367",A,"extractNodes","if nodes.isEmpty || type == BBox.INVALID then .ok {}","if type == BBox.INVALID then .ok {}","C64: no box without nodes (undefined)")
m("M368",A,"extractNodes","return BBox.extractAABB p ps","return BBox.extractAABB p []","C64: box contains all positions")
m("M369",A,"ancestorBox","g.ancestorsOfLayer (.static child) fuel parent","g.ancestorsOfLayer (.dyn child 0) fuel parent","C64: nodes of the layer")
m("M370",A,"extractNodes","else if type == BBox.OBB then .ok {}","else if type == BBox.OBB then .ok { type := BBox.OBB }","C64: no box of type OBB")
D="Model/Disk.lean"
m("M371",D,"Graph.saveTo","| .throw e => (d, .throw e)\n    | .ub => (d, .ub)\n\n/-- What an input","| .throw e => (d.put q [] f, .throw e)\n    | .ub => (d, .ub)\n\n/-- What an input","C65: a binary save that throws touches nothing")
m("M372",D,"Graph.saveTo","| .throw e => (d.put q [] f, .throw e)","| .throw e => (d, .throw e)","C65: a JSON save that throws has emptied the file",nth=0)
m("M373",D,"Graph.saveTo","(d.put q (H.L.print j) f, .ok ())","(d.put p (H.L.print j) f, .ok ())","C65 (equivalent: for JSON paths q = p)",nth=0)
m("M374",D,"Graph.saveTo","| .ok bs => (d.put q bs f, .ok ())","| .ok bs => (d.put p bs f, .ok ())","C65: the file is path.sparkdsg",nth=0)
m("M375",D,"Graph.saveTo","match g.saveBinary H.P includeMesh with","match g.saveBinary H.P true with","C65: mesh only if asked for")
m("M376",D,"Graph.saveTo","match g.writeJson H.J.toJArith H.P.R H.P.Q includeMesh with","match g.writeJson H.J.toJArith H.P.R H.P.Q (!includeMesh) with","C65: mesh only if asked for")
m("M377",D,"FileSys.put",".whole => fun q => if q = p then some bs else d q",".whole => fun q => if q = p then some ((d p).getD [] ++ bs) else d q","C65: round trip (appending)")
m("M378",D,"FileSys.put",".whole => fun q => if q = p then some bs else d q",".whole => fun q => if q = p then some bs else none","C65: other files")
m("M379",D,"FileSys.put",".cut k => fun q => if q = p then some (bs.take k) else d q",".cut k => fun q => if q = p then some ((d p).getD []) else d q","C66: not atomic / cut")
m("M380",D,"Graph.loadFrom","if (d p).isNone then .throw .runtimeError","if (d p).isSome then .throw .runtimeError","C65: round trip",nth=0)
m("M381",D,"Graph.loadFrom","| some j => H.J.readGraph H.P.R H.P.Q j","| some j => H.J.readGraph { entries := [] } H.P.Q j","C65: round trip")
m("M382",D,"Mesh.loadBinary","| none => .throw .runtimeError","| none => .ok {}","C65: a file without the header is not a mesh",tightened=["Verif.C65_mesh_without_header"])
m("M383",D,"Mesh.loadBinary","(file.drop r.2)","(file.drop 0)","C65: mesh round trip")
m("M384",D,"Mesh.saveBinary","Wr.seq FileHeader.current.write (Wr.mesh m)","Wr.mesh m","C65: mesh round trip")
m("M385",D,"Mesh.saveTo","| .throw e => (d, .throw e)\n    | .ub => (d, .ub)\n\n/-- mesh_serialization.cpp:234","| .throw e => (d.put p [] f, .throw e)\n    | .ub => (d, .ub)\n\n/-- mesh_serialization.cpp:234","C65: only the named file is touched")
m("M386",D,"Graph.saveTo","| .throw e => (d, .throw e)\n  | .ub => (d, .ub)\n  | .ok (q, .json)","| .throw e => (d.put p [] f, .throw e)\n  | .ub => (d, .ub)\n  | .ok (q, .json)","C65: nothing touched if the extension is unknown",nth=0)
m("M387","Model/Binary.lean","checkIfTrue","| .throw _ => .ok (false, p)","| .throw e => .throw e","C66 finding: mesh silently lost (fixed program)")
m("M388",D,"Mesh.loadFrom","| some j => H.J.meshDoc j","| some j => H.J.mesh j","C65: JSON graph as mesh gives an empty mesh")
m("M389","Model/GraphIO.lean","loadBinary","checkCompatibility","checkCompatibility","placeholder")
M.pop()
