# Round 16: survivors of the mechanical rounds
M=[]
def m(id,file,d,old,new,claim,**k): M.append(dict(id=id,file=file,definition=d,old=old,new=new,claim=claim,**k))
m('M466','Model/Text.lean','saveFile','some r.2 else fs q','some r.2 else fs p','C30: saving one file changes every other one',tightened=['Verif.C30_other_paths'])
m('M467','Model/Binary.lean','mulAdd','(r * c < -2 ^ 63 ∨','(r * c ≤ -2 ^ 63 ∨','C22: the smallest product counts as an overflow',tightened=['Verif.Safety.C22_dimension_overflow_exactly'])
m('M520','Model/Json.lean','JEnv.u8','let n ← E.integral 0 255 true j','let n ← E.integral 0 255 false j','C50: a byte cannot be given as a boolean',tightened=['Verif.C50_scalars'])
m('M521','Model/Text.lean','NodeSymbol.ofLiteral','| [] => .throw .domainError\n  | c :: rest => stoull','| [] => .ub\n  | c :: rest => stoull','C48: the empty literal is undefined',tightened=['Verif.C48_bad_literals'])
m('M522','Model/MeshOps.lean','Mesh.empty','m.points.isEmpty && m.faces.isEmpty','!m.points.isEmpty && m.faces.isEmpty','C40: an empty mesh is one without faces but with vertices',tightened=['Verif.C40_empty'])
m('M523','Model/MeshOps.lean','Mesh.empty','m.points.isEmpty && m.faces.isEmpty','m.points.isEmpty','C40: a mesh without vertices is empty',tightened=['Verif.C40_empty'])
m('M524','Model/Json.lean','JEnv.f32','| .bool b => .ok (if b = true then 0x3f800000 else 0)\n  | _ => .throw .json','| _ => .throw .json','C50: a float cannot be given as a boolean',tightened=['Verif.C50_scalars'])
m('M525','Model/Layer.lean','MergeConfig.getMergedId','| some m => (m.find? n).getD n','| some m => (m.find? ((m.find? n).getD n)).getD ((m.find? n).getD n)','C18, C76: the id map is applied twice')
m('M526','Model/Merge.lean','mergeInter','if s = t then .ok g','if s = t then .ok g else if g.hasNode s = false then .throw .outOfRange','C18, C76: an interlayer edge to a missing node is skipped')
m('M527','Model/Layer.lean','mergeNodeStep','status := l.status.insert e.2.id .new },','status := l.status.insert e.2.id .visible },','C18, C13: a merged-in node is reported as new')
m('M528','Model/Json.lean','JEnv.i32','E.integral (-2 ^ 31) (2 ^ 31 - 1) true j','E.integral (-2 ^ 31) (2 ^ 31 - 0) true j','C50: 2147483648.0 is converted to a 32-bit integer without being undefined',tightened=['Verif.C50_float_for_integer'])
