M=[]
def m(id,file,definition,old,new,claim,**k): M.append(dict(id=id,file=file,definition=definition,old=old,new=new,claim=claim,**k))
J='Model/Json.lean'; C='Model/Codec.lean'; B='Model/Binary.lean'; IO='Model/GraphIO.lean'
m('M116',J,'F32.toDouble','s + (e + 896) * 2 ^ 52','s + (e + 895) * 2 ^ 52','C27: floats survive the conversion to double and back')
m('M117',J,'F32.toDouble','(m.log2 + 874)','(m.log2 + 873)','C27: subnormal floats survive the conversion')
m('M118',J,'F64.toFloat','else if e < 897 then','else if e < 896 then','C27: subnormal floats survive the conversion')
m('M119',J,'roundShift','2 * r > 2 ^ k ∨ 2 * r = 2 ^ k ∧ q % 2 = 1','2 * r > 2 ^ k','C27: (rounding of halves; floats widened to doubles have no halves)',note='SURVIVED is right if it does: doubles written by the program are widened floats, which are exact.')
m('M120',J,'Json.text','.ok (if n < 0x8000000000000000 then .uint n else .int n)','.ok (.uint n)','(library model: negative integers)',note='Edits the model of the library, not of the code.')
m('M121',J,'JEnv.bboxType','if s = Str.lit "AABB" then 1 else if s = Str.lit "RAABB" then 3','if s = Str.lit "AABB" then 1 else if s = Str.lit "RAABB" then 2','C27: bounding box types survive')
m('M122',J,'JEnv.quat','return ⟨w, x, y, z⟩','return ⟨x, y, z, w⟩','C27: quaternions survive')
m('M123',J,'JEnv.nvi','if l.isNull = true then return ⟨(b0, b1, b2), (p0, p1, p2), v, none⟩','if false = true then return ⟨(b0, b1, b2), (p0, p1, p2), v, none⟩','C27: a missing label is read')
m('M124',J,'JEnv.color','let a ← E.u8 a\n      return ⟨r, g, b, a⟩','let a ← E.u8 a\n      return ⟨r, g, b, 255⟩','C27: alpha survives')
m('M125',J,'JEnv.mesh','field j (Str.lit "labels") [] (vec E.u32)','field j (Str.lit "label") [] (vec E.u32)','C27: mesh labels survive')
m('M126',J,'JEnv.mesh','j.at\' (Str.lit "has_first_seen_stamps")','j.at\' (Str.lit "has_timestamps")','C27: mesh flags survive')
m('M127',J,'JEnv.baseAttrs','field j (Str.lit "last_update_time_ns") 0 E.u64','field j (Str.lit "last_update_time") 0 E.u64','C27: all members survive')
m('M128',J,'JEnv.semanticColor','E.version.le ⟨1, 0, 2⟩','E.version.lt ⟨1, 0, 2⟩','C49: colours of version 1.0.2 are read')
m('M129',J,'JEnv.bbox','E.version.lt ⟨1, 0, 3⟩','E.version.le ⟨1, 0, 3⟩','C49: boxes of version 1.0.3 are read')
m('M130',J,'JEnv.bbox','⟨E.fsub mx.x mn.x, E.fsub mx.y mn.y, E.fsub mx.z mn.z⟩','⟨E.fsub mn.x mx.x, E.fsub mn.y mx.y, E.fsub mn.z mx.z⟩','C49: the extent is max minus min')
m('M131',J,'JEnv.baseAttrs','E.version.lt ⟨1, 0, 4⟩','E.version.lt ⟨1, 0, 3⟩','C49: documents of version 1.0.3 (is_predicted is absent there, so the default is read either way)',note='SURVIVED is right if it does: a missing JSON member keeps its default.')
m('M132',J,'JEnv.readNode','let r ← g.emplacePrev layer id t (some a)','let r ← g.emplacePrev layer id 0 (some a)','C27: stamps survive')
m('M133',J,'JEnv.readEdge','let r ← g.insertEdge s t a','let r ← g.insertEdge t s a','C27: orientation of edges survives')
m('M134',J,'Graph.jsonNodes','g.staticNodes ++ g.dynSlots.filterMap id','g.staticNodes','C27: dynamic nodes are written')
m('M135',J,'Graph.jsonEdges','g.dynInter.edges.toList.map Prod.snd ++ ','','C27: edges between trajectories and static layers are written')
m('M136',J,'JEnv.readGraph','foldRes ((E.under h.version).readNode R) g ns.items','foldRes (E.readNode R) g ns.items','C27/C49: the version of the document is in force while it is read')
m('M137',J,'JEnv.meshDoc','else (E.under h.version).mesh j','else E.legacyMesh j','C27: the mesh survives')
m('M138',J,'JEnv.legacyMesh','points := vs.map Prod.fst, colors := vs.map Prod.snd','points := vs.map Prod.fst','C49: old meshes are read with their colours')
m('M139',J,'JArith.matrixDyn','BitVec.ofInt 64 m.rows))), (Str.lit "cols", .int (UInt64.ofBitVec (BitVec.ofInt 64 m.cols)))','BitVec.ofInt 64 m.cols))), (Str.lit "cols", .int (UInt64.ofBitVec (BitVec.ofInt 64 m.rows)))','C27: matrices keep their shape')
m('M140',J,'JArith.nonempty','| [] => []\n  | l => [(k, vec w l)]','| [] => [(k, .null)]\n  | l => [(k, vec w l)]','C27: meshes without colours are read')
m('M141',J,'JArith.khronosAttrs','(Str.lit "details", map (vec Json.uint) k.details)','(Str.lit "details", map (vec Json.uint) ∅)','C27: details survive')
m('M142',J,'JArith.label','| none => .null','| none => uint32 0','C27: absence of a label survives')
m('M143',J,'Registry.nameOf','| some e => e.1','| some e => e.1 ++ e.1','C27: the class survives')
m('M144',C,'Rd.bbox','E.version.lt ⟨1, 0, 3⟩','E.version.le ⟨1, 0, 3⟩','C49: boxes of version 1.0.3 are read')
m('M145',C,'FileHeader.checkCompatibility','h.version.lt ⟨1, 0, 2⟩','h.version.le ⟨1, 0, 2⟩','C49: version 1.0.2 is supported')
m('M146',IO,'Rd.loadFactory','if E.version.lt ⟨1, 0, 2⟩ = true then return factory','if E.version.le ⟨1, 0, 2⟩ = true then return factory','C49: version 1.0.2 is read')
m('M147',IO,'Rd.meshLayer','if E.version.lt ⟨1, 0, 2⟩ = true then do','if E.version.le ⟨1, 0, 2⟩ = true then do','C49: version 1.0.2 is read')
m('M148',C,'Rd.baseAttrs','E.version.lt ⟨1, 0, 4⟩','E.version.lt ⟨1, 0, 3⟩','C49: version 1.0.3 has no is_predicted')
