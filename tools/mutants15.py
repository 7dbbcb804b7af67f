# Round 15: numbers that are not finite in JSON (Model/Json.lean); the lengths and null slots of the binary writer (Model/Binary.lean, Codec.lean, GraphIO.lean)
M=[]
def m(id,file,d,old,new,claim,**k): M.append(dict(id=id,file=file,definition=d,old=old,new=new,claim=claim,**k))
A="Model/Json.lean"
L=["Verif.C72_loadable","Verif.C72_otherwise_throws"]
B=["Verif.C73_binary_written","Verif.C73_too_long_throws"]
m("M434",A,"JEnv.coeff","if j.isNull = true then .ok nan else elem j","elem j","C27, C72: a coefficient that is not finite can be loaded",tightened=L)
m("M435",A,"JEnv.v3f","E.matrixFixed E.f32 F32.nan 3 1 j","E.matrixFixed E.f32 0 3 1 j","C27: a coordinate that is not finite comes back as NaN",tightened=["Verif.C27_json_round_trip"])
m("M436",A,"JEnv.bbox","if bboxType t = 0 then return {}","if bboxType t = 0 && false then return {}","C72: an invalid box may have any rotation",tightened=L)
m("M437",A,"Json.text",".ok (if F64.finite d = true then .num d else .null)",".ok (.num d)","C72: a number that is not finite is printed as null",tightened=L)
m("M438",A,"JEnv.quat",'let z ← j.at\' (Str.lit "z") >>= E.f64','let z ← j.at\' (Str.lit "z") >>= coeff E.f64 F64.nan',"C72: a quaternion has to be finite",tightened=L)
m("M439","Model/Binary.lean","Wr.arrLen","if n > 0xFFFFFFFF then .throw .domainError","if n ≥ 0xFFFFFFFF then .throw .domainError","C73: the largest length is 2^32 - 1",tightened=B)
m("M440","Model/Binary.lean","Wr.arrLen","if n > 0xFFFFFFFF then .throw .domainError else .ok (Pack.arr32 :: leBytes 4 n)",".ok (Pack.arr32 :: leBytes 4 n)","C73, C21: lengths that do not fit are reported",tightened=B)
m("M441","Model/GraphIO.lean","Wr.node","  | none => .ub\n  | some x =>","  | none => .ok []\n  | some x =>","C73: an empty slot makes the writer fault",tightened=["Verif.C73_gap_faults"])
m("M442","Model/GraphIO.lean","Graph.write","(match (if includeMesh then g.mesh else none) with","(match g.mesh with","C73, C25: the mesh matters only if it is included",tightened=B)
m("M443","Model/Codec.lean","Wr.khronosAttrs","(map str (vec u64) k.details)","(map str (fun _ => nil) k.details)","C73, C23: the details are written with their lengths",tightened=B)
