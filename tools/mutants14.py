# Round 14: JSON documents with missing fields, and text (Model/Json.lean)
M=[]
def m(id,file,d,old,new,claim,**k): M.append(dict(id=id,file=file,definition=d,old=old,new=new,claim=claim,**k))
A="Model/Json.lean"
T=["Verif.C27_json_round_trip"]
D=["Verif.C70_missing_members","Verif.C70_missing_fields"]
m("M423",A,"utf8","contByte c 0x80 0xBF && contByte d 0x80 0xBF && utf8 l","contByte c 0x80 0xBF || contByte d 0x80 0xBF && utf8 l","C27: names that are text can be saved, and only those",tightened=T)
m("M424",A,"utf8","if a = 0xED then 0x9F else 0xBF","0xBF","C27: a surrogate is not text",tightened=T)
m("M425",A,"utf8","if 0xC2 ≤ a && a ≤ 0xDF","if 0xC0 ≤ a && a ≤ 0xDF","C27: overlong sequences are not text",tightened=T)
m("M426",A,"JEnv.edgeAttrs",'(Str.lit "weighted") false bool','(Str.lit "weighted") true bool',"C70: default of a missing weighted",tightened=["Verif.C70_missing_edge_members","Verif.C70_missing_fields"])
m("M427",A,"JEnv.edgeAttrs",'(Str.lit "weight") 0x3ff0000000000000','(Str.lit "weight") 0',"C70: default of a missing weight",tightened=["Verif.C70_missing_edge_members","Verif.C70_missing_fields"])
m("M428",A,"JEnv.placeAttrs",'(Str.lit "real_place") true','(Str.lit "real_place") false',"C70: a place is real by default",tightened=D)
m("M429",A,"JEnv.semanticAttrs",'(Str.lit "semantic_label") 0xFFFFFFFF','(Str.lit "semantic_label") 0',"C70: no label by default",tightened=D)
m("M430",A,"JEnv.khronosAttrs",'{ hasColors := true, hasTimestamps := false, hasLabels := false }','{}',"C70: default mesh of a Khronos object",tightened=D)
m("M431",A,"JEnv.agentAttrs",'(Str.lit "external_key") E.fresh.key','(Str.lit "external_key") 0',"C70: the key of an agent is uninitialised",tightened=["Verif.Missing.C70_uninitialised"])
m("M432",A,"JEnv.baseAttrs",'let a ← field j (Str.lit "is_active") false bool','let a ← j.at\' (Str.lit "is_active") >>= bool',"C70: a missing field is no error",tightened=D)
m("M433",A,"JEnv.objectAttrs",'(Str.lit "world_R_object") ⟨0x3ff0000000000000, 0, 0, 0⟩','(Str.lit "world_R_object") ⟨0, 0, 0, 0x3ff0000000000000⟩',"C70: default orientation: w first",tightened=D)
