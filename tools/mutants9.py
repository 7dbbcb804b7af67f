# Round 9: the logger (Model/Logger.lean)
M=[]
def m(id,file,d,old,new,claim,**k): M.append(dict(id=id,file=file,definition=d,old=old,new=new,claim=claim,**k))
L="Model/Logger.lean"; S="Model/Search.lean"
m("M286",S,"depthStep","if !g.contains n then some (.ok st)","if g.contains n then some (.ok st)","C59: absent roots are skipped",nth=1)
m("M311",L,"countStatus","| .deleted => return { row with removed := row.removed + 1 }","| .deleted => return { row with merged := row.merged + 1 }","C61: removed nodes are not merged nodes")
m("M313",L,"countStatus","if x.hasParent then","if x.hasChildren then","C61: nodes with parents")
m("M314",L,"layerRow","edges := x.edges.edges.size","edges := x.edges.status.size","C61: edges present, not recorded")
m("M315",L,"logGraph","({ lg with header := false }, d)","(lg, d)","C61: later calls append")
m("M316",L,"Disk.writeStats","let start := if header then LogRow.headerText else (d.file path).getD \"\"","let start := if header then (d.file path).getD \"\" ++ LogRow.headerText else (d.file path).getD \"\"","C61: the first call replaces the file")
m("M317",L,"Disk.writeStats","let start := if header then LogRow.headerText else (d.file path).getD \"\"","let start := if header then LogRow.headerText else \"\"","C61: later calls append")
m("M318",L,"logLayer","if e.2.nodes.size == 0 && !lg.header then .ok d","if e.2.nodes.size == 0 then .ok d","C61: the first call writes a line even for an empty layer")
m("M319",L,"logLayer","if e.2.nodes.size == 0 && !lg.header then .ok d\n    else do","do","C61: later calls skip empty layers")
m("M320",L,"setLayerName","lg.names.emplace l name","lg.names.insert l name","C61: the first name stays")
m("M321",L,"LogRow.text","toString r.removed ++ \",\" ++ toString r.merged","toString r.merged ++ \",\" ++ toString r.removed","C61: order of the columns")
M=[x for x in M if x]
