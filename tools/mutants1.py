M=[]
def m(id,file,definition,old,new,claim,**k): M.append(dict(id=id,file=file,definition=definition,old=old,new=new,claim=claim,**k))
G='Model/Graph.lean'; L='Model/Layer.lean'; D='Model/DynLayer.lean'; E='Model/EdgeContainer.lean'
m('M01',E,'EdgeContainer.insert','edges := c.edges.emplace (EdgeKey.of s t)','edges := c.edges.insert (EdgeKey.of s t)','C33: inserting an existing edge keeps the old one')
m('M02',E,'EdgeContainer.remove','status := c.status.insert (EdgeKey.of s t) .deleted\n','status := c.status.erase (EdgeKey.of s t)\n','C13/C33: a removed edge is reported by getRemoved')
m('M03',E,'EdgeContainer.findKey','({ c with stale := c.stale.insert k false }, some e)','(c, some e)','C16: looking an edge up protects it from removeAllStaleEdges')
m('M04',E,'EdgeContainer.setStale','c.edges.map (fun _ _ => true)','c.edges.map (fun _ e => !e.info.isNone && e.source != 0)','C16: marking marks every edge')
m('M05',E,'EdgeContainer.getNew','if s = .new then .visible else s','if s = .deleted then .visible else s','C13: clearing the new-edge list forgets exactly the new edges')
m('M06',L,'Layer.insertEdge','let l ← l.modNode t (fun x => { x with siblings := x.siblings.add s })\n    return ({ l with edges := l.edges.insert s t info }, true)','return ({ l with edges := l.edges.insert s t info }, true)','C02/C34: adjacency is symmetric')
m('M07',L,'Layer.insertEdge','if s = t then .ok (l, false)\n  else if l.hasEdge','if l.hasEdge','C04/C34: no self edges')
m('M08',L,'Layer.removeNode','status := l.status.insert n .deleted','status := l.status.erase n','C13: removed nodes are reported')
m('M09',L,'Layer.removeEdge','let l ← l.modNode t (fun x => { x with siblings := x.siblings.erase s })\n    let c','let c','C02/C06: removal clears both ends')
m('M10',L,'Layer.rewireEdge',"else if s' = t' ∨ l.hasEdge s' t' = true then do","else if s' = t' then do",'C07/C34: merging keeps the edge already present')
m('M11',L,'Layer.mergeNodes','nodes := l.nodes.erase from_, status := l.status.insert from_ .merged','nodes := l.nodes.erase from_, status := l.status.insert from_ .deleted','C13: merged nodes stay reported after clearing (status merged)')
m('M12',L,'Layer.getRemovedNodes','e.2 = .deleted ∨ e.2 = .merged','e.2 = .deleted','C13: merged nodes are reported as removed')
m('M13',D,'DynLayer.emplaceNode','if l.times.contains stamp then .ok (l, false)\n  else do','do','C11: a dynamic layer holds one node per stamp')
m('M14',D,'DynLayer.emplaceNode','return ({ l with next := l.next + 1 }, true)','return (l, true)','C11: consecutive appended nodes get consecutive ids')
m('M15',D,'DynLayer.pad','status := l.status.insert (l.nodes.length + 1) .deleted','status := l.status.insert (l.nodes.length) .deleted','C14: the spurious removed ids are those of the code',note=None)
m('M16',D,'DynLayer.emplaceNodeAtIndex','l.pad (i - l.nodes.length + 1)','l.pad (i - l.nodes.length)','C11: a back-filled node is retrievable under its id')
m('M17',D,'DynLayer.removeNode','let l ← if hasPrev && hasNext then do','let l ← if hasPrev || hasNext then do','C12: temporal neighbours are bridged only if the removed node linked both')
m('M18',D,'DynLayer.removeNode','times := l.times.erase st, nodes','nodes','C12/C20: removed stamp may be reused, node count')
m('M19',D,'DynLayer.hasNodeByIndex','s == .visible || s == .new','s == .new','C03/C05: nodes remain visible after clearing the new list')
m('M20',G,'Graph.clear','lookup := ∅\n    inter','inter','C03: reset empties the graph')
m('M21',G,'Graph.emplaceNode','if g.lookup.contains n then (g, false)\n  else\n    match g.layers.find? l with\n    | none => (g, false)\n    | some x =>\n      let r := x.emplaceNode n attrs','if false then (g, false)\n  else\n    match g.layers.find? l with\n    | none => (g, false)\n    | some x =>\n      let r := x.emplaceNode n attrs','C01: a node id lives in one layer')
m('M22',G,'Graph.insertNode','({ g with lookup := g.lookup.insert n (.static l) }, true) else (g, false)','(g, true) else (g, false)','C01: a node that is in a layer is found through the graph',nth=1)
m('M23',G,'Graph.addAncestry','g.modNode t kt (fun x => { x with parents := x.parents.add s })','g.modNode t kt (fun x => { x with parents := x.parents.add t })','C02: parents and children mirror interlayer edges')
m('M24',G,'Graph.addAncestry','if ks.isParent kt then\n    let g ← g.modNode s ks (fun x => { x with children := x.children.add t })','if kt.isParent ks then\n    let g ← g.modNode s ks (fun x => { x with children := x.children.add t })','C02: the node in the higher layer is the parent')
m('M25',G,'Graph.insertInterlayer','if ks.dynamic || kt.dynamic then { g with dynInter := g.dynInter.insert','if ks.dynamic && kt.dynamic then { g with dynInter := g.dynInter.insert','C02/C04: hasEdge finds an edge just inserted between a static and a dynamic node')
m('M26',G,'Graph.removeInterlayerEdge','let g ← g.removeAncestry s t ks kt\n  if','if','C06: removing an edge removes it from the adjacency of both ends')
m('M27',G,'Graph.dropAllParents',"let child := if ks.isParent kt then t else s","let child := if ks.isParent kt then s else t",'C08: insertParentEdge leaves the child with one parent')
m('M28',G,'Graph.insertParentEdge','let g ← if ks ≠ kt then g.dropAllParents s t ks kt else pure g\n','','C08: insertParentEdge leaves the child with one parent')
m('M29',G,'Graph.addOrUpdateEdge','if has then g.setEdgeAttributes s t info else g.insertEdge s t info','if has then pure (g, true) else g.insertEdge s t info','C05: addOrUpdateEdge overwrites the attributes')
m('M30',G,'Graph.addOrUpdateNode','let g ← g.modNode n k (fun x => { x with attrs := attrs })\n      return (g, true)\n    | none =>\n      match','return (g, true)\n    | none =>\n      match','C05: addOrUpdateNode overwrites the attributes')
m('M31',G,'Graph.removeNode','let g ← foldRes (fun g t => g.removeInterlayerEdge\' n t) g x.parents.keys\n    let b','let b','C06: removing a node leaves no edge to it')
m('M32',G,'Graph.removeNode','return ({ g with lookup := g.lookup.erase n }, true)','return (g, true)','C06: a removed node is gone')
m('M33',G,'Graph.rewireInterlayerEdge',"if has then g.removeInterlayerEdge s t ks kt","if has then .ok g",'C07: merging leaves no edge to the merged node')
m('M34',G,'Graph.rewireInterlayerEdge',"let g ← g.addAncestry s' t ks' kt\n","",'C07: the target of a merge inherits parents and children')
m('M35',G,'Graph.mergeNodes','else if kf ≠ kt then .ok (g, false)\n','','C07: nodes of different layers cannot be merged')
m('M36',G,'Graph.setEdgeAttributes','| none => return (g, false)\n  | some _ =>\n    let g ← g.setInfoIn s t ks kt info','| none => return (g, true)\n  | some _ =>\n    let g ← g.setInfoIn s t ks kt info','C04: setting attributes of a missing edge reports failure')
m('M37',G,'Graph.numLayers','(g.dyns.keys.filter (fun l => !g.layers.contains l)).length','g.dyns.keys.length','C20: layers are counted once',tightened=['Verif.C20_layers (added)']) 
m('M38',G,'Graph.numDynamicNodes','(g.dynList.map DynLayer.numNodes).sum','(g.dynList.map (fun d => d.nodes.length)).sum','C20: removed dynamic nodes are not counted')
m('M39',G,'Graph.removeStaleEdges','if e.2 then g.removeEdge','if !e.2 then g.removeEdge','C16: sweeping removes exactly the marked edges')
m('M40',G,'Graph.removeAllStaleEdges','let g ← g.removeStaleEdges g.inter.stale\n','','C16: sweeping removes exactly the marked edges, interlayer ones too')
m('M41',G,'Graph.getNewNodes','g.visitLayers (fun b => b.getNewNodes clear)','g.visitLayers (fun b => b.getNewNodes true)','C13: asking without clearing changes nothing')
m('M42',G,'Graph.create','if layerIds = [] then .throw .domainError','if layerIds.length ≤ 1 then .throw .domainError','C03: a graph can be created over any nonempty list of layers')
m('M43',G,'Graph.getPosition','b.getPosition n','b.getPosition (n + 1)','C05: position is that of the node')
