M=[]
def m(id,file,d,old,new,claim,**k): M.append(dict(id=id,file=file,definition=d,old=old,new=new,claim=claim,**k))
G='Model/Graph.lean'; L='Model/Layer.lean'; D='Model/DynLayer.lean'; E='Model/EdgeContainer.lean'; P='Model/PyIter.lean'
S='Model/Search.lean'; T='Model/Text.lean'; Y='Model/Types.lean'; V='Model/Views.lean'; MO='Model/MeshOps.lean'; MG='Model/Merge.lean'; EN='Model/Endian.lean'; Z='Model/Zmq.lean'
# C53
m('M149',P,'Py.setNodeIter','| [] => setNodeIter r\n','| [] => ⟨false, [], []⟩\n','C53: an empty layer does not end the iteration over the nodes')
m('M150',P,'Py.globalNodeIter','| _ :: r => .ok (setNodeIter r)','| _ :: r => .ok (setNodeIter r.tail)','C53: every layer is visited')
m('M151',P,'Py.globalNodeIter','done s := !s.valid || (s.nodes.isEmpty && s.layers.isEmpty)','done s := !s.valid || s.layers.length == 1','C53: the last layer is visited')
m('M152',P,'Py.setEdgeIter','| [] => ⟨true, [], [], inter⟩','| [] => ⟨true, [], [], inter.tail⟩','C53: every edge between layers is visited')
m('M153',P,'Py.globalEdgeIter','| _ :: es => .ok { s with edges := es }','| _ :: es => .ok { s with edges := es.tail }','C53: every edge is visited')
m('M154',P,'Py.setSubIter','| [] => setSubIter r\n','| [] => ⟨true, [], e :: r⟩\n','C53: iterating over the dynamic layers does not read past the end (an entry without layers is never reachable)',note='SURVIVED is right if it does: dynamic_layers_ has no empty inner map in a reachable state.')
m('M155',P,'Py.skipNull','| [] => .ub\n  | none','| [] => .ok []\n  | none','C53 states the defect: this edit is the repaired program',note='The repaired program: C53_dynamic_nodes_read_past_the_end must fail.')
m('M156',P,'Py.dynNodeIter','inc s := match s with | [] => .ub | _ :: r => skipNull r','inc s := match s with | [] => .ub | _ :: r => .ok r','C53: the iteration over a trajectory hands out nodes only')
# C51/C52 and the core
m('M157',G,'Graph.setLayer','| .dyn l p, .dyn x => g.setDyn l p x','| .dyn l p, .dyn x => g.setDyn l (p + 0 * l.toUInt32) { x with next := 0 }','C11: ids are not reused')
m('M158',G,'Graph.hasEdgeKeys','else if ks.dynamic || kt.dynamic then .ok (g.dynInter.contains s t, ks, kt)\n      else .ok (g.inter.contains s t, ks, kt)','else .ok (g.inter.contains s t, ks, kt)','C02/C04: hasEdge of an edge to a trajectory')
m('M159',G,'Graph.emplaceDyn','if g.hasNode newId then .ok (g, false)\n  else do','do','C01/C51: an id in use is refused')
m('M160',G,'Graph.emplacePrev','if g.hasNode n then .ok (g, false)\n  else do','do','C01/C51: an id in use is refused')
m('M161',G,'Graph.emplacePrev','let p := Prefix.fromId n\n','let p := Prefix.fromId (n + 1)\n','C11: a back-filled node is retrievable under its id')
m('M162',G,'Graph.removeAncestry','let g ← g.modNode t kt (fun x => { x with children := x.children.erase s })\n    g.modNode s ks (fun x => { x with parents := x.parents.erase t })','g.modNode t kt (fun x => { x with children := x.children.erase s })','C06: removing an edge clears both ends')
m('M163',G,'Graph.findEdgeIn','let r := g.dynInter.find s t\n    .ok ({ g with dynInter := r.1 }, r.2)','let r := g.inter.find s t\n    .ok ({ g with inter := r.1 }, r.2)','C04: findEdge finds edges to trajectories')
m('M164',G,'Graph.setInfoIn','.ok { g with dynInter := g.dynInter.setInfo (EdgeKey.of s t) info }','.ok { g with inter := g.inter.setInfo (EdgeKey.of s t) info }','C09: setEdgeAttributes changes the edge')
m('M165',G,'Graph.numDynamicEdges','g.dynInter.size + (g.dynList','(g.dynList','C20: edges to trajectories are counted')
m('M166',G,'Graph.numNodes','g.numStaticNodes + g.numDynamicNodes +','g.numStaticNodes +','C20: dynamic nodes are counted')
m('M167',G,'Graph.visitLayers','dyns := g.dyns.map (fun _ m => m.map (fun _ d => dy d)) }','dyns := g.dyns }','C13: clearing clears dynamic layers too')
m('M168',G,'Graph.getRemovedEdges','r.2 ++ (g.inter.getRemoved clear).2 ++ (g.dynInter.getRemoved clear).2','r.2 ++ (g.inter.getRemoved clear).2','C13: removed edges to trajectories are reported')
m('M169',G,'Graph.markEdgesAsStale','    dynInter := g.dynInter.setStale\n','','C16: marking marks every edge')
m('M170',G,'Graph.isDynamic','| some k => k.dynamic','| some k => !k.dynamic','C01: isDynamic')
m('M171',D,'DynLayer.insertEdge','else if !l.hasNode s || !l.hasNode t then .ok (l, false)','else if !l.hasNode s then .ok (l, false)','C51/C05: insertEdge to a missing node is refused')
m('M172',D,'DynLayer.removeNode','let l := { l with status := l.status.insert i .deleted }\n','','C12/C13: a removed dynamic node is gone and reported')
m('M173',D,'DynLayer.removeNode','nodes := l.nodes.set i none }, true)','nodes := l.nodes }, true)','C12: a removed dynamic node is gone')
m('M174',D,'DynLayer.removeNode','let hasNext := l.hasNode next && x.siblings.contains next','let hasNext := l.hasNode next','C12: neighbours are bridged only if linked')
m('M175',D,'DynLayer.getRemovedNodes','l.status.filter (fun _ s => s ≠ .deleted)','l.status.filter (fun _ s => s ≠ .new)','C13: clearing forgets exactly the removed nodes')
m('M176',D,'DynLayer.findNode','(l.nodes[l.pre.index n]?).join','(l.nodes[l.pre.index n + 1]?).join','C11: nodes of a trajectory are found under their ids')
m('M177',E,'EdgeContainer.rewire','return c.insert s\' t\' (some attrs)','return c.insert s\' t\' none','C07: a merge keeps the attributes of moved edges')
m('M178',E,'EdgeContainer.getRemoved','e.2 = .deleted','e.2 = .deleted ∧ e.1.k1 ≠ e.1.k2 ∧ e.1.k1 ≠ 0','C13: removed edges are reported',nth=0)
m('M179',Y,'EdgeKey.of','⟨min s t, max s t⟩','⟨s, t⟩','C02: hasEdge(a, b) = hasEdge(b, a)')
m('M180',Y,'LayerKey.isParent','decide (other.layer < k.layer)','decide (other.layer ≤ k.layer)','C02/C08: nodes in layers with the same id are siblings')
m('M181',Y,'Node.getParent','if n.parents.size != 1 then none','if n.parents.size = 0 then none','C08: getParent of a node with several parents')
m('M182',Y,'NodeSymbol.incr','make (category n) (categoryId n + 1)','n + 1','C30: incrementing a symbol never changes its category')
m('M183',S,'Search.meets','b.keys.any a.contains','b.keys.all a.contains','C38: components that meet are merged')
m('M184',S,'Search.bfsRootsLimit','s.insert r 0) (∅','s.insert r 1) (∅','C36: roots are at distance zero')
m('M185',S,'Search.filterStep','if !nodeValid e.2 then some (.ok st)\n  else','if false then some (.ok st)\n  else','C37: filtered components contain accepted nodes only')
m('M186',V,'Layer.adjRow','foldRes (adjPut ord w x e.2) A x.siblings.keys','foldRes (adjPut ord w x e.2) A (x.siblings.keys.take 1)','C41: every edge has its entry')
m('M187',V,'Layer.sparseLapRow','(e.2, j, ar.neg (w x.id s))','(e.2, j, w x.id s)','C41: sparse and dense Laplacian agree')
m('M188',V,'Layer.sparseRow','(e.2, j, w x.id s)','(j, e.2, w s x.id)','C41: sparse and dense matrices agree (symmetric weights hide this)',note='SURVIVED is right if the theorem assumes symmetric weights.')
m('M189',V,'LayerView.begin','if valid v.filter l.nodes.toList then l.nodes.toList else next v.filter l.nodes.toList','l.nodes.toList','C42: a view shows accepted nodes only')
m('M190',MO,'Mesh.reindexFaces','| none => reindexFaces oldToNew fs\n','| none => f :: reindexFaces oldToNew fs\n','C39: faces of erased vertices are erased')
m('M191',MO,'Mesh.eraseFaces','if updateVertices then m.eraseVertices','if !updateVertices then m.eraseVertices','C40: vertices are erased on request only')
m('M192',MO,'Mesh.setLabel','putAt m.labels i x >>= fun l => .ok { m with labels := l }','putAt m.labels i x >>= fun _ => .ok m','C39/C40: setLabel changes the label')
m('M193',MO,'Mesh.eraseVertices','labels := k.labels, firstSeen','labels := m.labels, firstSeen','C39: the arrays of a mesh have the same length')
m('M194',MG,'Graph.mergeRemovedEdge','x.removeEdge k.k1 k.k2','x.removeEdge k.k1 k.k1','C18: edges removed in the other graph are removed')
m('M195',MG,'Graph.mergeDyn','return { g.setDyn e.1.1 e.1.2 r.1 with lookup := r.2 }','return g.setDyn e.1.1 e.1.2 r.1','C18: merged dynamic nodes are found through the graph')
m('M196',L,'MergeConfig.getMergedId','getMergedId','getMergedId','(placeholder)',nth=99)
m('M197',EN,'needEndianSwap','sampleByte != 0x04','sampleByte == 0x04','C47: the bytes on a little-endian machine')
m('M198',EN,'SwapEndian.swap32','(u &&& 0x0000ff00) <<< 8','(u &&& 0x0000ff00) <<< 16','C47: swapping twice is the identity')
m('M199',Z,'Zmq.step','some (.ok ({ s with hasChange := false, cloning := true }, .none))','some (.ok ({ s with cloning := true }, .none))','C45: the flag is cleared by graph()')
m('M200',T,'Color.hash','(x.a.toUInt32 <<< 24)','(x.a.toUInt32 <<< 23)','C32: different colours have different hashes')
m('M201',T,'stoull','if neg then 0 - UInt64.ofNat (digitsVal s) else','if neg then UInt64.ofNat (digitsVal s) else','C30/C43: the literal of a negative number')
m('M202',T,'layerIdToString','else if id = 20 then str "MESH_PLACES"','else if id = 20 then str "PLACES"','C31: names of layers survive')
m('M203',T,'Prefix.ofKey','(index &&& 0xFFFFFF)','(index &&& 0xFFFFFFFF)','C48: the key of a prefix')
m('M204',T,'pathExtension','if e.length = f.length then [] else e','e','C44: a hidden file has no extension')
M[:]=[x for x in M if x['id']!='M196']
