M=[]
def m(id,file,definition,old,new,claim,**k): M.append(dict(id=id,file=file,definition=definition,old=old,new=new,claim=claim,**k))
S='Model/Search.lean'; T='Model/Text.lean'; B='Model/Binary.lean'; C='Model/Codec.lean'; IO='Model/GraphIO.lean'; V='Model/Views.lean'
MO='Model/MeshOps.lean'; CL='Model/Clone.lean'; Z='Model/Zmq.lean'; U='Model/Update.lean'; MG='Model/Merge.lean'; L='Model/Layer.lean'; D='Model/DynLayer.lean'
EN='Model/Endian.lean'
m('M44',S,'Search.seenPush','if st.1.contains m then st else (st.1.add m, st.2 ++ [m])','(st.1.add m, st.2 ++ [m])','C35: no node is visited twice, the search terminates')
m('M45',S,'Search.costBody','if limit ≤ c then .ok (costs, [])','if limit < c then .ok (costs, [])','C36: exactly the nodes within the given number of hops')
m('M46',S,'Search.costPush','if !allowEqual && decide (c ≤ newCost) then st','if !allowEqual && decide (newCost ≤ c) then st','C36: exactly the nodes within the given number of hops')
m('M47',S,'Search.bfsRoots','if roots.all g.contains then visited','if roots.any g.contains then visited','C36: nothing is visited if a root is missing')
m('M48',S,'Search.componentStep','else if st.1.contains n then some (.ok st)','else if false then some (.ok st)','C37: components are disjoint')
m('M49',S,'Search.validPush','else if !valid.contains m then st','else if false then st','C37: with only_root_nodes, components stay inside the roots')
m('M50',S,'Search.filterPush','if !edgeValid e then return st','if !edgeValid e then return (st.1.add m, st.2)','C37: a node rejected through one edge may be reached through another')
m('M51',S,'Search.absorb','if meets cur c then absorb (union cur c) rest','if meets cur c then absorb cur rest','C38: merged components lose no node')
m('M52',S,'Layer.getNeighborhood','Search.bfsLimit l.search fuel n hops','Search.bfsLimit l.search fuel n (hops + 1)','C36: getNeighborhood respects num_hops')
m('M53',T,'NodeSymbol.label','if isAlpha (category n) then','if true then','C30: labels of non-letter categories print the whole id')
m('M54',T,'stringToLayerId','let t := s.map toUpper','let t := s','C31: layer names are case insensitive')
m('M55',T,'Color.lt','else if x.b ≠ y.b then decide (x.b < y.b)\n  else decide (x.a < y.a)','else decide (x.b < y.b)','C32: colour order is total')
m('M56',T,'identifyFileType','ext = str ".json" ∨ ext = str ".bson"','ext = str ".json"','C43: .bson is JSON')
m('M57',T,'verifyFileExtension','.ok (p ++ str ".sparkdsg", .binary)','.ok (p, .binary)','C43: a missing extension is added')
m('M58',B,'Wr.opt','| none => type Pack.nil','| none => nil','C21: optionals survive a round trip')
m('M59',B,'Rd.checkValid','if (p + elements * bytes) % 2 ^ 64 > E.buf.length','if (p + elements * bytes) % 2 ^ 64 > E.buf.length + 1','C22: no read outside the buffer')
m('M60',B,'Rd.str','let n ← arrLen\n  checkValid 1 n\n  raw n','let n ← arrLen\n  raw n','C22: no read outside the buffer')
m('M61',B,'Rd.map','m.insert e.1 e.2','m.emplace e.1 e.2','C28/C22: (a repeated key keeps the last value; writers never repeat keys)',note='SURVIVED is right: maps written by the program have no repeated keys, and no property speaks of files with repeated keys.')
m('M62',B,'Wr.matrix','seq (index m.rows) (seq (index m.cols)','seq (index m.cols) (seq (index m.rows)','C23: matrices keep their shape')
m('M63',B,'Rd.columnVec','if r > 0 ∧ c ≤ 0 then lift .ub\n    else\n      let l','if False then lift .ub\n    else\n      let l','C22: the counterexample that the reader writes outside its allocation',note=None)
m('M64',C,'Rd.semanticColor','E.version.le ⟨1, 0, 2⟩','E.version.lt ⟨1, 0, 2⟩','C24: files of version 1.0.2 are read with three colour channels')
m('M65',C,'Rd.baseAttrs','E.version.lt ⟨1, 0, 4⟩','E.version.le ⟨1, 0, 4⟩','C23: is_predicted survives a round trip')
m('M66',C,'Wr.placeAttrs','seq (bool p.realPlace) (seq (bool p.activeFrontier)','seq (bool p.activeFrontier) (seq (bool p.realPlace)','C23: all attribute fields survive a round trip')
m('M67',C,'Wr.khronosAttrs','seq (vec v3f k.trajectoryPositions)\n    (seq (vec u64 k.trajectoryTimestamps)','seq (vec v3f [])\n    (seq (vec u64 k.trajectoryTimestamps)','C23: all attribute fields survive a round trip')
m('M68',C,'Registry.typeId','idxOf c)','idxOf c + 1)','C25: the attribute class survives a round trip')
m('M69',C,'factory','m.insert (UInt8.ofNat e.2) c','m.insert (UInt8.ofNat (e.2 % 128)) c','C29: type ids of the writer are resolved by name')
m('M70',C,'FileHeader.read','if s ≠ identifier then return none','if False then return none','C24: a file without identifier is not taken for one with a header')
m('M71',C,'FileHeader.checkCompatibility','if h.version.lt ⟨1, 0, 2⟩ = true then .throw .runtimeError\n','if h.version.lt ⟨1, 0, 1⟩ = true then .throw .runtimeError\n','C24: too old files are refused')
m('M72',IO,'Graph.allEdges','g.inter.edges.toList.map Prod.snd ++ g.dynInter.edges','g.dynInter.edges','C25: every edge is saved')
m('M73',IO,'Graph.write','(match (if includeMesh then g.mesh else none) with','(match g.mesh with','C25: the mesh is left out on request')
m('M74',IO,'Rd.parseNode','return (r.1, s.2.erase id)','return (r.1, s.2)','C26: nodes the sender has are kept')
m('M75',IO,'Rd.updateGraph','let g ← dynArr (parseEdge ef) g.markEdgesAsStale','let g ← dynArr (parseEdge ef) g','C26: edges the sender does not have are removed')
m('M76',IO,'Rd.updateGraphFrom','(if g.layerIds ≠ ids then g.reset ids else g)','g','C26: a receiver with other layers adopts the layers of the sender')
m('M77',IO,'Rd.dynLoop','let s ← body s\n      dynLoop body n s','dynLoop body n s','C25: every item of the file is read')
m('M78',V,'Layer.adjPut','A.set j i (A.at_ i j)','.ok A','C41: (symmetry; the loop visits both directions)',note='SURVIVED or not depends on whether the row of the sibling sets the same entry: with a symmetric weight function the second assignment is redundant.')
m('M79',V,'Layer.lapPut','st.1.set i j (ar.neg (w x.id s))','st.1.set i j (w x.id s)','C41: off-diagonal entries are minus the weight')
m('M80',V,'Layer.lapRow','st.1.set e.2 e.2 st.2','.ok st.1','C41: the diagonal holds the degrees')
m('M81',V,'LayerView.next','if valid f rest then rest else next f rest','rest','C42: the view visits only accepted nodes')
m('M82',V,'Graph.ancestorsOfLayer','if x.layer ≤ cutOff k then some (.ok []) else','if x.layer ≤ k.layer then some (.ok []) else','C46: (what the code would do if it compared layer ids as intended)',note='The counterexample theorem about the bool comparison must fail; it shows that the model distinguishes the two.')
m('M83',V,'Graph.eachChild','(if kc = k then some (.ok [c]) else f c)','(if kc.layer = k.layer then some (.ok [c]) else f c)','C46: exactly the descendants in the given layer')
m('M84',MO,'Mesh.resizeVertices','labels := if m.hasLabels then','labels := if m.hasColors then','C40: attribute vectors have the length of the vertex list')
m('M85',MO,'Mesh.keepVertex','let labels ← pushIf m.hasLabels k.labels m.labels i','let labels ← pushIf m.hasColors k.labels m.labels i','C39: every remaining vertex keeps its attributes')
m('M86',MO,'Mesh.keepVertex','next := k.next + 1','next := k.next','C39: faces keep pointing to the same points')
m('M87',MO,'Mesh.reindex','| some c => some (a, b, c)','| some c => some (a, c, b)','C39: faces keep their orientation')
m('M88',MO,'Mesh.unusedVertices','((s.erase f.1).erase f.2.1).erase f.2.2','(s.erase f.1).erase f.2.1','C39: eraseFaces keeps the vertices of the remaining faces')
m('M89',MO,'Mesh.keepFaces','else f :: keepFaces indices (i + 1) fs','else f :: keepFaces indices i fs','C39: eraseFaces erases exactly the given faces')
m('M90',CL,'Graph.cloneNode','let r ← h.emplacePrev x.layer x.id t (some a)','let r ← h.emplacePrev x.layer x.id 0 (some a)','C17: stamps of dynamic nodes are cloned')
m('M91',CL,'Graph.clone','mesh := (match g.mesh with | none => h.mesh | some m => some m)','mesh := h.mesh','C17: the mesh is cloned')
m('M92',CL,'Graph.clone','let h ← foldRes cloneEdge h g.allEdges\n','','C17: edges are cloned')
m('M93',Z,'Zmq.step','{ s with pc := .idle, hasChange := true, published','{ s with pc := .idle, published','C45: a published update is announced')
m('M94',Z,'Zmq.step','{ s with hasChange := false, cloning := true }','{ s with cloning := true }','C45: graph() clears the flag')
m('M95',Z,'Zmq.read','Rd.updateGraphFrom P.R P.Q P.order g (P.env m.bytes','Rd.updateGraph P.R P.Q P.order g (P.env m.bytes','C45: the receiver mirrors the sender')
m('M96',U,'Layer.updateNode','st.2.insert e.1 (.static st.1.id)','st.2','C19: new nodes are found through the graph')
m('M97',U,'Layer.updateNode','status := st.1.status.insert e.1 .new','status := st.1.status.insert e.1 .visible','C19: added nodes are reported as new')
m('M98',U,'Layer.updateEdge','{ old with info := e.2.info }','old','C19: listed edges take the new attributes')
m('M99',U,'Graph.updateFromLayer','other.reset, true)','other, true)','C19: the source is emptied')
m('M100',MG,'Graph.mergeInter','let t := cfg.getMergedId e.2.target','let t := e.2.target','C18: edges are mapped by the id map')
m('M101',MG,'Graph.mergeInter','if cfg.enforceParent then','if !cfg.enforceParent then','C18: the parent rule is applied on demand')
m('M102',MG,'Graph.mergeStatic','let x ← foldRes mergeRemovedEdge x c.2\n','','C18: removed edges are removed')
m('M103',MG,'Graph.mergeStatic','if !st.1.hasLayer e.1 then .ok st','if false then .ok st','C18: layers the receiver does not have are skipped')
m('M104',MG,'Graph.mergeGraph','let g ← foldRes (mergeInter cfg) g o.dynInter.edges.toList\n','','C18: edges between trajectories and static layers are merged')
m('M105',L,'Layer.mergeNodeStep','if l.status.find? e.1 = some .merged then .ok (l, lookup)','if false then .ok (l, lookup)','C18: nodes merged away are not brought back')
m('M106',L,'Layer.mergeNodeStep','if !cfg.updateArchived then (do','if cfg.updateArchived then (do','C18: archived nodes are updated only on demand')
m('M107',L,'Layer.mergeNodeStep','lookup.emplace e.2.id (.static l.id))','lookup)','C18: new nodes are found through the graph')
m('M108',L,'Layer.mergeEdgeStep','if l.hasEdge e.2.source e.2.target then .ok l','if false then .ok l','C18: (an edge present between the unmapped ends is not added a second time between their images)')
m('M109',D,'DynLayer.mergeNodeStep','oa.setPosition xa.position','oa','C18: shared dynamic nodes keep their position')
m('M110',D,'DynLayer.mergeNodeStep','ops.add xa.position delta','xa.position','C18: appended nodes are shifted')
m('M111',D,'DynLayer.mergeNodeStep','ops.sub xa.position oa.position','ops.sub oa.position xa.position','C18: the shift is the difference of the positions')
m('M112',EN,'SwapEndian.swap64','(v &&& 0x0000ffff0000ffff) <<< 16','(v &&& 0x0000ffff0000ffff) <<< 8','C47: swapping twice gives the original word')
m('M113',B,'Version.lt','else if a.minor == b.minor then decide (a.patch < b.patch)\n     else false','else decide (a.patch < b.patch)','C24/C48: version order is a total order')
m('M114',B,'Rd.dims','if m ≠ (n : Int) then fail .outOfRange else return (r, c)','return (r, c)','C22/C23: matrix dimensions are checked against the announced length')
m('M115',B,'Rd.resizeCheck','r > Int.tdiv (2 ^ 63 - 1) c then','False then','C22: (Eigen throws bad_alloc for dimensions whose product overflows)',note='SURVIVED would mean that no theorem relies on the check.')
