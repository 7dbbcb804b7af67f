# Round 7: the write-through model (Model/Through.lean)
M=[]
def m(id,file,d,old,new,claim,**k): M.append(dict(id=id,file=file,definition=d,old=old,new=new,claim=claim,**k))
T="Model/Through.lean"
m("M269",T,"setEdgeAttributesT","""    let g ← Act.read (fun g => g.setInfoIn s t ks kt info)
    Act.set g
    return true""","""    modify (fun g => { g with mesh := none })
    let g ← Act.read (fun g => g.setInfoIn s t ks kt info)
    Act.set g
    return true""","C58: setEdgeAttributes writes nothing before it throws")
m("M270",T,"findEdgeT","""  let kt ← Act.read (fun g => Res.at? (g.lookup.find? t))
  findEdgeInT s t ks kt""","""  modify (fun g => { g with lookup := g.lookup.insert t ks })
  let kt ← Act.read (fun g => Res.at? (g.lookup.find? t))
  findEdgeInT s t ks kt""","C58: findEdge does not create a lookup entry")
m("M271",T,"addAncestryT","""  let _ ← Act.read (fun g => g.getNodePtr s ks)
  let _ ← Act.read (fun g => g.getNodePtr t kt)
  if ks.isParent kt then
    modNodeT s ks (fun x => { x with children := x.children.add t })""","""  let _ ← Act.read (fun g => g.getNodePtr s ks)
  if ks.isParent kt then
    modNodeT s ks (fun x => { x with children := x.children.add t })""","C58: insertEdge looks both nodes up before it writes")
m("M272",T,"insertEdgeT","""      addAncestryT s t ks kt
      modify (fun g => g.insertInterlayer s t ks kt attrs)
      return true

/-- dynamic_scene_graph.cpp:972""","""      modify (fun g => g.insertInterlayer s t ks kt attrs)
      addAncestryT s t ks kt
      return true

/-- dynamic_scene_graph.cpp:972""","C58: insertEdge changes nothing when addAncestry throws")
m("M273",T,"mergeNodesT","""      let x ← Act.read (fun g => g.staticNode kf.layer from_)
      Act.each (fun t => rewireInterlayerEdgeT from_ to t) x.parents.keys""","""      modify (fun g => { g with lookup := g.lookup.erase from_ })
      let x ← Act.read (fun g => g.staticNode kf.layer from_)
      Act.each (fun t => rewireInterlayerEdgeT from_ to t) x.parents.keys""","C58: mergeNodes of two trajectory nodes changes nothing")
m("M274",T,"Act.bind","| .throw e s' => .throw e s'\n  | .ub => .ub\ninstance","| .throw e _ => .throw e s\n  | .ub => .ub\ninstance","C58: the sweep stops half-way (exceptions do not roll back)")
m("M276",T,"addOrUpdateNodeT","""      modNodeT n k (fun x => { x with attrs := attrs })
      return true
    | none =>""","""      modify (fun g => { g with lookup := g.lookup.erase n })
      modNodeT n k (fun x => { x with attrs := attrs })
      modify (fun g => { g with lookup := g.lookup.insert n k })
      return true
    | none =>""","C58: addOrUpdateNode strong guarantee")
m("M277",T,"removeStaleEdgesT","if e.2 then removeEdgeT e.1.k1 e.1.k2","if e.2 then removeEdgeT e.1.k1 e.1.k1","C58/C16: the sweep removes the stale edges")
m("M278",T,"emplaceDynT","if g.hasNode newId then return false\n  else\n    modify (fun g => if g.hasDynLayer l p then g else","if false then return false\n  else\n    modify (fun g => if g.hasDynLayer l p then g else","C58/C11: an occupied id is refused")
m("M279","Spec/Throws.lean","Op.throws","| .setEdgeAttrs s t _ | .findEdge s t => !(σ.nodes.contains s && σ.nodes.contains t)","| .setEdgeAttrs s t _ | .findEdge s t => !(σ.nodes.contains s || σ.nodes.contains t)","C58: (spec-side) only two unknown nodes throw")
m("M280","Spec/Throws.lean","Op.throws"," && σ.layerIds.contains l","","C58: (spec-side) merging trajectory nodes with no static layer is UB, not a throw")
m("M281","Spec/Throws.lean","Op.heard","if op.throws σ then Op.heard σ ops else","if op.throws σ then Op.heard (σ.step op).1 ops else","C58: (spec-side) calls that throw have no effect")
