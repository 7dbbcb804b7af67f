# Round 13: applying messages in place (Model/Receive.lean)
M=[]
def m(id,file,d,old,new,claim,**k): M.append(dict(id=id,file=file,definition=d,old=old,new=new,claim=claim,**k))
A="Model/Receive.lean"
m("M389",A,"Upd.parseNode","let _ ← act (Graph.addOrUpdateNodeT layer id (some a) t)\n    return stale.erase id","let _ ← act (Graph.addOrUpdateNodeT layer id (some a) t)\n    return stale","C68/C69: nodes of the message stay")
m("M390",A,"Upd.parseEdge","Graph.addOrUpdateEdgeT s t a","Graph.addOrUpdateEdgeT t s a","C69: edges of the message")
m("M391",A,"Upd.updateGraph","  act (Act.each (fun n => Graph.removeNodeT n >>= fun _ => (Pure.pure () : Act Graph Unit)) (order stale.keys))\n","","C69: the graph becomes the message's graph")
m("M392",A,"Upd.updateGraph","  act (Graph.modify (fun g => g.markEdgesAsStale))\n","","C69: edges not in the message go")
m("M393",A,"Upd.updateGraph","  act Graph.removeAllStaleEdgesT\n","","C69: edges not in the message go")
m("M394",A,"Upd.meshPart","if b = true then do","if b = false then do","C68/C69: mesh of the message")
m("M395",A,"Upd.updateGraphFrom","if g.layerIds ≠ ids then g.reset ids else g","g","C69: a receiver with other layers takes the sender's")
m("M396",A,"Upd.updateGraphFrom","if g.layerIds ≠ ids then g.reset ids else g","g.reset ids","C69: between versions: an interrupted message leaves what it has not reached")
m("M397",A,"Graph.serve1","| .throw .abort _ => .down","| .throw .abort _ => .corrupt","C68: no undefined behaviour")
m("M398",A,"Graph.serve1","    | .throw .abort _ => .down\n    | .throw _ g' => .up g'","    | .throw .abort _ => .down\n    | .throw _ _ => .up g","C68: what a thrown message leaves",nth=0)
m("M399",A,"Graph.serve1","    | .ok _ g' => .up g'\n    | .throw _ g' => .up g'\n    | .ub => .corrupt\n  | .message","    | .ok _ g' => .up g'\n    | .throw _ _ => .down\n    | .ub => .corrupt\n  | .message","C67: an exception of a call does not end the program",nth=0)
