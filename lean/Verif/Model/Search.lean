import Verif.Model.Layer
/-!
# Graph searches (include/spark_dsg/graph_utilities.h)

The searches are templates over `graph_traits<Graph>`; here a graph is a record of the trait functions. Loops carry a bound on the
number of iterations: `none` means "still running after that many iterations", so termination is something to prove. The list
of nodes handed to the visitor callback, in order, is the `trace`.
-/

namespace Verif

/-- graph_utilities.h:48-49 `graph_traits<Graph>`: `contains`, `neighbors` (a `std::set`, so in increasing order), `nodes`, `get_node`,
`get_edge`. -/
structure SearchGraph where
  contains : NodeId → Bool
  neighbors : NodeId → Res (List NodeId)
  nodes : List (NodeId × Node) := []
  getNode : NodeId → Res Node := fun _ => .throw .outOfRange
  getEdge : NodeId → NodeId → Res Edge := fun _ _ => .throw .outOfRange

/-- scene_graph_layer.h:321-363 `graph_traits<SceneGraphLayer>`; `getNode` and `getEdge`
(base_layer.h:78-98) throw `out_of_range` on a missing element. (`getEdge` also clears the edge's stale mark; the searches do not return
the layer, so this effect is left out.) -/
def Layer.search (l : Layer) : SearchGraph where
  contains := l.hasNode
  neighbors n := (Res.at? (l.findNode n)) >>= fun x => .ok x.siblings.keys
  nodes := l.nodes.toList
  getNode n := Res.at? (l.findNode n)
  getEdge s t := Res.at? (l.findEdge s t).2

namespace Search

/-- The `while (!frontier.empty())` loop shared by all breadth-first searches (graph_utilities.h:56-71, 80-99, 108-132, 330-356):
pop the front node, call the visitor, run the body, which updates the state and appends nodes to the frontier. -/
def loop {σ : Type} (body : σ → NodeId → Res (σ × List NodeId)) : Nat → σ → List NodeId → List NodeId → Option (Res (σ × List NodeId))
  | _, s, [], trace => some (.ok (s, trace))
  | 0, _, _ :: _, _ => none
  | fuel + 1, s, n :: frontier, trace =>
    match body s n with
    | .ok (s', out) => loop body fuel s' (frontier ++ out) (trace ++ [n])
    | .throw e => some (.throw e)
    | .ub => some .ub

/-- graph_utilities.h:63-70: the neighbour loop of the plain search. State: `seen` and the nodes appended so far. -/
def seenPush (st : OSet NodeId × List NodeId) (m : NodeId) : OSet NodeId × List NodeId :=
  if st.1.contains m then st else (st.1.add m, st.2 ++ [m])

/-- graph_utilities.h:62-70 -/
def seenBody (g : SearchGraph) (seen : OSet NodeId) (n : NodeId) : Res (OSet NodeId × List NodeId) := do
  let nbs ← g.neighbors n
  return nbs.foldl seenPush (seen, [])

/-- graph_utilities.h:87-98: the neighbour loop restricted to valid nodes. -/
def validPush (valid : OSet NodeId) (st : OSet NodeId × List NodeId) (m : NodeId) : OSet NodeId × List NodeId :=
  if st.1.contains m then st
  else if !valid.contains m then st
  else (st.1.add m, st.2 ++ [m])

/-- graph_utilities.h:86-98 -/
def validBody (g : SearchGraph) (valid seen : OSet NodeId) (n : NodeId) : Res (OSet NodeId × List NodeId) := do
  let nbs ← g.neighbors n
  return nbs.foldl (validPush valid) (seen, [])

/-- graph_utilities.h:120-131: the neighbour loop of the cost-limited search; `costs[m]` exists when read. -/
def costPush (allowEqual : Bool) (newCost : Nat) (st : OMap NodeId Nat × List NodeId) (m : NodeId) : OMap NodeId Nat × List NodeId :=
  match st.1.find? m with
  | some c =>
    if !allowEqual && decide (c ≤ newCost) then st
    else if allowEqual && decide (c < newCost) then st
    else (st.1.insert m newCost, st.2 ++ [m])
  | none => (st.1.insert m newCost, st.2 ++ [m])

/-- graph_utilities.h:114-131. Costs and limit are `size_t`; `cost + 1` is computed only for a cost below the limit, so it cannot wrap
and natural numbers are exact. `costs[curr_node]` creates a zero entry if there is none. -/
def costBody (allowEqual : Bool) (g : SearchGraph) (limit : Nat) (costs : OMap NodeId Nat) (n : NodeId) :
    Res (OMap NodeId Nat × List NodeId) :=
  let costs := costs.emplace n 0
  let c := (costs.find? n).getD 0
  if limit ≤ c then .ok (costs, [])
  else do
    let nbs ← g.neighbors n
    return nbs.foldl (costPush allowEqual (c + 1)) (costs, [])

/-- graph_utilities.h:337-355: the neighbour loop with node and edge filters; a node that fails its filter is recorded as seen. -/
def filterPush (g : SearchGraph) (nodeValid : Node → Bool) (edgeValid : Edge → Bool) (n : NodeId) (st : OSet NodeId × List NodeId)
    (m : NodeId) : Res (OSet NodeId × List NodeId) :=
  if st.1.contains m then .ok st
  else do
    let x ← g.getNode m
    if !nodeValid x then return (st.1.add m, st.2)
    else
      let e ← g.getEdge n m
      if !edgeValid e then return st
      else return (st.1.add m, st.2 ++ [m])

/-- graph_utilities.h:336-355 -/
def filterBody (g : SearchGraph) (nodeValid : Node → Bool) (edgeValid : Edge → Bool) (seen : OSet NodeId) (n : NodeId) :
    Res (OSet NodeId × List NodeId) := do
  let nbs ← g.neighbors n
  foldRes (filterPush g nodeValid edgeValid n) (seen, []) nbs

/-- Only the visited nodes of a search. -/
def visited {σ : Type} : Option (Res (σ × List NodeId)) → Option (Res (List NodeId))
  | some (.ok r) => some (.ok r.2)
  | some (.throw e) => some (.throw e)
  | some .ub => some .ub
  | none => none

/-- graph_utilities.h:135-147: search from one root. -/
def bfs (g : SearchGraph) (fuel : Nat) (root : NodeId) : Option (Res (List NodeId)) :=
  if !g.contains root then some (.ok [])
  else visited (loop (seenBody g) fuel ((∅ : OSet NodeId).add root) [root] [])

/-- graph_utilities.h:149-163: search from one root, up to `limit` hops. -/
def bfsLimit (g : SearchGraph) (fuel : Nat) (root : NodeId) (limit : Nat) : Option (Res (List NodeId)) :=
  if !g.contains root then some (.ok [])
  else visited (loop (costBody false g limit) fuel ((∅ : OMap NodeId Nat).insert root 0) [root] [])

/-- graph_utilities.h:165-183: search from several roots; nothing is visited if one of them is missing. -/
def bfsRoots (g : SearchGraph) (fuel : Nat) (roots : List NodeId) : Option (Res (List NodeId)) :=
  if roots.all g.contains then visited (loop (seenBody g) fuel (roots.foldl (fun s r => s.add r) (∅ : OSet NodeId)) roots [])
  else some (.ok [])

/-- graph_utilities.h:185-206: search from several roots, up to `limit` hops. -/
def bfsRootsLimit (g : SearchGraph) (fuel : Nat) (roots : List NodeId) (limit : Nat) : Option (Res (List NodeId)) :=
  if roots.all g.contains then
    visited (loop (costBody false g limit) fuel (roots.foldl (fun s r => s.insert r 0) (∅ : OMap NodeId Nat)) roots [])
  else some (.ok [])

/-- graph_utilities.h:215-238: one root of `getConnectedComponents`. State: `visited` and the components so far. -/
def componentStep (g : SearchGraph) (fuel : Nat) (onlyRoots : Option (OSet NodeId)) (st : OSet NodeId × List (List NodeId)) (n : NodeId) :
    Option (Res (OSet NodeId × List (List NodeId))) :=
  if !g.contains n then some (.ok st)
  else if st.1.contains n then some (.ok st)
  else
    match (match onlyRoots with
      | some roots => loop (validBody g roots) fuel (st.1.add n) [n] []
      | none => loop (seenBody g) fuel (st.1.add n) [n] []) with
    | some (.ok (seen, component)) => some (.ok (seen, st.2 ++ [component]))
    | some (.throw e) => some (.throw e)
    | some .ub => some .ub
    | none => none

/-- A `for` loop whose body may be still running, throw or be undefined. -/
def forLoop {α σ : Type} (body : σ → α → Option (Res σ)) : σ → List α → Option (Res σ)
  | s, [] => some (.ok s)
  | s, a :: l =>
    match body s a with
    | some (.ok s') => forLoop body s' l
    | some (.throw e) => some (.throw e)
    | some .ub => some .ub
    | none => none

/-- graph_utilities.h:208-241 `getConnectedComponents(graph, root_nodes, only_root_nodes)`. The roots are an `unordered_set`: the list
gives its iteration order, which is arbitrary. -/
def components (g : SearchGraph) (fuel : Nat) (roots : List NodeId) (onlyRoots : Bool) : Option (Res (List (List NodeId))) :=
  match forLoop (componentStep g fuel (if onlyRoots then some (roots.foldl (fun s r => s.add r) (∅ : OSet NodeId)) else none))
      (∅, []) roots with
  | some (.ok st) => some (.ok st.2)
  | some (.throw e) => some (.throw e)
  | some .ub => some .ub
  | none => none

/-- graph_utilities.h:367-389: one node of the filtered `getConnectedComponents`. -/
def filterStep (g : SearchGraph) (fuel : Nat) (nodeValid : Node → Bool) (edgeValid : Edge → Bool)
    (st : OSet NodeId × List (List NodeId)) (e : NodeId × Node) : Option (Res (OSet NodeId × List (List NodeId))) :=
  if !nodeValid e.2 then some (.ok st)
  else if st.1.contains e.1 then some (.ok st)
  else
    match loop (filterBody g nodeValid edgeValid) fuel (st.1.add e.1) [e.1] [] with
    | some (.ok (seen, component)) => some (.ok (seen, st.2 ++ [component]))
    | some (.throw e) => some (.throw e)
    | some .ub => some .ub
    | none => none

/-- graph_utilities.h:359-392 `getConnectedComponents(graph, node_valid, edge_valid)`. -/
def filterComponents (g : SearchGraph) (fuel : Nat) (nodeValid : Node → Bool) (edgeValid : Edge → Bool) :
    Option (Res (List (List NodeId))) :=
  match forLoop (filterStep g fuel nodeValid edgeValid) (∅, []) g.nodes with
  | some (.ok st) => some (.ok st.2)
  | some (.throw e) => some (.throw e)
  | some .ub => some .ub
  | none => none

/-- graph_utilities.h:266-274: do the components meet? -/
def meets (a b : OSet NodeId) : Bool := b.keys.any a.contains
/-- Set union (`insert(begin, end)`). -/
def union (a b : OSet NodeId) : OSet NodeId := b.keys.foldl (fun s n => s.add n) a

/-- graph_utilities.h:261-275: the inner loop of `getMergedComponents`, over the not yet added components after `i`: those that meet
the current one are absorbed, the others remain. -/
def absorb : OSet NodeId → List (OSet NodeId) → OSet NodeId × List (OSet NodeId)
  | cur, [] => (cur, [])
  | cur, c :: rest =>
    if meets cur c then absorb (union cur c) rest
    else ((absorb cur rest).1, c :: (absorb cur rest).2)

theorem absorb_length (cur : OSet NodeId) (l : List (OSet NodeId)) : (absorb cur l).2.length ≤ l.length := by
  induction l generalizing cur with
  | nil => exact Nat.le_refl _
  | cons c rest ih =>
    unfold absorb
    split
    · exact Nat.le_trans (ih _) (Nat.le_succ _)
    · exact Nat.succ_le_succ (ih _)

/-- graph_utilities.h:245-284 `getMergedComponents`. `added_components` marks the indices already merged; the list holds the unmarked
ones, in order. Each output vector lists a set. -/
def mergedComponents : List (OSet NodeId) → List (OSet NodeId)
  | [] => []
  | c :: rest => (absorb c rest).1 :: mergedComponents (absorb c rest).2
termination_by l => l.length
decreasing_by exact Nat.lt_succ_of_le (absorb_length c rest)

/-- graph_utilities.h:286-317: one root of the depth-limited components. State: costs, current component, finished components. -/
def depthStep (g : SearchGraph) (fuel : Nat) (maxDepth : Nat) (st : OMap NodeId Nat × OSet NodeId × List (OSet NodeId)) (n : NodeId) :
    Option (Res (OMap NodeId Nat × OSet NodeId × List (OSet NodeId))) :=
  if !g.contains n then some (.ok st)
  else
    let st := if !st.1.contains n && st.2.1.size != 0 then (∅, ∅, st.2.2 ++ [st.2.1]) else st
    match loop (costBody true g maxDepth) fuel (st.1.insert n 0) [n] [] with
    | some (.ok (costs, trace)) => some (.ok (costs, trace.foldl (fun s m => s.add m) st.2.1, st.2.2))
    | some (.throw e) => some (.throw e)
    | some .ub => some .ub
    | none => none

/-- graph_utilities.h:286-320 `getConnectedComponents(graph, max_depth, root_nodes)`; the roots come in an arbitrary order. -/
def depthComponents (g : SearchGraph) (fuel : Nat) (maxDepth : Nat) (roots : List NodeId) : Option (Res (List (OSet NodeId))) :=
  match forLoop (depthStep g fuel maxDepth) (∅, ∅, []) roots with
  | some (.ok st) => some (.ok (mergedComponents (if st.2.1.size != 0 then st.2.2 ++ [st.2.1] else st.2.2)))
  | some (.throw e) => some (.throw e)
  | some .ub => some .ub
  | none => none

end Search

namespace Layer
/-- scene_graph_layer.cpp:339-346 `getNeighborhood(node, num_hops)`. -/
def getNeighborhood (l : Layer) (fuel : Nat) (n : NodeId) (hops : Nat) : Option (Res (OSet NodeId)) :=
  match Search.bfsLimit l.search fuel n hops with
  | some (.ok t) => some (.ok (t.foldl (fun s m => s.add m) ∅))
  | some (.throw e) => some (.throw e)
  | some .ub => some .ub
  | none => none
/-- scene_graph_layer.cpp:348-355 `getNeighborhood(nodes, num_hops)`. -/
def getNeighborhoodOf (l : Layer) (fuel : Nat) (ns : List NodeId) (hops : Nat) : Option (Res (OSet NodeId)) :=
  match Search.bfsRootsLimit l.search fuel ns hops with
  | some (.ok t) => some (.ok (t.foldl (fun s m => s.add m) ∅))
  | some (.throw e) => some (.throw e)
  | some .ub => some .ub
  | none => none
end Layer
end Verif
