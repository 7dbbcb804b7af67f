import Verif.Model.LayerApi
import Verif.Model.Graph
/-! # Read-only helpers: adjacency matrices, layer views, descendants -/

namespace Verif

/-! ## src/adjacency_matrix.cpp

The entries are doubles; their arithmetic is left uninterpreted, so the statements hold for whatever IEEE arithmetic does. -/

/-- What the matrices need of doubles. -/
structure Arith (D : Type) where
  zero : D
  neg : D → D
  add : D → D → D

/-- A dense square matrix. -/
structure Mat (D : Type) where
  n : Nat
  at_ : Nat → Nat → D

namespace Mat
variable {D : Type}
/-- `Eigen::MatrixXd::Zero(n, n)` -/
def zeros (ar : Arith D) (n : Nat) : Mat D := ⟨n, fun _ _ => ar.zero⟩
/-- `A(i, j) = v`: outside the matrix, an assertion fails or memory is corrupted. -/
def set (A : Mat D) (i j : Nat) (v : D) : Res (Mat D) :=
  if i < A.n ∧ j < A.n then .ok ⟨A.n, fun x y => if x = i ∧ y = j then v else A.at_ x y⟩ else .ub
end Mat

namespace Layer
variable {D : Type}

/-- adjacency_matrix.cpp:50-58: one sibling in `getAdjacencyMatrix`. -/
def adjPut (ord : OMap NodeId Nat) (w : NodeId → NodeId → D) (x : Node) (i : Nat) (A : Mat D) (s : NodeId) : Res (Mat D) :=
  match ord.find? s with
  | none => .ok A
  | some j => A.set i j (w x.id s) >>= fun A => A.set j i (A.at_ i j)

/-- adjacency_matrix.cpp:47-59: one row. `getNode` throws `out_of_range` for a missing node. -/
def adjRow (l : Layer) (ord : OMap NodeId Nat) (w : NodeId → NodeId → D) (A : Mat D) (e : NodeId × Nat) : Res (Mat D) :=
  Res.at? (l.findNode e.1) >>= fun x => foldRes (adjPut ord w x e.2) A x.siblings.keys

/-- adjacency_matrix.cpp:43-62 `getAdjacencyMatrix` -/
def adjacencyMatrix (ar : Arith D) (l : Layer) (ord : OMap NodeId Nat) (w : NodeId → NodeId → D) : Res (Mat D) :=
  foldRes (l.adjRow ord w) (Mat.zeros ar ord.size) ord.toList

/-- adjacency_matrix.cpp:72-84: one sibling in `getLaplacian`. State: matrix and degree. -/
def lapPut (ar : Arith D) (ord : OMap NodeId Nat) (w : NodeId → NodeId → D) (x : Node) (i : Nat) (st : Mat D × D) (s : NodeId) : Res (Mat D × D) :=
  match ord.find? s with
  | none => .ok st
  | some j => st.1.set i j (ar.neg (w x.id s)) >>= fun A => A.set j i (ar.neg (w x.id s)) >>= fun A => .ok (A, ar.add st.2 (w x.id s))

/-- adjacency_matrix.cpp:68-86 -/
def lapRow (ar : Arith D) (l : Layer) (ord : OMap NodeId Nat) (w : NodeId → NodeId → D) (A : Mat D) (e : NodeId × Nat) : Res (Mat D) :=
  Res.at? (l.findNode e.1) >>= fun x => foldRes (lapPut ar ord w x e.2) (A, ar.zero) x.siblings.keys >>= fun st => st.1.set e.2 e.2 st.2

/-- adjacency_matrix.cpp:64-89 `getLaplacian` -/
def laplacian (ar : Arith D) (l : Layer) (ord : OMap NodeId Nat) (w : NodeId → NodeId → D) : Res (Mat D) :=
  foldRes (l.lapRow ar ord w) (Mat.zeros ar ord.size) ord.toList

/-- `Eigen::Triplet<double>` -/
abbrev Triplet (D : Type) := Nat × Nat × D

/-- `setFromTriplets`: entries with the same position are added up, in order; positions without entry are zero. An entry outside the
matrix corrupts memory or fails an assertion. -/
def fromTriplets (ar : Arith D) (n : Nat) (L : List (Triplet D)) : Res (Mat D) :=
  if L.all (fun t => decide (t.1 < n ∧ t.2.1 < n)) then
    .ok ⟨n, fun i j => match L.filter (fun t => decide (t.1 = i ∧ t.2.1 = j)) with
      | [] => ar.zero
      | t :: ts => ts.foldl (fun s t => ar.add s t.2.2) t.2.2⟩
  else .ub

/-- adjacency_matrix.cpp:98-110: one row of `getSparseAdjacencyMatrix`. -/
def sparseRow (l : Layer) (ord : OMap NodeId Nat) (w : NodeId → NodeId → D) (L : List (Triplet D)) (e : NodeId × Nat) : Res (List (Triplet D)) :=
  Res.at? (l.findNode e.1) >>= fun x => .ok (L ++ x.siblings.keys.filterMap (fun s => (ord.find? s).map (fun j => (e.2, j, w x.id s))))

/-- adjacency_matrix.cpp:91-115 `getSparseAdjacencyMatrix` -/
def sparseAdjacency (ar : Arith D) (l : Layer) (ord : OMap NodeId Nat) (w : NodeId → NodeId → D) : Res (Mat D) :=
  foldRes (l.sparseRow ord w) [] ord.toList >>= fromTriplets ar ord.size

/-- adjacency_matrix.cpp:124-140: one row of `getSparseLaplacian`. -/
def sparseLapRow (ar : Arith D) (l : Layer) (ord : OMap NodeId Nat) (w : NodeId → NodeId → D) (L : List (Triplet D)) (e : NodeId × Nat) :
    Res (List (Triplet D)) :=
  Res.at? (l.findNode e.1) >>= fun x =>
    let sibs := x.siblings.keys.filter ord.contains
    .ok (L ++ sibs.filterMap (fun s => (ord.find? s).map (fun j => (e.2, j, ar.neg (w x.id s)))) ++
      [(e.2, e.2, sibs.foldl (fun d s => ar.add d (w x.id s)) ar.zero)])

/-- adjacency_matrix.cpp:117-145 `getSparseLaplacian` -/
def sparseLaplacian (ar : Arith D) (l : Layer) (ord : OMap NodeId Nat) (w : NodeId → NodeId → D) : Res (Mat D) :=
  foldRes (l.sparseLapRow ar ord w) [] ord.toList >>= fromTriplets ar ord.size

end Layer

/-! ## src/layer_view.cpp -/

/-- layer_view.h:47-88 `LayerView`: a pointer to a layer (null for a default-constructed view) and a filter (`none` is an empty
`std::function`). -/
structure LayerView where
  layer : Option Layer
  filter : Option (Node → Bool) := none

/-- layer_view.h:51-78 `LayerView::Iter`: what is left of the node map, from the iterator on. -/
abbrev ViewIter := List (NodeId × Node)

namespace LayerView
/-- layer_view.cpp:60-70 `valid`: not at the end, and accepted. -/
def valid (f : Option (Node → Bool)) : ViewIter → Bool
  | [] => false
  | e :: _ => match f with
    | none => true
    | some f => f e.2

/-- layer_view.cpp:72-84 `next`: does nothing at the end; else steps at least once, up to the next accepted node. -/
def next (f : Option (Node → Bool)) : ViewIter → ViewIter
  | [] => []
  | _ :: rest => if rest = [] then [] else if valid f rest then rest else next f rest

/-- layer_view.cpp:103-106, 40-47 `begin`: dereferences the layer pointer. -/
def begin (v : LayerView) : Res ViewIter :=
  match v.layer with
  | none => .ub
  | some l => .ok (if valid v.filter l.nodes.toList then l.nodes.toList else next v.filter l.nodes.toList)

/-- A range-based for loop over the view: the nodes it visits. -/
def visit (f : Option (Node → Bool)) : Nat → ViewIter → List Node
  | _, [] => []
  | 0, _ => []
  | n + 1, e :: rest => e.2 :: visit f n (next f (e :: rest))

/-- The nodes visited by `for (const auto& node : view)`. A step never moves backwards, so the number of nodes left bounds the loop. -/
def nodes (v : LayerView) : Res (List Node) := v.begin >>= fun it => .ok (visit v.filter it.length it)
end LayerView

/-! ## src/scene_graph_utilities.cpp -/

namespace Graph

/-- scene_graph_utilities.cpp:50: `node->layer <= child_layer` compares a layer id with a `LayerKey`, which converts to `bool`: it is
compared with 1, or with 0 for the "unknown" key. -/
def cutOff (k : LayerKey) : LayerId := if k.layer ≠ UNKNOWN_LAYER then 1 else 0

/-- scene_graph_utilities.cpp:54-61: the loop over the children; `f` is the recursive call. `*graph.getLayerForNode(child)` is undefined for
a child that is not in the graph. -/
def eachChild (g : Graph) (k : LayerKey) (f : NodeId → Option (Res (List NodeId))) : List NodeId → Option (Res (List NodeId))
  | [] => some (.ok [])
  | c :: cs =>
    match g.getLayerForNode c with
    | none => some .ub
    | some kc =>
      match (if kc = k then some (.ok [c]) else f c) with
      | some (.ok l) =>
        match eachChild g k f cs with
        | some (.ok l') => some (.ok (l ++ l'))
        | r => r
      | r => r

/-- scene_graph_utilities.cpp:41-62 `getAncestorsOfLayer`: the ids handed to the callback, in order. `none`: recursion deeper than
`fuel`. -/
def ancestorsOfLayer (g : Graph) (k : LayerKey) : Nat → NodeId → Option (Res (List NodeId))
  | 0, _ => none
  | fuel + 1, parent =>
    match g.findNode parent with
    | .throw e => some (.throw e)
    | .ub => some .ub
    | .ok none => some (.ok [])
    | .ok (some x) => if x.layer ≤ cutOff k then some (.ok []) else g.eachChild k (ancestorsOfLayer g k fuel) x.children.keys
end Graph
end Verif
