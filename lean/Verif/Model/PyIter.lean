import Verif.Model.Graph
/-!
# The iterators behind the Python properties `nodes`, `edges`, `layers`, …

python/bindings/scene_graph_iterators.h. An iterator into a container is the list of the elements from its position to the end; it equals
`end()` iff that list is empty. Reading or incrementing at the end is undefined.
-/

namespace Verif.Py

/-- What `py::make_iterator(it, IterSentinel())` uses: `it == sentinel`, `*it`, `++it`. -/
structure Cursor (S α : Type) where
  done : S → Bool
  deref : S → Res α
  inc : S → Res S

/-- scene_graph_iterators.h:42-59 `NodeIter`, 87-104 `EdgeIter`, 273-290 `LayerIter`: over a map. -/
def mapIter (κ α : Type) : Cursor (List (κ × α)) α where
  done s := s.isEmpty
  deref s := match s with | [] => .ub | e :: _ => .ok e.2
  inc s := match s with | [] => .ub | _ :: r => .ok r

/-- scene_graph_iterators.h:65-67, 74-76: `while (*curr_iter_ == nullptr && curr_iter_ != end_iter_) ++curr_iter_`. -/
def skipNull : List (Option Node) → Res (List (Option Node))
  | [] => .ub
  | none :: r => skipNull r
  | some x :: r => .ok (some x :: r)

/-- scene_graph_iterators.h:63-68, the constructor of `DynamicNodeIter`. -/
def dynBegin (d : DynLayer) : Res (List (Option Node)) := skipNull d.nodes

/-- scene_graph_iterators.h:61-85 `DynamicNodeIter`. -/
def dynNodeIter : Cursor (List (Option Node)) (Option Node) where
  done s := s.isEmpty
  deref s := match s with | [] => .ub | x :: _ => .ok x
  inc s := match s with | [] => .ub | _ :: r => skipNull r

/-- scene_graph_iterators.h:156-160: the members of `GlobalNodeIter` (each pair of iterators as the list between them). -/
structure NodePos where
  valid : Bool
  nodes : List (NodeId × Node)
  layers : List (LayerId × Layer)

/-- scene_graph_iterators.h:115-133 `setNodeIter` -/
def setNodeIter : List (LayerId × Layer) → NodePos
  | [] => ⟨false, [], []⟩
  | e :: r => match e.2.nodes.toList with
    | [] => setNodeIter r
    | ns => ⟨true, ns, e :: r⟩

/-- scene_graph_iterators.h:106-161 `GlobalNodeIter`; the constructor is `setNodeIter g.layers.toList`. -/
def globalNodeIter : Cursor NodePos Node where
  done s := !s.valid || (s.nodes.isEmpty && s.layers.isEmpty)
  deref s := match s.nodes with | [] => .ub | e :: _ => .ok e.2
  inc s := match s.nodes with
    | [] => .ub
    | [_] => match s.layers with
      | [] => .ub
      | _ :: r => .ok (setNodeIter r)
    | _ :: ns => .ok { s with nodes := ns }

/-- scene_graph_iterators.h:227-234: the members of `GlobalEdgeIter`. -/
structure EdgePos where
  started : Bool
  edges : List (EdgeKey × Edge)
  layers : List (LayerId × Layer)
  inter : List (EdgeKey × Edge)

/-- scene_graph_iterators.h:183-204 `setEdgeIter`, called while `started_interlayer_` is false. -/
def setEdgeIter (inter : List (EdgeKey × Edge)) : List (LayerId × Layer) → EdgePos
  | [] => ⟨true, [], [], inter⟩
  | e :: r => match e.2.edges.edges.toList with
    | [] => setEdgeIter inter r
    | es => ⟨false, es, e :: r, inter⟩

/-- scene_graph_iterators.h:163-235 `GlobalEdgeIter`; the constructor is `setEdgeIter g.inter.edges.toList g.layers.toList`. -/
def globalEdgeIter : Cursor EdgePos Edge where
  done s := s.started && s.inter.isEmpty
  deref s := if s.started then (match s.inter with | [] => .ub | e :: _ => .ok e.2)
    else match s.edges with | [] => .ub | e :: _ => .ok e.2
  inc s := if s.started then (match s.inter with | [] => .ub | _ :: r => .ok { s with inter := r })
    else match s.edges with
      | [] => .ub
      | [_] => match s.layers with
        | [] => .ub
        | _ :: r => .ok (setEdgeIter s.inter r)
      | _ :: es => .ok { s with edges := es }

/-- scene_graph_iterators.h:366-370: the members of `DynamicLayerIter`. -/
structure LayerPos where
  valid : Bool
  here : List (Prefix × DynLayer)
  outer : List (LayerId × OMap Prefix DynLayer)

/-- scene_graph_iterators.h:322-341 `setSubIter` -/
def setSubIter : List (LayerId × OMap Prefix DynLayer) → LayerPos
  | [] => ⟨false, [], []⟩
  | e :: r => match e.2.toList with
    | [] => setSubIter r
    | ds => ⟨true, ds, e :: r⟩

/-- scene_graph_iterators.h:313-371 `DynamicLayerIter`; the constructor is `setSubIter g.dyns.toList`. -/
def dynLayerIter : Cursor LayerPos DynLayer where
  done s := !s.valid || (s.here.isEmpty && s.outer.isEmpty)
  deref s := match s.here with | [] => .ub | e :: _ => .ok e.2
  inc s := match s.here with
    | [] => .ub
    | [_] => match s.outer with
      | [] => .ub
      | _ :: r => .ok (setSubIter r)
    | _ :: ds => .ok { s with here := ds }

/-! ## A Python `for` loop -/

/-- How a loop ends. -/
inductive End | stop | ub
  deriving DecidableEq

/-- `for x in it`: pybind11's `make_iterator` compares with the sentinel, hands out `*it`, and increments before the next comparison.
`Loop C s L e`: started in `s`, the loop sees the elements `L` and ends as `e` says. -/
inductive Loop {S α : Type} (C : Cursor S α) : S → List α → End → Prop
  | stop {s} : C.done s = true → Loop C s [] .stop
  | read {s} : C.done s = false → C.deref s = .ub → Loop C s [] .ub
  | advance {s x} : C.done s = false → C.deref s = .ok x → C.inc s = .ub → Loop C s [x] .ub
  | next {s x s' L e} : C.done s = false → C.deref s = .ok x → C.inc s = .ok s' → Loop C s' L e → Loop C s (x :: L) e

/-- A loop has only one course. -/
theorem Loop.unique {S α : Type} {C : Cursor S α} {s : S} {L L' : List α} {e e' : End} (h : Loop C s L e) (h' : Loop C s L' e') :
    L = L' ∧ e = e' := by
  induction h generalizing L' e' with
  | stop h => cases h' <;> simp_all
  | read h1 h2 => cases h' <;> simp_all
  | advance h1 h2 h3 => cases h' <;> simp_all
  | next h1 h2 h3 _ ih =>
    cases h' with
    | stop h => simp_all
    | read h h' => simp_all
    | advance h h' h'' => simp_all
    | next k1 k2 k3 k4 =>
      rw [h2] at k2; cases k2
      rw [h3] at k3; cases k3
      obtain ⟨rfl, rfl⟩ := ih k4
      exact ⟨rfl, rfl⟩

end Verif.Py
