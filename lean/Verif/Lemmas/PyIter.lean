import Verif.Model.PyIter
import Verif.Lemmas.Writer
/-! # What the Python iterators deliver -/

namespace Verif.Py

theorem loop_map {κ α : Type} (L : List (κ × α)) : Loop (mapIter κ α) L (L.map Prod.snd) .stop := by
  induction L with
  | nil => exact .stop rfl
  | cons e L ih => exact .next rfl rfl rfl ih

theorem loop_nodes (ns : List (NodeId × Node)) (hn : ns ≠ []) (e : LayerId × Layer) (r : List (LayerId × Layer)) {L : List Node}
    (h : Loop globalNodeIter (setNodeIter r) L .stop) : Loop globalNodeIter ⟨true, ns, e :: r⟩ (ns.map Prod.snd ++ L) .stop := by
  induction ns with
  | nil => exact (hn rfl).elim
  | cons a ns ih =>
    cases ns with
    | nil => exact .next rfl rfl rfl h
    | cons b ns => exact .next rfl rfl rfl (ih (by simp))

theorem loop_globalNodes (ls : List (LayerId × Layer)) :
    Loop globalNodeIter (setNodeIter ls) (ls.flatMap (fun e => e.2.nodes.toList.map Prod.snd)) .stop := by
  induction ls with
  | nil => exact .stop rfl
  | cons e r ih =>
    unfold setNodeIter
    rw [List.flatMap_cons]
    cases hq : e.2.nodes.toList with
    | nil => exact ih
    | cons a ns => exact loop_nodes (a :: ns) (by simp) e r ih

theorem loop_inter (es : List (EdgeKey × Edge)) (E : List (EdgeKey × Edge)) (ls : List (LayerId × Layer)) :
    Loop globalEdgeIter ⟨true, E, ls, es⟩ (es.map Prod.snd) .stop := by
  induction es with
  | nil => exact .stop rfl
  | cons e es ih => exact .next rfl rfl rfl ih

theorem loop_edges (inter : List (EdgeKey × Edge)) (ns : List (EdgeKey × Edge)) (hn : ns ≠ []) (e : LayerId × Layer) (r : List (LayerId × Layer)) {L : List Edge}
    (h : Loop globalEdgeIter (setEdgeIter inter r) L .stop) : Loop globalEdgeIter ⟨false, ns, e :: r, inter⟩ (ns.map Prod.snd ++ L) .stop := by
  induction ns with
  | nil => exact (hn rfl).elim
  | cons a ns ih =>
    cases ns with
    | nil => exact .next rfl rfl rfl h
    | cons b ns => exact .next rfl rfl rfl (ih (by simp))

theorem loop_globalEdges (inter : List (EdgeKey × Edge)) (ls : List (LayerId × Layer)) :
    Loop globalEdgeIter (setEdgeIter inter ls) (ls.flatMap (fun e => e.2.edges.edges.toList.map Prod.snd) ++ inter.map Prod.snd) .stop := by
  induction ls with
  | nil => exact loop_inter inter [] []
  | cons e r ih =>
    unfold setEdgeIter
    rw [List.flatMap_cons, List.append_assoc]
    cases hq : e.2.edges.edges.toList with
    | nil => exact ih
    | cons a ns => exact loop_edges inter (a :: ns) (by simp) e r ih

theorem loop_subs (ns : List (Prefix × DynLayer)) (hn : ns ≠ []) (e : LayerId × OMap Prefix DynLayer) (r : List (LayerId × OMap Prefix DynLayer)) {L : List DynLayer}
    (h : Loop dynLayerIter (setSubIter r) L .stop) : Loop dynLayerIter ⟨true, ns, e :: r⟩ (ns.map Prod.snd ++ L) .stop := by
  induction ns with
  | nil => exact (hn rfl).elim
  | cons a ns ih =>
    cases ns with
    | nil => exact .next rfl rfl rfl h
    | cons b ns => exact .next rfl rfl rfl (ih (by simp))

theorem loop_dynLayers (ls : List (LayerId × OMap Prefix DynLayer)) :
    Loop dynLayerIter (setSubIter ls) (ls.flatMap (fun e => e.2.toList.map Prod.snd)) .stop := by
  induction ls with
  | nil => exact .stop rfl
  | cons e r ih =>
    unfold setSubIter
    rw [List.flatMap_cons]
    cases hq : e.2.toList with
    | nil => exact ih
    | cons a ns => exact loop_subs (a :: ns) (by simp) e r ih

/-- The end of a vector of node pointers is always read. -/
theorem loop_dynNodes (d : List (Option Node)) :
    (skipNull d = .ub ∧ d.filterMap id = []) ∨
    ∃ s, skipNull d = .ok s ∧ Loop dynNodeIter s ((d.filterMap id).map some) .ub := by
  induction d with
  | nil => exact .inl ⟨rfl, rfl⟩
  | cons o r ih =>
    cases o with
    | none => simpa [skipNull] using ih
    | some x =>
      right
      refine ⟨some x :: r, rfl, ?_⟩
      rcases ih with ⟨h1, h2⟩ | ⟨s, h1, h2⟩
      · have : List.map some (List.filterMap id (some x :: r)) = [some x] := by simp [h2]
        rw [this]
        exact .advance rfl rfl h1
      · exact .next rfl rfl h1 h2

end Verif.Py
