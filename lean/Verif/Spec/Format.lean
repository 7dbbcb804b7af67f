import Verif.Model.GraphIO
import Verif.Model.Obs
import Verif.Spec.Codec
/-! # Specification: files in another version's layout

A format says how the members of the attributes of a node are laid out, and what a reader makes of them. -/

namespace Verif

/-- A layout of attribute members, and the attributes that a reader gets; both may depend on the node. -/
structure Fmt where
  fields : NodeId → NodeAttrs → Wr
  kept : NodeId → NodeAttrs → NodeAttrs

/-- The layout of the current version. -/
def Fmt.current : Fmt := ⟨fun _ => Wr.fields, fun _ => NodeAttrs.kept⟩

/-- A node, written like `Wr.node` but in the given layout. -/
def Wr.nodeAs (F : Fmt) (R : Registry NodeClass) : Option Node → Wr
  | none => .ub
  | some x =>
    match x.attrs with
    | none => .ub
    | some a => seq (arrLen 4) (seq (u64 x.layer) (seq (u64 x.id) (seq (opt stamp x.timestamp) (seq (u8 (R.typeId a.cls)) (F.fields x.id a)))))

/-- A graph, written like `Graph.write` but in the given layout. -/
def Graph.writeAs (F : Fmt) (R : Registry NodeClass) (Q : Registry EdgeClass) (g : Graph) (includeMesh : Bool) : Wr :=
  Wr.seq (Wr.vec Wr.u64 g.layerIds) (Wr.seq (Wr.vec Wr.str R.names) (Wr.seq (Wr.vec Wr.str Q.names)
    (Wr.seq (Wr.dynArr (Wr.nodeAs F R) (g.staticNodes.map some)) (Wr.seq (Wr.dynArr (Wr.nodeAs F R) g.dynSlots)
      (Wr.seq (Wr.dynArr (Wr.edge Q) g.allEdges)
        (match (if includeMesh then g.mesh else none) with
         | none => Wr.bool false
         | some m => Wr.seq (Wr.bool true) (Wr.mesh m)))))))

/-- what a reader gets of a node -/
def NodeInfo.keptAs (F : Fmt) (n : NodeId) (i : NodeInfo) : NodeInfo := ⟨i.key, i.stamp, F.kept n i.attrs⟩

/-- `h` has exactly the nodes, edges and adjacency of `g`, with the attributes that a reader of the format gets. -/
structure Graph.MirrorsAs (F : Fmt) (h g : Graph) : Prop where
  layerIds : h.layerIds = g.layerIds
  nodes : ∀ n, h.nodeObs n = (g.nodeObs n).map (NodeInfo.keptAs F n)
  edges : ∀ a b, (h.edgeObs a b).map EdgeInfo.attrs = (g.edgeObs a b).map EdgeInfo.attrs
  adjacent : ∀ n, h.adjObs n = g.adjObs n

theorem Wr.nodeAs_current : Wr.nodeAs Fmt.current = Wr.node := by
  funext R x
  cases x with
  | none => rfl
  | some x =>
    obtain ⟨_, _, a, _⟩ := x
    cases a <;> rfl

theorem Graph.writeAs_current : Graph.writeAs Fmt.current = Graph.write := by
  funext R Q g m
  unfold Graph.writeAs Graph.write
  rw [Wr.nodeAs_current]
  cases (if m = true then g.mesh else none) <;> rfl

end Verif
