import Verif.Props.ChangeLog
import Verif.Model.Logger
/-! # What the logger should write -/

namespace Verif

/-- Exactly `c` things satisfy `P`. -/
def HowMany {α : Type} (P : α → Prop) (c : Nat) : Prop := ∃ l : List α, l.Nodup ∧ (∀ a, a ∈ l ↔ P a) ∧ c = l.length

/-- `p` is a node of a higher layer joined to `n` by an edge. -/
def Graph.AboveNode (g : Graph) (n p : NodeId) : Prop :=
  g.hasEdge n p = .ok true ∧ ∃ kn kp, g.getLayerForNode n = some kn ∧ g.getLayerForNode p = some kp ∧ kn.layer < kp.layer

/-- The numbers `r` are right for the static layer `l` of `g`, the graph after the history `pre ++ mid`, where `pre` ends with the last
call that forgets removed nodes. -/
structure LogRow.Right (ids : List LayerId) (pre mid : List Op) (g : Graph) (l : LayerId) (r : LogRow) : Prop where
  /-- nodes of the layer -/
  active : HowMany (fun n => g.getLayerForNode n = some (.static l)) r.active
  /-- ids that were in the layer since `pre`, are not in it now, and did not leave it by a merge -/
  removed : HowMany (fun n => g.getLayerForNode n ≠ some (.static l) ∧ (∃ j, InLayer ids (pre ++ mid.take j) n (.static l)) ∧
    ¬ MergedAway ids (pre ++ mid) n (.static l)) r.removed
  /-- ids merged away from the layer that have not been in it since -/
  merged : HowMany (fun n => MergedAway ids (pre ++ mid) n (.static l)) r.merged
  /-- nodes of the layer with exactly one parent -/
  withParents : HowMany (fun n => g.getLayerForNode n = some (.static l) ∧ ∃ p, g.AboveNode n p ∧ ∀ q, g.AboveNode n q → q = p) r.withParents
  /-- nodes of the layer with a child -/
  withChildren : HowMany (fun n => g.getLayerForNode n = some (.static l) ∧ ∃ c, g.AboveNode c n) r.withChildren
  /-- edges between two nodes of the layer -/
  edges : HowMany (fun e : NodeId × NodeId => e.1 < e.2 ∧ g.hasEdge e.1 e.2 = .ok true ∧ g.getLayerForNode e.1 = some (.static l) ∧
    g.getLayerForNode e.2 = some (.static l)) r.edges

/-- A graph handed to the logger, with the history that made it: `pre` ends with the last call that forgets removed nodes (or is empty). -/
structure Snapshot where
  ids : List LayerId
  pre : List Op
  mid : List Op
  g : Graph
  reached : Reached ids (pre ++ mid) g
  start : pre = [] ∨ ∃ p op, pre = p ++ [op] ∧ (op = .removedNodes true ∨ op.wipes = true)
  since : Op.removedNodes true ∉ mid ∧ ∀ op ∈ mid, op.wipes = false

/-- `r` is the right line for the layer `l` of the snapshot. -/
def Snapshot.Row (s : Snapshot) (l : LayerId) (r : LogRow) : Prop := r.Right s.ids s.pre s.mid s.g l

/-- One right line per snapshot. -/
def Snapshot.Rows (l : LayerId) : List Snapshot → List LogRow → Prop
  | [], [] => True
  | s :: ss, r :: rs => s.Row l r ∧ Snapshot.Rows l ss rs
  | _, _ => False

end Verif
