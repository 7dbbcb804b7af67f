import Verif.Model.Types
/-!
# An edge container, to its user: a map from unordered pairs to edges, and a change log

Total functions only; this file does not import the model of the container.
-/

namespace Verif

/-- Operations of a stand-alone edge container. -/
inductive EOp
  | insert (s t : NodeId) (info : Option EdgeAttrs)
  | remove (s t : NodeId)
  | rewire (s t s' t' : NodeId)
  | find (s t : NodeId)
  | setInfo (s t : NodeId) (info : EdgeAttrs)
  | reset
  | getNew (clear : Bool)
  | getRemoved (clear : Bool)
  | setStale

/-- The map and the log. -/
structure EMap where
  edges : EdgeKey → Option Edge
  status : EdgeKey → EdgeStatus

namespace EMap

def empty : EMap := ⟨fun _ => none, fun _ => .nonexistent⟩

/-- Add an edge unless the pair has one; the pair counts as new in any case. -/
def insert (m : EMap) (s t : NodeId) (info : Option EdgeAttrs) : EMap :=
  ⟨fun k => if k = EdgeKey.of s t then some ((m.edges k).getD ⟨s, t, some (info.getD {})⟩) else m.edges k,
   fun k => if k = EdgeKey.of s t then .new else m.status k⟩

/-- Forget a pair. -/
def remove (m : EMap) (s t : NodeId) : EMap :=
  ⟨fun k => if k = EdgeKey.of s t then none else m.edges k,
   fun k => if k = EdgeKey.of s t then .deleted else m.status k⟩

/-- Effect of an operation. -/
def step (m : EMap) : EOp → EMap
  | .insert s t info => m.insert s t info
  | .remove s t => m.remove s t
  | .rewire s t s' t' =>
    match m.edges (EdgeKey.of s t) with
    | none => m
    | some e => (m.remove s t).insert s' t' e.info
  | .find _ _ => m
  | .setInfo s t info =>
    ⟨fun k => if k = EdgeKey.of s t then (m.edges k).map (fun e => { e with info := some info }) else m.edges k, m.status⟩
  | .reset => empty
  | .getNew clear => ⟨m.edges, fun k => if clear = true ∧ m.status k = .new then .visible else m.status k⟩
  | .getRemoved clear => ⟨m.edges, fun k => if clear = true ∧ m.status k = .deleted then .nonexistent else m.status k⟩
  | .setStale => m

/-- Only one call is refused: removing a pair the log knows nothing about. -/
def allowed (m : EMap) : EOp → Bool
  | .remove s t => m.status (EdgeKey.of s t) != .nonexistent
  | _ => true

/-- A history. -/
def run (m : EMap) (ops : List EOp) : EMap := ops.foldl step m

end EMap
end Verif
