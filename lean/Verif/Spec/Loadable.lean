import Verif.Spec.Json
/-! # Specification: the numbers of a graph that have to be finite -/

namespace Verif

/-- Fewer coefficients than an `int` can count: in the semantic feature; in the descriptors of an agent's image. -/
def NodeAttrs.Countable : NodeAttrs → Prop
  | .base _ => True
  | .semantic _ s | .object _ s _ | .room _ s _ | .place _ s _ | .place2d _ s _ | .khronos _ s _ _ => s.feature.Printable
  | .agent _ a => a.dbowIds.rows < 2 ^ 31 ∧ a.dbowValues.rows < 2 ^ 31

/-- The numbers that are no coefficients of a vector or matrix are finite: those of the quaternion of a valid bounding box (`F` converts the
rotation matrix), of other quaternions, the probabilities of a room, the distance of a place, the voxel positions of mesh connections. -/
def NodeAttrs.FiniteScalars (F : JArith) : NodeAttrs → Prop
  | .base _ => True
  | .semantic _ s => s.bbox.Printable F
  | .object _ s o => s.bbox.Printable F ∧ o.worldRObject.Finite
  | .room _ s p => s.bbox.Printable F ∧ ∀ e ∈ p.toList, F64.finite e.2 = true
  | .place _ s p => s.bbox.Printable F ∧ F64.finite p.distance = true ∧ p.orientation.Finite ∧ ∀ x ∈ p.voxblox, x.Finite
  | .place2d _ s p => s.bbox.Printable F ∧ ∀ x ∈ p.voxblox, x.Finite
  | .agent _ a => a.worldRBody.Finite
  | .khronos _ s _ _ => s.bbox.Printable F

/-- The same for a graph, whose edges have weights. -/
structure Graph.FiniteScalars (F : JArith) (g : Graph) : Prop where
  nodes : ∀ n i, g.nodeObs n = some i → i.attrs.FiniteScalars F
  edges : ∀ a b i, g.edgeObs a b = some i → F64.finite i.attrs.weight = true

/-- What the format supposes of a graph besides its numbers and strings: it has layers; nodes of static layers carry no time stamp; no trajectory
has `2^32` slots; matrix members have the sizes of their C++ types, and no more coefficients than an `int` can count. -/
structure Graph.Shaped (g : Graph) : Prop where
  layers : g.layerIds ≠ []
  plain : ∀ n i, g.nodeObs n = some i → i.key.dynamic = false → i.stamp = none
  slots : ∀ d ∈ g.dynList, d.nodes.length < 2 ^ 32
  typed : ∀ n i, g.nodeObs n = some i → i.attrs.Typed
  sizes : ∀ n i, g.nodeObs n = some i → i.attrs.Countable
end Verif
