import Verif.Spec.Json
/-! # Specification: the strings of a graph -/

namespace Verif

/-- The strings in an attribute object: the name; the names of the classes of a room; the names of the details of a Khronos object. -/
def NodeAttrs.strings : NodeAttrs → List Str
  | .base _ => []
  | .semantic _ s => [s.name]
  | .object _ s _ => [s.name]
  | .room _ s p => s.name :: p.keys
  | .place _ s _ => [s.name]
  | .place2d _ s _ => [s.name]
  | .agent _ _ => []
  | .khronos _ s _ k => s.name :: k.details.keys

/-- Everything in the graph that is a string is text: strings in the attributes of nodes, and the names under which the classes of its nodes and
edges were registered. -/
structure Graph.OnlyText (g : Graph) (W : Registry NodeClass) (V : Registry EdgeClass) : Prop where
  classes : ∀ n i, g.nodeObs n = some i → (W.nameOf i.attrs.cls).IsText
  strings : ∀ n i, g.nodeObs n = some i → ∀ s ∈ i.attrs.strings, s.IsText
  edges : ∀ a b i, g.edgeObs a b = some i → (V.nameOf .base).IsText
end Verif
