import Verif.Spec.GraphIO
/-! # Specification: the lengths in a graph -/

namespace Verif

/-- The lengths of the vectors of a mesh. -/
def Mesh.lengths (m : Mesh) : List Nat := [m.points.length, m.colors.length, m.stamps.length, m.labels.length, m.firstSeen.length, m.faces.length]
/-- The number of values that stand for a matrix: its coefficients and its two dimensions. -/
def Matrix.values {α : Type} (m : Matrix α) : Nat := (m.rows * m.cols + 2).toNat
/-- The lengths of the name and of the feature matrix. -/
def SemanticAttrs.lengths (s : SemanticAttrs) : List Nat := [s.name.length, s.feature.values]

/-- The lengths of all strings, vectors, sets, maps and matrices of variable size in an attribute object; of a Khronos object without what it
inherits from objects, which is not written. -/
def NodeAttrs.lengths : NodeAttrs → List Nat
  | .base _ => []
  | .semantic _ s => s.lengths
  | .object _ s o => s.lengths ++ [o.meshConnections.length]
  | .room _ s p => s.lengths ++ p.size :: p.keys.map List.length
  | .place _ s p => s.lengths ++ [p.voxblox.length, p.pcl.length, p.labels.length, p.deformation.length]
  | .place2d _ s p =>
    s.lengths ++ [p.boundary.length, p.pclBoundary.length, p.voxblox.length, p.pcl.length, p.labels.length, p.deformation.length]
  | .agent _ a => [a.dbowIds.values, a.dbowValues.values]
  | .khronos _ s _ k =>
    s.lengths ++ [k.firstObserved.length, k.lastObserved.length, k.trajectoryPositions.length, k.trajectoryTimestamps.length] ++ k.mesh.lengths ++
      k.dynamicPoints.length :: k.dynamicPoints.map List.length ++ k.details.size :: k.details.keys.map List.length ++
      k.details.toList.map (fun e => e.2.length)

/-- Every length that has to be written is one of 32 bits: the number of layers; the numbers of registered classes, and their names; the lengths
in the attributes of the nodes; those of the mesh, if it is written. -/
structure Graph.Fits (g : Graph) (W : Registry NodeClass) (V : Registry EdgeClass) (includeMesh : Bool) : Prop where
  layers : g.layerIds.length < 2 ^ 32
  nodeClasses : W.names.length < 2 ^ 32 ∧ ∀ s ∈ W.names, s.length < 2 ^ 32
  edgeClasses : V.names.length < 2 ^ 32 ∧ ∀ s ∈ V.names, s.length < 2 ^ 32
  nodes : ∀ n i, g.nodeObs n = some i → ∀ k ∈ i.attrs.lengths, k < 2 ^ 32
  mesh : ∀ m, g.mesh = some m → includeMesh = true → ∀ k ∈ m.lengths, k < 2 ^ 32

/-- A trajectory has an empty slot: a node of it was removed, or skipped. -/
def Graph.Gap (g : Graph) : Prop := ∃ d ∈ g.dynList, none ∈ d.nodes
end Verif
