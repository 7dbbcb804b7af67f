import Verif.Spec.Json
/-! # Specification: documents in which fields of attributes are missing -/

namespace Verif

/-- the member of a field that is there, the given value for one that is missing -/
def pick {α : Type} (keep : Str → Bool) (k : Str) (a d : α) : α := if keep k = true then a else d

/-- the members that are there; the others as `NodeAttributes()` has them (node_attributes.cpp:106-109) -/
def BaseAttrs.only (keep : Str → Bool) (b : BaseAttrs) : BaseAttrs where
  position := pick keep (Str.lit "position") b.position ⟨0, 0, 0⟩
  lastUpdate := pick keep (Str.lit "last_update_time_ns") b.lastUpdate 0
  isActive := pick keep (Str.lit "is_active") b.isActive false
  isPredicted := pick keep (Str.lit "is_predicted") b.isPredicted false

/-- the same for `SemanticNodeAttributes()` (node_attributes.cpp:152-156): no name, no label, no feature, an invalid box -/
def SemanticAttrs.only (keep : Str → Bool) (s : SemanticAttrs) : SemanticAttrs where
  name := pick keep (Str.lit "name") s.name []
  color := pick keep (Str.lit "color") s.color {}
  bbox := pick keep (Str.lit "bounding_box") s.bbox {}
  label := pick keep (Str.lit "semantic_label") s.label 0xFFFFFFFF
  feature := pick keep (Str.lit "semantic_feature") s.feature ⟨0, 0, []⟩

/-- the quaternion of no rotation -/
def Quat.identity : Quat := ⟨0x3ff0000000000000, 0, 0, 0⟩

/-- the same for `ObjectNodeAttributes()` (node_attributes.cpp:214-217) -/
def ObjectAttrs.only (keep : Str → Bool) (o : ObjectAttrs) : ObjectAttrs where
  meshConnections := pick keep (Str.lit "mesh_connections") o.meshConnections []
  registered := pick keep (Str.lit "registered") o.registered false
  worldRObject := pick keep (Str.lit "world_R_object") o.worldRObject .identity

/-- the same for `PlaceNodeAttributes()` (node_attributes.cpp:285-292, node_attributes.h `PlaceNodeAttributes`): a real place -/
def PlaceAttrs.only (keep : Str → Bool) (p : PlaceAttrs) : PlaceAttrs where
  distance := pick keep (Str.lit "distance") p.distance 0
  numBasisPoints := pick keep (Str.lit "num_basis_points") p.numBasisPoints 0
  voxblox := pick keep (Str.lit "voxblox_mesh_connections") p.voxblox []
  pcl := pick keep (Str.lit "pcl_mesh_connections") p.pcl []
  labels := pick keep (Str.lit "mesh_vertex_labels") p.labels []
  deformation := pick keep (Str.lit "deformation_connections") p.deformation []
  realPlace := pick keep (Str.lit "real_place") p.realPlace true
  needCleanup := pick keep (Str.lit "need_cleanup") p.needCleanup false
  activeFrontier := pick keep (Str.lit "active_frontier") p.activeFrontier false
  frontierScale := pick keep (Str.lit "frontier_scale") p.frontierScale ⟨0, 0, 0⟩
  orientation := pick keep (Str.lit "orientation") p.orientation .identity
  numFrontierVoxels := pick keep (Str.lit "num_frontier_voxels") p.numFrontierVoxels 0

/-- the same for `Place2dNodeAttributes()` (node_attributes.cpp:349-359), whose ellipse is whatever was in memory; three members are not in
documents at all -/
def Place2dAttrs.only (memory : Garbage) (keep : Str → Bool) (p : Place2dAttrs) : Place2dAttrs where
  boundary := pick keep (Str.lit "boundary") p.boundary []
  ellipseCentroid := pick keep (Str.lit "ellipse_centroid") p.ellipseCentroid memory.centroid
  compress := pick keep (Str.lit "ellipse_matrix_compress") p.compress (.of4 memory.compress)
  expand := pick keep (Str.lit "ellipse_matrix_expand") p.expand (.of4 memory.expand)
  pclBoundary := pick keep (Str.lit "pcl_boundary_connections") p.pclBoundary []
  voxblox := pick keep (Str.lit "voxblox_mesh_connections") p.voxblox []
  pcl := pick keep (Str.lit "pcl_mesh_connections") p.pcl []
  labels := pick keep (Str.lit "mesh_vertex_labels") p.labels []
  deformation := pick keep (Str.lit "deformation_connections") p.deformation []
  needCleanupSplitting := pick keep (Str.lit "need_cleanup_splitting") p.needCleanupSplitting false
  hasActiveMeshIndices := pick keep (Str.lit "has_active_mesh_indices") p.hasActiveMeshIndices false
  pclMin := p.pclMin
  pclMax := p.pclMax
  needFinishMerge := p.needFinishMerge

/-- the same for `AgentNodeAttributes()` (node_attributes.cpp:409), whose orientation and key are whatever was in memory -/
def AgentAttrs.only (memory : Garbage) (keep : Str → Bool) (a : AgentAttrs) : AgentAttrs where
  worldRBody := pick keep (Str.lit "world_R_body") a.worldRBody memory.body
  externalKey := pick keep (Str.lit "external_key") a.externalKey memory.key
  dbowIds := pick keep (Str.lit "dbow_ids") a.dbowIds ⟨0, 1, []⟩
  dbowValues := pick keep (Str.lit "dbow_values") a.dbowValues ⟨0, 1, []⟩

/-- the same for `KhronosObjectAttributes()` (node_attributes.cpp:451): an empty mesh with colours only -/
def KhronosAttrs.only (keep : Str → Bool) (k : KhronosAttrs) : KhronosAttrs where
  firstObserved := pick keep (Str.lit "first_observed_ns") k.firstObserved []
  lastObserved := pick keep (Str.lit "last_observed_ns") k.lastObserved []
  mesh := pick keep (Str.lit "mesh") k.mesh { hasColors := true, hasTimestamps := false, hasLabels := false }
  trajectoryTimestamps := pick keep (Str.lit "trajectory_timestamps") k.trajectoryTimestamps []
  trajectoryPositions := pick keep (Str.lit "trajectory_positions") k.trajectoryPositions []
  dynamicPoints := pick keep (Str.lit "dynamic_object_points") k.dynamicPoints []
  details := pick keep (Str.lit "details") k.details ∅

/-- An attribute object of which only the fields of `keep` are there; the other members are those of a new object of the class. -/
def NodeAttrs.only (memory : Garbage) (keep : Str → Bool) : NodeAttrs → NodeAttrs
  | .base b => .base (b.only keep)
  | .semantic b s => .semantic (b.only keep) (s.only keep)
  | .object b s o => .object (b.only keep) (s.only keep) (o.only keep)
  | .room b s p => .room (b.only keep) (s.only keep) (pick keep (Str.lit "semantic_class_probabilities") p ∅)
  | .place b s p => .place (b.only keep) (s.only keep) (p.only keep)
  | .place2d b s p => .place2d (b.only keep) (s.only keep) (p.only memory keep)
  | .agent b a => .agent (b.only keep) (a.only memory keep)
  | .khronos b s o k => .khronos (b.only keep) (s.only keep) o (k.only keep)

/-- `EdgeAttributes()` (edge_attributes.cpp:42): not weighted, of weight one -/
def EdgeAttrs.only (keep : Str → Bool) (a : EdgeAttrs) : EdgeAttrs where
  weighted := pick keep (Str.lit "weighted") a.weighted false
  weight := pick keep (Str.lit "weight") a.weight 0x3ff0000000000000

/-- The value `j'` has the fields of `keep` that `j` has, with the same values, and none of the other fields of `j`; in any order. It may have
fields of other names. -/
def Json.Lacks (keep : Str → Bool) (j j' : Json) : Prop := ∀ k v, j.find k = some v → j'.find k = if keep k = true then some v else none

/-- The fields that a constructor leaves uninitialised. -/
def NodeClass.unset : NodeClass → List Str
  | .place2d => [Str.lit "ellipse_centroid", Str.lit "ellipse_matrix_compress", Str.lit "ellipse_matrix_expand"]
  | .agent => [Str.lit "world_R_body", Str.lit "external_key"]
  | _ => []

/-- Two lists of the same length whose items are related one by one. -/
inductive Listwise {α : Type} (P : α → α → Prop) : List α → List α → Prop
  | nil : Listwise P [] []
  | cons {a b : α} {l l' : List α} (h : P a b) (t : Listwise P l l') : Listwise P (a :: l) (b :: l')

/-- The same record, but of the attributes in the field `k`, it has only the fields that `keep` names for their class. -/
structure Json.RecordLacks (keep : Str → Str → Bool) (k : Str) (names : List Str) (j j' : Json) : Prop where
  same : ∀ n ∈ names, j'.find n = j.find n
  attrs : ∀ a name, j.find k = some a → a.find (Str.lit "type") = some (.str name) → ∃ a', j'.find k = some a' ∧ a.Lacks (keep name) a'

/-- The document `j'` of a graph is the document `j`, but of the attributes of each node and edge, it has only the fields that `keepNode` or
`keepEdge` names for their class. -/
structure Json.DocumentLacks (keepNode keepEdge : Str → Str → Bool) (j j' : Json) : Prop where
  same : ∀ n ∈ [Str.lit "SPARK_DSG_header", Str.lit "layer_ids", Str.lit "mesh"], j'.find n = j.find n
  nodes : ∀ l, j.find (Str.lit "nodes") = some (.arr l) → ∃ l', j'.find (Str.lit "nodes") = some (.arr l') ∧
    Listwise (Json.RecordLacks keepNode (Str.lit "attributes") [Str.lit "id", Str.lit "layer", Str.lit "timestamp"]) l l'
  edges : ∀ l, j.find (Str.lit "edges") = some (.arr l) → ∃ l', j'.find (Str.lit "edges") = some (.arr l') ∧
    Listwise (Json.RecordLacks keepEdge (Str.lit "info") [Str.lit "source", Str.lit "target"]) l l'
end Verif
