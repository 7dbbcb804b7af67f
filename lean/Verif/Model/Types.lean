import Verif.Base.OMap
/-!
# Basic types

Outcomes of C++ calls, identifiers, and the plain data carried by nodes, edges and meshes.
-/

namespace Verif

/-- C++ exception classes thrown by the modelled code. -/
inductive Exc
  | outOfRange      -- std::out_of_range (map::at, vector::at, getNode, getEdge, getLayer, ...)
  | domainError     -- std::domain_error
  | lengthError     -- std::length_error (vector::reserve past max_size)
  | invalidArgument -- std::invalid_argument
  | runtimeError    -- std::runtime_error
  | badCast         -- std::bad_cast
  | badOptional     -- std::bad_optional_access
  | badAlloc        -- std::bad_alloc
  | abort           -- a failed assertion (the process ends)
  | json            -- nlohmann::json::exception
  deriving DecidableEq, Repr

/-- Outcome of a C++ call: a value, an exception, or undefined behaviour (null dereference,
out-of-range unchecked access). Undefined behaviour is a distinct outcome, never assumed away. -/
inductive Res (α : Type) where
  | ok (a : α)
  | throw (e : Exc)
  | ub
  deriving DecidableEq, Repr

namespace Res
/-- Sequencing: exceptions and undefined behaviour propagate. -/
@[simp] def bind {α β : Type} : Res α → (α → Res β) → Res β
  | ok a, f => f a
  | throw e, _ => throw e
  | ub, _ => ub
instance : Monad Res where
  pure := ok
  bind := Res.bind
@[simp] theorem pure_eq {α : Type} (a : α) : (pure a : Res α) = ok a := rfl
@[simp] theorem bind_ok {α β : Type} (a : α) (f : α → Res β) : (Res.ok a >>= f) = f a := rfl
@[simp] theorem bind_throw {α β : Type} (e : Exc) (f : α → Res β) : (Res.throw e >>= f) = throw e := rfl
@[simp] theorem bind_ub {α β : Type} (f : α → Res β) : ((Res.ub : Res α) >>= f) = ub := rfl
/-- `map::at`, `vector::at`: throws `out_of_range` on a missing entry. -/
def at? {α : Type} : Option α → Res α
  | some a => ok a
  | none => throw .outOfRange
/-- Pointer dereference: undefined on null. -/
def deref {α : Type} : Option α → Res α
  | some a => ok a
  | none => ub
@[simp] theorem at?_some {α : Type} (a : α) : at? (some a) = ok a := rfl
@[simp] theorem at?_none {α : Type} : at? (none : Option α) = throw .outOfRange := rfl
@[simp] theorem deref_some {α : Type} (a : α) : deref (some a) = ok a := rfl
@[simp] theorem deref_none {α : Type} : deref (none : Option α) = ub := rfl
/-- The call returned normally. -/
def isOk {α : Type} : Res α → Bool
  | ok _ => true
  | _ => false
end Res

/-- Run a state transformer over a list, stopping at the first fault. Models a C++ `for` loop whose
body mutates the enclosing object. -/
def foldRes {α σ : Type} (f : σ → α → Res σ) : σ → List α → Res σ
  | s, [] => .ok s
  | s, a :: l => f s a >>= fun s' => foldRes f s' l

@[simp] theorem foldRes_nil {α σ : Type} (f : σ → α → Res σ) (s : σ) : foldRes f s [] = .ok s := rfl
@[simp] theorem foldRes_cons {α σ : Type} (f : σ → α → Res σ) (s : σ) (a : α) (l : List α) :
    foldRes f s (a :: l) = (f s a >>= fun s' => foldRes f s' l) := rfl
theorem foldRes_append {α σ : Type} (f : σ → α → Res σ) (s : σ) (l l' : List α) :
    foldRes f s (l ++ l') = (foldRes f s l >>= fun s' => foldRes f s' l') := by
  induction l generalizing s with
  | nil => rfl
  | cons a l ih =>
    simp only [List.cons_append, foldRes_cons]
    cases h : f s a <;> simp [ih]

/-! ## Identifiers -/

/-- scene_graph_types.h:47 `using NodeId = uint64_t`. -/
abbrev NodeId := UInt64
/-- scene_graph_types.h:48 `using LayerId = uint64_t`. -/
abbrev LayerId := UInt64
/-- scene_graph_types.h:82-116 `LayerPrefix`, represented by its 32-bit value (`value_.value`). -/
abbrev Prefix := UInt32
/-- 64-bit pattern of a `std::chrono::nanoseconds` count (int64). -/
abbrev Stamp := UInt64
/-- Bit pattern of a `double`. -/
abbrev F64 := UInt64
/-- Bit pattern of a `float`. -/
abbrev F32 := UInt32
/-- `std::string` contents: bytes. -/
abbrev Str := List UInt8

/-- scene_graph_types.h:51 `LayerKey::UNKNOWN_LAYER`. -/
def UNKNOWN_LAYER : LayerId := 0xFFFFFFFFFFFFFFFF

/-- scene_graph_types.h:50-71, scene_graph_types.cpp:86-104 `LayerKey`. The C++ struct has fields
`layer, prefix, dynamic`; `prefix` of a non-dynamic key is never read (`operator==` ignores it), so
the model has two constructors and `operator==` is structural equality. -/
inductive LayerKey
  | static (layer : LayerId)
  | dyn (layer : LayerId) (prefix_ : Prefix)
  deriving DecidableEq, Repr

namespace LayerKey
/-- field `layer`. -/
def layer : LayerKey → LayerId
  | static l => l
  | dyn l _ => l
/-- field `dynamic`. -/
def dynamic : LayerKey → Bool
  | static _ => false
  | dyn _ _ => true
/-- scene_graph_types.h:70 `operator bool`. -/
def valid (k : LayerKey) : Bool := k.layer != UNKNOWN_LAYER
/-- scene_graph_types.cpp:106 `isParent`: strictly higher layer id. -/
def isParent (k other : LayerKey) : Bool := decide (other.layer < k.layer)
/-- scene_graph_types.cpp:86 default constructor. -/
def unknown : LayerKey := static UNKNOWN_LAYER
end LayerKey

namespace Prefix
/-- scene_graph_types.cpp:54-57 `LayerPrefix::fromId`: the 32 most significant bits. -/
def fromId (n : NodeId) : Prefix := (n >>> 32).toUInt32
/-- scene_graph_types.cpp:73-75 `LayerPrefix::matches`. -/
def isMatch (p : Prefix) (n : NodeId) : Bool := p == (n >>> 32).toUInt32
/-- scene_graph_types.cpp:77-79 `LayerPrefix::makeId`: `(value << 32) + index` in 64 bits. -/
def makeId (p : Prefix) (i : Nat) : NodeId := (p.toUInt64 <<< 32) + UInt64.ofNat i
/-- scene_graph_types.cpp:81-84 `LayerPrefix::index(NodeId)`: the 32 least significant bits. -/
def index (_p : Prefix) (n : NodeId) : Nat := (n &&& 0xFFFFFFFF).toNat
end Prefix

namespace NodeSymbol
/-- node_symbol.h:68, 105-111: the low 56 bits of the id. -/
def categoryId (n : NodeId) : NodeId := n &&& 0xFFFFFFFFFFFFFF
/-- node_symbol.h:74: the top 8 bits. -/
def category (n : NodeId) : UInt8 := (n >>> 56).toUInt8
/-- node_symbol.cpp:39-42: assignment to the two bit fields (the index is truncated to 56 bits). -/
def make (key : UInt8) (idx : NodeId) : NodeId :=
  (key.toUInt64 <<< 56) ||| (idx &&& 0xFFFFFFFFFFFFFF)
/-- node_symbol.h:77-87 `operator++`: the 56-bit index wraps. -/
def incr (n : NodeId) : NodeId := make (category n) (categoryId n + 1)
end NodeSymbol

/-- edge_container.h:83-100 `EdgeKey`: the unordered pair, smaller id first. -/
structure EdgeKey where
  k1 : NodeId
  k2 : NodeId
  deriving DecidableEq, Repr

namespace EdgeKey
/-- edge_container.h:84 constructor: `k1(min), k2(max)` (`std::min(a,b)` returns `b` iff `b < a`). -/
def of (a b : NodeId) : EdgeKey := ⟨if b < a then b else a, if a < b then b else a⟩
/-- edge_container.h:90-96 `operator<`. -/
def lt (a b : EdgeKey) : Bool := if a.k1 = b.k1 then decide (a.k2 < b.k2) else decide (a.k1 < b.k1)
end EdgeKey

instance : OKey EdgeKey where
  lt := EdgeKey.lt
  irrefl a := by simp [EdgeKey.lt]
  trans := by
    intro a b c h1 h2
    simp only [EdgeKey.lt] at *
    split at h1 <;> split at h2 <;> split <;>
      simp_all [UInt64.lt_iff_toNat_lt, ← UInt64.toNat_inj] <;> omega
  tri := by
    intro a b h1 h2
    obtain ⟨a1, a2⟩ := a
    obtain ⟨b1, b2⟩ := b
    simp only [EdgeKey.lt] at *
    split at h1 <;> split at h2 <;>
      simp_all [UInt64.le_iff_toNat_le, ← UInt64.toNat_inj] <;> omega

/-- Lexicographic order on byte strings (`std::string::operator<`). -/
def strLt : Str → Str → Bool
  | [], [] => false
  | [], _ :: _ => true
  | _ :: _, [] => false
  | a :: l, b :: m => if a = b then strLt l m else decide (a < b)

instance : OKey Str where
  lt := strLt
  irrefl a := by induction a <;> simp_all [strLt]
  trans := by
    intro a
    induction a with
    | nil => intro b c h1 h2; cases c <;> cases b <;> simp_all [strLt]
    | cons x a ih =>
      intro b c h1 h2
      cases b with
      | nil => simp [strLt] at h1
      | cons y b =>
        cases c with
        | nil => simp [strLt] at h2
        | cons z c =>
          simp only [strLt] at *
          have := @ih b c
          split at h1 <;> split at h2 <;> split <;>
            simp_all [UInt8.lt_iff_toNat_lt, ← UInt8.toNat_inj] <;> omega
  tri := by
    intro a
    induction a with
    | nil => intro b h1 h2; cases b <;> simp_all [strLt]
    | cons x a ih =>
      intro b h1 h2
      cases b with
      | nil => simp [strLt] at h2
      | cons y b =>
        simp only [strLt] at *
        have := @ih b
        split at h1 <;> split at h2 <;>
          simp_all [UInt8.le_iff_toNat_le, ← UInt8.toNat_inj] <;> omega

/-! ## Plain data -/

/-- `Eigen::Vector3d` as bit patterns. -/
structure V3d where
  (x y z : F64)
  deriving DecidableEq, Repr
/-- `Eigen::Vector3f` as bit patterns. -/
structure V3f where
  (x y z : F32)
  deriving DecidableEq, Repr
/-- `Eigen::Quaterniond` as bit patterns. -/
structure Quat where
  (w x y z : F64)
  deriving DecidableEq, Repr
/-- Dense Eigen matrix with dynamic or fixed size: dimensions and coefficients in row-major order
(storage order is irrelevant to the modelled code, which always loops rows then columns). Dimensions are `Eigen::Index`, a signed
64-bit type. -/
structure Matrix (α : Type) where
  rows : Int
  cols : Int
  data : List α
  deriving DecidableEq, Repr

/-- color.h:43-53 `Color`. -/
structure Color where
  r : UInt8 := 0
  g : UInt8 := 0
  b : UInt8 := 0
  a : UInt8 := 255
  deriving DecidableEq, Repr

/-- bounding_box.h:48-58 `BoundingBox` (type tag as its int32 bit pattern; dimensions, centre,
3x3 rotation). -/
structure BBox where
  type : UInt32 := 0
  dims : V3f := ⟨0, 0, 0⟩
  center : V3f := ⟨0, 0, 0⟩
  rot : Matrix F32 := ⟨3, 3, [0x3f800000, 0, 0, 0, 0x3f800000, 0, 0, 0, 0x3f800000]⟩
  deriving DecidableEq, Repr

/-- mesh.h `Mesh` data members. -/
structure Mesh where
  hasColors : Bool := true
  hasTimestamps : Bool := true
  hasLabels : Bool := true
  hasFirstSeen : Bool := false
  points : List V3f := []
  colors : List Color := []
  stamps : List UInt64 := []
  firstSeen : List UInt64 := []
  labels : List UInt32 := []
  faces : List (UInt64 × UInt64 × UInt64) := []
  deriving DecidableEq, Repr

/-- node_attributes.h `NearestVertexInfo`. -/
structure NearestVertexInfo where
  block : UInt32 × UInt32 × UInt32
  voxelPos : F64 × F64 × F64
  vertex : UInt64
  label : Option UInt32
  deriving DecidableEq, Repr

/-- node_attributes.h `NodeAttributes` members. -/
structure BaseAttrs where
  position : V3d := ⟨0, 0, 0⟩
  lastUpdate : UInt64 := 0
  isActive : Bool := false
  isPredicted : Bool := false
  deriving DecidableEq, Repr

/-- node_attributes.h `SemanticNodeAttributes` members. -/
structure SemanticAttrs where
  name : Str := []
  color : Color := {}
  bbox : BBox := {}
  label : UInt32 := 0xFFFFFFFF
  feature : Matrix F64 := ⟨0, 0, []⟩
  deriving DecidableEq, Repr

/-- node_attributes.h `ObjectNodeAttributes` members. -/
structure ObjectAttrs where
  meshConnections : List UInt64 := []
  registered : Bool := false
  worldRObject : Quat := ⟨0x3ff0000000000000, 0, 0, 0⟩
  deriving DecidableEq, Repr

/-- node_attributes.h `PlaceNodeAttributes` members. -/
structure PlaceAttrs where
  distance : F64 := 0
  numBasisPoints : UInt32 := 0
  voxblox : List NearestVertexInfo := []
  pcl : List UInt64 := []
  labels : List UInt8 := []
  deformation : List UInt64 := []
  realPlace : Bool := true
  needCleanup : Bool := false
  activeFrontier : Bool := false
  frontierScale : V3d := ⟨0, 0, 0⟩
  orientation : Quat := ⟨0x3ff0000000000000, 0, 0, 0⟩
  numFrontierVoxels : UInt64 := 0
  deriving DecidableEq, Repr

/-- node_attributes.h `Place2dNodeAttributes` members. -/
structure Place2dAttrs where
  boundary : List V3d := []
  ellipseCentroid : V3d := ⟨0, 0, 0⟩
  compress : Matrix F64 := ⟨2, 2, [0, 0, 0, 0]⟩
  expand : Matrix F64 := ⟨2, 2, [0, 0, 0, 0]⟩
  pclBoundary : List UInt64 := []
  voxblox : List NearestVertexInfo := []
  pcl : List UInt64 := []
  pclMin : UInt64 := 0
  pclMax : UInt64 := 0
  labels : List UInt8 := []
  deformation : List UInt64 := []
  needFinishMerge : Bool := false
  needCleanupSplitting : Bool := false
  hasActiveMeshIndices : Bool := false
  deriving DecidableEq, Repr

/-- node_attributes.h `AgentNodeAttributes` members. -/
structure AgentAttrs where
  worldRBody : Quat := ⟨0x3ff0000000000000, 0, 0, 0⟩
  externalKey : NodeId := 0
  dbowIds : Matrix UInt32 := ⟨0, 1, []⟩
  dbowValues : Matrix F32 := ⟨0, 1, []⟩
  deriving DecidableEq, Repr

/-- node_attributes.h `KhronosObjectAttributes` own members. -/
structure KhronosAttrs where
  firstObserved : List UInt64 := []
  lastObserved : List UInt64 := []
  mesh : Mesh := {}
  trajectoryTimestamps : List UInt64 := []
  trajectoryPositions : List V3f := []
  dynamicPoints : List (List V3f) := []
  details : OMap Str (List UInt64) := ∅
  deriving DecidableEq

/-- The class hierarchy of node attributes (node_attributes.h). A constructor per concrete class, with
one component per class on its inheritance path. Classes registered by other programs are not
represented. -/
inductive NodeAttrs
  | base (b : BaseAttrs)
  | semantic (b : BaseAttrs) (s : SemanticAttrs)
  | object (b : BaseAttrs) (s : SemanticAttrs) (o : ObjectAttrs)
  | room (b : BaseAttrs) (s : SemanticAttrs) (probs : OMap Str F64)
  | place (b : BaseAttrs) (s : SemanticAttrs) (p : PlaceAttrs)
  | place2d (b : BaseAttrs) (s : SemanticAttrs) (p : Place2dAttrs)
  | agent (b : BaseAttrs) (a : AgentAttrs)
  | khronos (b : BaseAttrs) (s : SemanticAttrs) (o : ObjectAttrs) (k : KhronosAttrs)
  deriving DecidableEq

namespace NodeAttrs
/-- The `NodeAttributes` base-class part. -/
def base' : NodeAttrs → BaseAttrs
  | base b | semantic b _ | object b _ _ | room b _ _ | place b _ _ | place2d b _ _ | agent b _
  | khronos b _ _ _ => b
/-- Replace the base-class part. -/
def setBase (a : NodeAttrs) (b : BaseAttrs) : NodeAttrs :=
  match a with
  | base _ => base b
  | semantic _ s => semantic b s
  | object _ s o => object b s o
  | room _ s p => room b s p
  | place _ s p => place b s p
  | place2d _ s p => place2d b s p
  | agent _ x => agent b x
  | khronos _ s o k => khronos b s o k
/-- member `position`. -/
def position (a : NodeAttrs) : V3d := a.base'.position
/-- assignment to `position`. -/
def setPosition (a : NodeAttrs) (p : V3d) : NodeAttrs := a.setBase { a.base' with position := p }
/-- member `is_active`. -/
def isActive (a : NodeAttrs) : Bool := a.base'.isActive
end NodeAttrs

instance : Inhabited NodeAttrs := ⟨.base {}⟩

/-- edge_attributes.h:63-78, edge_attributes.cpp:43-45 `EdgeAttributes` (default: unweighted, 1.0). -/
structure EdgeAttrs where
  weighted : Bool := false
  weight : F64 := 0x3ff0000000000000
  deriving DecidableEq, Repr

/-- scene_graph_node.h:55 `NodeStatus`. -/
inductive NodeStatus
  | new | visible | merged | deleted | nonexistent
  deriving DecidableEq, Repr

/-- edge_container.h:50 `EdgeStatus`. -/
inductive EdgeStatus
  | new | visible | deleted | merged | nonexistent
  deriving DecidableEq, Repr

/-- scene_graph_node.h:66 `SceneGraphNode`: `attrs = none` is a null attribute pointer. -/
structure Node where
  id : NodeId
  layer : LayerId
  timestamp : Option Stamp := none
  attrs : Option NodeAttrs
  parents : OSet NodeId := ∅
  siblings : OSet NodeId := ∅
  children : OSet NodeId := ∅
  deriving DecidableEq

namespace Node
/-- scene_graph_node.cpp:71 `hasParent`. -/
def hasParent (n : Node) : Bool := n.parents.size == 1
/-- scene_graph_node.cpp:73 -/
def hasSiblings (n : Node) : Bool := n.siblings.size != 0
/-- scene_graph_node.cpp:75 -/
def hasChildren (n : Node) : Bool := n.children.size != 0
/-- scene_graph_node.cpp:77-83 `getParent`. -/
def getParent (n : Node) : Option NodeId :=
  if n.parents.size != 1 then none else n.parents.keys.head?
/-- scene_graph_node.cpp:93-100 `connections`. -/
def connections (n : Node) : List NodeId := n.siblings.keys ++ n.children.keys ++ n.parents.keys
end Node

/-- edge_container.h:57-81 `SceneGraphEdge`: `info = none` is a null attribute pointer. -/
structure Edge where
  source : NodeId
  target : NodeId
  info : Option EdgeAttrs
  deriving DecidableEq, Repr

end Verif
