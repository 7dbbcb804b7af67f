import Verif.Model.Graph
import Verif.Refine.Ids
/-!
# The representation relation

`R g σ`: the concrete graph `g` stores exactly the abstract graph `σ`. The concrete node records (with
their adjacency sets), lookup table and edge containers are functions of `σ`; status tables are only
constrained to be live exactly for what is present. `SWF σ`: the abstract graph has no dangling edges etc.
-/

namespace Verif

/-! ## Uniform accessors on layers -/

namespace BaseLayer

/-- The node stored for id `n` (dynamic layers: the slot given by the index part). -/
def nd : BaseLayer → NodeId → Option Node
  | static l, n => l.nodes.find? n
  | dyn d, n => if d.pre.isMatch n then (d.nodes[d.pre.index n]?).join else none

/-- The status recorded for id `n`. -/
def nst : BaseLayer → NodeId → Option NodeStatus
  | static l, n => l.status.find? n
  | dyn d, n => if d.pre.isMatch n then d.status.find? (d.pre.index n) else none

/-- Overwrite the record of a node that is present. -/
def setNode : BaseLayer → NodeId → Node → BaseLayer
  | static l, n, x => static { l with nodes := l.nodes.insert n x }
  | dyn d, n, x => dyn { d with nodes := d.nodes.set (d.pre.index n) (some x) }

/-- The layer kind agrees with the key. -/
def kindOk : BaseLayer → LayerKey → Prop
  | static l, .static i => l.id = i
  | dyn d, .dyn i p => d.id = i ∧ d.pre = p
  | _, _ => False

@[simp] theorem ec_setNode (b : BaseLayer) (n : NodeId) (x : Node) : (b.setNode n x).ec = b.ec := by
  cases b <;> rfl
@[simp] theorem ec_setEc (b : BaseLayer) (c : EdgeContainer) : (b.setEc c).ec = c := by cases b <;> rfl
@[simp] theorem nd_setEc (b : BaseLayer) (c : EdgeContainer) (n : NodeId) : (b.setEc c).nd n = b.nd n := by
  cases b <;> rfl
@[simp] theorem nst_setEc (b : BaseLayer) (c : EdgeContainer) (n : NodeId) : (b.setEc c).nst n = b.nst n := by
  cases b <;> rfl
@[simp] theorem nst_setNode (b : BaseLayer) (n m : NodeId) (x : Node) : (b.setNode n x).nst m = b.nst m := by
  cases b <;> rfl
@[simp] theorem hasEdge_eq (b : BaseLayer) (s t : NodeId) : b.hasEdge s t = b.ec.contains s t := by
  cases b <;> rfl
@[simp] theorem kindOk_setNode (b : BaseLayer) (n : NodeId) (x : Node) (k : LayerKey) :
    (b.setNode n x).kindOk k = b.kindOk k := by cases b <;> cases k <;> rfl
@[simp] theorem kindOk_setEc (b : BaseLayer) (c : EdgeContainer) (k : LayerKey) :
    (b.setEc c).kindOk k = b.kindOk k := by cases b <;> cases k <;> rfl
@[simp] theorem setNode_setEc (b : BaseLayer) (n : NodeId) (x : Node) (c : EdgeContainer) :
    (b.setEc c).setNode n x = (b.setNode n x).setEc c := by cases b <;> rfl

theorem nd_dyn_lt {d : DynLayer} {n : NodeId} {x : Node} (h : (dyn d).nd n = some x) :
    d.pre.isMatch n = true ∧ d.nodes[d.pre.index n]? = some (some x) := by
  simp only [nd] at h
  split at h
  · rename_i hm
    refine ⟨hm, ?_⟩
    cases h' : d.nodes[d.pre.index n]? with
    | none => simp [h'] at h
    | some o => simp [h'] at h; simp [h]
  · cases h

theorem nd_setNode {b : BaseLayer} {n : NodeId} {y : Node} (h : b.nd n = some y) (x : Node) (m : NodeId) :
    (b.setNode n x).nd m = if n = m then some x else b.nd m := by
  cases b with
  | static l => simp [nd, setNode, OMap.find?_insert]
  | dyn d =>
    obtain ⟨hm, hi⟩ := nd_dyn_lt h
    have hlt : d.pre.index n < d.nodes.length := by
      rcases Nat.lt_or_ge (d.pre.index n) d.nodes.length with h' | h'
      · exact h'
      · rw [List.getElem?_eq_none h'] at hi; cases hi
    simp only [nd, setNode]
    by_cases e : n = m
    · subst e; simp [hm, hlt]
    · simp only [e, if_false]
      by_cases hm' : d.pre.isMatch m = true
      · have : d.pre.index n ≠ d.pre.index m := fun e' => e (Prefix.eq_of_index hm hm' e')
        simp [hm', List.getElem?_set_ne this]
      · simp [hm']

end BaseLayer

/-- The status says "present". -/
def NodeStatus.live : Option NodeStatus → Bool
  | some .new => true
  | some .visible => true
  | _ => false
/-- The status says "present". -/
def EdgeStatus.live : Option EdgeStatus → Bool
  | some .new => true
  | some .visible => true
  | _ => false

/-! ## Accessors on graphs -/

namespace Graph
/-- The layer under a key. -/
def layerAt? (g : Graph) : LayerKey → Option BaseLayer
  | .static l => (g.layers.find? l).map .static
  | .dyn l p => (g.dynLayer? l p).map .dyn

theorem layerFromKey_eq {g : Graph} {k : LayerKey} {b : BaseLayer} (h : g.layerAt? k = some b) :
    g.layerFromKey k = .ok b := by
  cases k with
  | static l =>
    simp only [layerAt?, Option.map_eq_some_iff] at h
    obtain ⟨x, hx, rfl⟩ := h
    simp [layerFromKey, hx]
  | dyn l p =>
    simp only [layerAt?, Option.map_eq_some_iff, dynLayer?, Option.bind_eq_some_iff] at h
    obtain ⟨x, ⟨m, hm, hx⟩, rfl⟩ := h
    simp [layerFromKey, hm, hx]

theorem dynLayer?_setDyn (g : Graph) (l : LayerId) (p : Prefix) (d : DynLayer) (l' : LayerId) (p' : Prefix) :
    (g.setDyn l p d).dynLayer? l' p' = if l = l' ∧ p = p' then some d else g.dynLayer? l' p' := by
  simp only [setDyn, dynLayer?, OMap.find?_insert]
  by_cases e : l = l'
  · subst e
    simp only [if_true, Option.bind_some, OMap.find?_insert, true_and]
    by_cases e' : p = p'
    · simp [e']
    · simp only [e', if_false]
      cases h : g.dyns.find? l <;> simp
  · simp [e]

theorem layerAt?_setLayer {g : Graph} {k : LayerKey} {b : BaseLayer} (hk : b.kindOk k) (k' : LayerKey) :
    (g.setLayer k b).layerAt? k' = if k = k' then some b else g.layerAt? k' := by
  cases k <;> cases b <;> simp only [BaseLayer.kindOk] at hk
  · cases k' with
    | static l' =>
      simp only [setLayer, layerAt?, OMap.find?_insert, LayerKey.static.injEq]
      split <;> simp
    | dyn l' p' => simp [setLayer, layerAt?, dynLayer?]
  · cases k' with
    | static l' => simp [setLayer, layerAt?, setDyn]
    | dyn l' p' =>
      simp only [setLayer, layerAt?, dynLayer?_setDyn, LayerKey.dyn.injEq]
      split <;> simp

@[simp] theorem lookup_setLayer (g : Graph) (k : LayerKey) (b : BaseLayer) : (g.setLayer k b).lookup = g.lookup := by
  cases k <;> cases b <;> rfl
@[simp] theorem inter_setLayer (g : Graph) (k : LayerKey) (b : BaseLayer) : (g.setLayer k b).inter = g.inter := by
  cases k <;> cases b <;> rfl
@[simp] theorem dynInter_setLayer (g : Graph) (k : LayerKey) (b : BaseLayer) :
    (g.setLayer k b).dynInter = g.dynInter := by cases k <;> cases b <;> rfl
@[simp] theorem mesh_setLayer (g : Graph) (k : LayerKey) (b : BaseLayer) : (g.setLayer k b).mesh = g.mesh := by
  cases k <;> cases b <;> rfl
@[simp] theorem layerIds_setLayer (g : Graph) (k : LayerKey) (b : BaseLayer) :
    (g.setLayer k b).layerIds = g.layerIds := by cases k <;> cases b <;> rfl

/-- The edge container at a place. -/
def ecAt? (g : Graph) : Place → Option EdgeContainer
  | .within k => (g.layerAt? k).map BaseLayer.ec
  | .across false => some g.inter
  | .across true => some g.dynInter
end Graph

/-! ## Records determined by the abstract graph -/

namespace Spec
/-- The concrete record of a node. -/
def mkNode (σ : Spec) (n : NodeId) (i : NodeInfo) : Node :=
  { id := n, layer := i.key.layer, timestamp := i.stamp, attrs := some i.attrs
    parents := σ.parents n i.key, siblings := σ.siblings n i.key, children := σ.children n i.key }
/-- The record stored for `n` in layer `k`. -/
def nodeRec (σ : Spec) (k : LayerKey) (n : NodeId) : Option Node :=
  (σ.nodes.find? n).bind (fun i => if i.key = k then some (σ.mkNode n i) else none)
/-- The concrete record of an edge. -/
def mkEdge (e : EdgeInfo) : Edge := ⟨e.src, e.tgt, some e.attrs⟩
/-- The record stored under `key` at place `c`. -/
def edgeRec (σ : Spec) (c : Place) (key : EdgeKey) : Option Edge :=
  (σ.edges.find? key).bind (fun e => if σ.placeOf key = some c then some (mkEdge e) else none)
/-- The layer exists. -/
def hasKey (σ : Spec) : LayerKey → Bool
  | .static l => σ.layerIds.contains l
  | .dyn l p => σ.dyn.contains (l, p)
end Spec

/-- The edge container at place `c` stores the edges of `σ` that belong there. -/
structure RE (c : Place) (ec : EdgeContainer) (σ : Spec) : Prop where
  edges : ∀ key, ec.edges.find? key = σ.edgeRec c key
  status : ∀ key, EdgeStatus.live (ec.status.find? key) = (ec.edges.find? key).isSome
  stale : ∀ key, ec.stale.find? key = some true ↔ σ.marks.find? key = some c

/-! ## Views: what a graph stores, as functions -/

/-- Bookkeeping of a layer (the last four are trivial for static layers). -/
structure Meta where
  id : LayerId
  pre : Prefix
  next : Nat
  top : Nat
  times : OSet Stamp
  /-- every index with a status fits in 32 bits -/
  small : Prop

/-- Bookkeeping of a layer. -/
def BaseLayer.info : BaseLayer → Meta
  | .static l => ⟨l.id, 0, 0, 0, ∅, True⟩
  | .dyn d => ⟨d.id, d.pre, d.next, d.nodes.length, d.times, ∀ i, d.status.contains i = true → i < 2 ^ 32⟩

/-- A graph as a bundle of functions. -/
structure View where
  layerIds : List LayerId
  mesh : Option Mesh
  lookup : NodeId → Option LayerKey
  node : LayerKey → NodeId → Option Node
  st : LayerKey → NodeId → Option NodeStatus
  ec : Place → EdgeContainer
  info : LayerKey → Option Meta

/-- The view of a graph; a missing layer looks like an empty one, except in `info`. -/
def Graph.view (g : Graph) : View where
  layerIds := g.layerIds
  mesh := g.mesh
  lookup := g.lookup.find?
  node k n := (g.layerAt? k).bind (·.nd n)
  st k n := (g.layerAt? k).bind (·.nst n)
  ec c := (g.ecAt? c).getD {}
  info k := (g.layerAt? k).map BaseLayer.info

/-- Bookkeeping of layer `k` agrees with `σ`. -/
def infoOk (m : Meta) (σ : Spec) : LayerKey → Prop
  | .static l => m.id = l
  | .dyn l p => m.id = l ∧ m.pre = p ∧ m.next = (σ.dynInfo l p).next ∧ m.top = (σ.dynInfo l p).top ∧
      m.small ∧ ∀ t, m.times.contains t = σ.hasStamp (.dyn l p) t

/-- The view stores exactly `σ`. -/
structure RV (v : View) (σ : Spec) : Prop where
  layerIds : v.layerIds = σ.layerIds
  mesh : v.mesh = σ.mesh
  lookup : ∀ n, v.lookup n = σ.key? n
  node : ∀ k n, v.node k n = σ.nodeRec k n
  live : ∀ k n, NodeStatus.live (v.st k n) = (v.node k n).isSome
  ec : ∀ c, RE c (v.ec c) σ
  has : ∀ k, (v.info k).isSome = σ.hasKey k
  info : ∀ k m, v.info k = some m → infoOk m σ k

/-- The graph stores exactly `σ`. -/
def R (g : Graph) (σ : Spec) : Prop := RV g.view σ

/-- The abstract graph is well formed. -/
structure SWF (σ : Spec) : Prop where
  edge : ∀ key e, σ.edges.find? key = some e →
    key = EdgeKey.of e.src e.tgt ∧ e.src ≠ e.tgt ∧ σ.nodes.contains e.src = true ∧ σ.nodes.contains e.tgt = true
  node : ∀ n i, σ.nodes.find? n = some i → σ.hasKey i.key = true ∧ i.key.valid = true
  dyn : ∀ n i l p, σ.nodes.find? n = some i → i.key = .dyn l p →
    p.plain = true ∧ p.isMatch n = true ∧ i.stamp.isSome = true
  stamps : ∀ n m i j l p, σ.nodes.find? n = some i → σ.nodes.find? m = some j → i.key = .dyn l p →
    j.key = .dyn l p → i.stamp = j.stamp → n = m
  marks : ∀ key c, σ.marks.find? key = some c → key = EdgeKey.of key.k1 key.k2

/-! ## What the change logs record -/

/-- Node change log of one operation: a node that appears is NEW, one that disappears gets status `gone`,
all else keeps its status. -/
def NLog (gone : NodeStatus) (v v' : View) : Prop := ∀ k n,
  v'.st k n = if (v.node k n).isSome = (v'.node k n).isSome then v.st k n
    else if (v'.node k n).isSome then some .new else some gone

/-- an edge is stored under this key at this place -/
def View.hasE (v : View) (c : Place) (key : EdgeKey) : Bool := ((v.ec c).edges.find? key).isSome

/-- Edge change log of one operation. -/
def ELog (v v' : View) : Prop := ∀ c key,
  (v'.ec c).status.find? key = if v.hasE c key = v'.hasE c key then (v.ec c).status.find? key
    else if v'.hasE c key then some .new else some .deleted

/-- The new graph stores `σ'` and the change logs recorded the difference. -/
structure Adv (gone : NodeStatus) (v v' : View) (σ' : Spec) : Prop where
  r : RV v' σ'
  nlog : NLog gone v v'
  elog : ELog v v'

end Verif
