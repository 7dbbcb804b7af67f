import Verif.Refine.Rep
/-!
# How the concrete primitives act on views
-/

namespace Verif

namespace BaseLayer
/-- The layer kind agrees with the kind of key. -/
def fits : BaseLayer → LayerKey → Prop
  | static _, .static _ => True
  | dyn _, .dyn _ _ => True
  | _, _ => False

@[simp] theorem fits_setNode (b : BaseLayer) (n : NodeId) (x : Node) (k : LayerKey) :
    (b.setNode n x).fits k = b.fits k := by cases b <;> cases k <;> rfl
@[simp] theorem fits_setEc (b : BaseLayer) (c : EdgeContainer) (k : LayerKey) :
    (b.setEc c).fits k = b.fits k := by cases b <;> cases k <;> rfl
@[simp] theorem info_setNode (b : BaseLayer) (n : NodeId) (x : Node) : (b.setNode n x).info = b.info := by
  cases b <;> simp [setNode, info]
@[simp] theorem info_setEc (b : BaseLayer) (c : EdgeContainer) : (b.setEc c).info = b.info := by
  cases b <;> rfl
end BaseLayer

namespace Graph
theorem fits_of_layerAt? {g : Graph} {k : LayerKey} {b : BaseLayer} (h : g.layerAt? k = some b) : b.fits k := by
  cases k <;> simp only [layerAt?, Option.map_eq_some_iff] at h <;> obtain ⟨x, -, rfl⟩ := h <;> trivial

theorem layerAt?_setLayer' {g : Graph} {k : LayerKey} {b : BaseLayer} (hk : b.fits k) (k' : LayerKey) :
    (g.setLayer k b).layerAt? k' = if k = k' then some b else g.layerAt? k' := by
  cases k <;> cases b <;> simp only [BaseLayer.fits] at hk
  · cases k' with
    | static l' =>
      simp only [setLayer, layerAt?, OMap.find?_insert, LayerKey.static.injEq]
      split <;> simp
    | dyn l' p' => simp [setLayer, layerAt?, dynLayer?]
  · cases k' with
    | static l' => simp [setLayer, layerAt?, setDyn]
    | dyn l' p' =>
      simp only [setLayer, layerAt?, dynLayer?_setDyn, LayerKey.dyn.injEq]
      split <;> simp

theorem setLayer_setLayer {g : Graph} {k : LayerKey} {b b' : BaseLayer} (h : b.fits k) (h' : b'.fits k) :
    (g.setLayer k b).setLayer k b' = g.setLayer k b' := by
  cases k <;> cases b <;> cases b' <;> simp only [BaseLayer.fits] at h h' <;>
    simp [setLayer, setDyn, OMap.insert_insert]

theorem setLayer_self {g : Graph} {k : LayerKey} {b : BaseLayer} (h : g.layerAt? k = some b) :
    g.setLayer k b = g := by
  cases k with
  | static l =>
    simp only [layerAt?, Option.map_eq_some_iff] at h
    obtain ⟨x, hx, rfl⟩ := h
    simp [setLayer, OMap.insert_of_find? hx]
  | dyn l p =>
    simp only [layerAt?, Option.map_eq_some_iff, dynLayer?, Option.bind_eq_some_iff] at h
    obtain ⟨x, ⟨m, hm, hx⟩, rfl⟩ := h
    simp [setLayer, setDyn, hm, OMap.insert_of_find? hx, OMap.insert_of_find? hm]
end Graph

namespace View
/-- overwrite one node record -/
def setN (v : View) (k : LayerKey) (n : NodeId) (x : Node) : View :=
  { v with node := fun k' m => if k = k' ∧ n = m then some x else v.node k' m }
/-- overwrite one edge container -/
def setE (v : View) (c : Place) (e : EdgeContainer) : View :=
  { v with ec := fun c' => if c = c' then e else v.ec c' }
/-- overwrite one layer -/
def setL (v : View) (k : LayerKey) (b : BaseLayer) : View :=
  { v with node := fun k' n => if k = k' then b.nd n else v.node k' n
           st := fun k' n => if k = k' then b.nst n else v.st k' n
           ec := fun c => if c = .within k then b.ec else v.ec c
           info := fun k' => if k = k' then some b.info else v.info k' }

theorem setN_comm {v : View} {k k' : LayerKey} {n n' : NodeId} (x x' : Node) (h : n ≠ n') :
    (v.setN k n x).setN k' n' x' = (v.setN k' n' x').setN k n x := by
  simp only [setN, View.mk.injEq, true_and, and_true]
  funext a b
  by_cases h1 : k = a ∧ n = b <;> by_cases h2 : k' = a ∧ n' = b <;> simp [h1, h2]
  exact (h (h1.2.trans h2.2.symm)).elim

theorem setN_setE (v : View) (k : LayerKey) (n : NodeId) (x : Node) (c : Place) (e : EdgeContainer) :
    (v.setE c e).setN k n x = (v.setN k n x).setE c e := rfl

/-- conditions under which the code finds dynamic node slots -/
def KOk (v : View) : LayerKey → Prop
  | .static _ => True
  | .dyn l p => p.plain = true ∧ ∀ m, v.info (.dyn l p) = some m → m.pre = p
end View

namespace Graph

theorem view_setLayer {g : Graph} {k : LayerKey} {b : BaseLayer} (h : b.fits k) :
    (g.setLayer k b).view = g.view.setL k b := by
  simp only [view, View.setL, layerIds_setLayer, mesh_setLayer, lookup_setLayer, View.mk.injEq, true_and]
  refine ⟨?_, ?_, ?_, ?_⟩
  · funext k' n; rw [layerAt?_setLayer' h]; split <;> simp
  · funext k' n; rw [layerAt?_setLayer' h]; split <;> simp
  · funext c
    cases c with
    | within k' =>
      simp only [ecAt?, layerAt?_setLayer' h, Place.within.injEq]
      by_cases e : k = k'
      · simp [e]
      · simp [e, Ne.symm e]
    | across d => cases d <;> simp [ecAt?]
  · funext k'; rw [layerAt?_setLayer' h]; split <;> simp

theorem setL_setNode {g : Graph} {k : LayerKey} {b : BaseLayer} {n : NodeId} {y : Node}
    (h : g.layerAt? k = some b) (hn : b.nd n = some y) (x : Node) :
    g.view.setL k (b.setNode n x) = g.view.setN k n x := by
  simp only [View.setL, View.setN, View.mk.injEq, true_and]
  refine ⟨?_, ?_, ?_, ?_⟩
  · funext k' m
    rw [BaseLayer.nd_setNode hn]
    by_cases e : k = k' <;> by_cases e' : n = m <;> simp [e, e', view]
    subst e; simp [h]
  · funext k' m; by_cases e : k = k' <;> simp [e, view]; subst e; simp [h]
  · funext c
    by_cases e : c = .within k <;> simp [e, view]
    simp [ecAt?, h]
  · funext k'; by_cases e : k = k' <;> simp [e, view]; subst e; simp [h]

theorem setL_setEc {g : Graph} {k : LayerKey} {b : BaseLayer} (h : g.layerAt? k = some b) (c : EdgeContainer) :
    g.view.setL k (b.setEc c) = g.view.setE (.within k) c := by
  simp only [View.setL, View.setE, View.mk.injEq, true_and]
  refine ⟨?_, ?_, ?_, ?_⟩
  · funext k' m; by_cases e : k = k' <;> simp [e, view]; subst e; simp [h]
  · funext k' m; by_cases e : k = k' <;> simp [e, view]; subst e; simp [h]
  · funext c'
    by_cases e : c' = .within k
    · simp [e]
    · simp [e, Ne.symm e]
  · funext k'; by_cases e : k = k' <;> simp [e, view]; subst e; simp [h]

theorem view_node_of_layerAt? {g : Graph} {k : LayerKey} {b : BaseLayer} (h : g.layerAt? k = some b) (n : NodeId) :
    g.view.node k n = b.nd n := by simp [view, h]

theorem layerAt?_of_view_node {g : Graph} {k : LayerKey} {n : NodeId} {x : Node} (h : g.view.node k n = some x) :
    ∃ b, g.layerAt? k = some b ∧ b.nd n = some x := by
  simpa [view, Option.bind_eq_some_iff] using h

/-- Reading a node through `getNodePtr`. -/
theorem getNodePtr_ok {g : Graph} {k : LayerKey} {n : NodeId} {x : Node} (h : g.view.node k n = some x)
    (hk : g.view.KOk k) : g.getNodePtr n k = .ok (some x) := by
  obtain ⟨b, hb, hn⟩ := layerAt?_of_view_node h
  cases k with
  | static l =>
    simp only [layerAt?, Option.map_eq_some_iff] at hb
    obtain ⟨y, hy, rfl⟩ := hb
    simp only [BaseLayer.nd] at hn
    simp [getNodePtr, hy, hn]
  | dyn l p =>
    have hb' := hb
    simp only [layerAt?, Option.map_eq_some_iff, dynLayer?, Option.bind_eq_some_iff] at hb
    obtain ⟨y, ⟨m, hm, hy⟩, rfl⟩ := hb
    obtain ⟨hp, hi⟩ := hk
    have hpre : y.pre = p := hi (BaseLayer.info (.dyn y)) (by simp [view, hb'])
    obtain ⟨hmat, hidx⟩ := BaseLayer.nd_dyn_lt hn
    rw [hpre] at hmat hidx
    simp [getNodePtr, hm, hy, Prefix.categoryId_of_plain hp hmat, hidx]

/-- Writing a node through `getNodePtr`. -/
theorem modNode_ok {g : Graph} {k : LayerKey} {n : NodeId} {x : Node} (h : g.view.node k n = some x)
    (hk : g.view.KOk k) (f : Node → Node) :
    ∃ g', g.modNode n k f = .ok g' ∧ g'.view = g.view.setN k n (f x) := by
  have hp := getNodePtr_ok h hk
  obtain ⟨b, hb, hn⟩ := layerAt?_of_view_node h
  have hb' := hb
  refine ⟨g.setLayer k (b.setNode n (f x)), ?_, ?_⟩
  · cases k with
    | static l =>
      simp only [layerAt?, Option.map_eq_some_iff] at hb
      obtain ⟨y, hy, rfl⟩ := hb
      simp [modNode, hp, hy, setLayer, BaseLayer.setNode]
    | dyn l p =>
      simp only [layerAt?, Option.map_eq_some_iff] at hb
      obtain ⟨y, hy, rfl⟩ := hb
      obtain ⟨hpl, hi⟩ := hk
      have hpre : y.pre = p := hi (BaseLayer.info (.dyn y)) (by simp [view, hb'])
      obtain ⟨hmat, hidx⟩ := BaseLayer.nd_dyn_lt hn
      rw [hpre] at hmat hidx
      simp [modNode, hp, hy, setLayer, BaseLayer.setNode, hpre, Prefix.categoryId_of_plain hpl hmat]
  · have hf := fits_of_layerAt? hb'
    rw [view_setLayer (by simpa using hf), setL_setNode hb' hn]

end Graph
end Verif
