import Verif.Refine.View
/-!
# Adding and removing one edge, on specifications and on views
-/

namespace Verif

/-- Record neighbour `m` (in layer `k'`) in the adjacency of a node of layer `k`. -/
def Node.link (x : Node) (k k' : LayerKey) (m : NodeId) : Node :=
  if k'.layer < k.layer then { x with children := x.children.add m }
  else if k.layer < k'.layer then { x with parents := x.parents.add m }
  else { x with siblings := x.siblings.add m }
/-- Forget neighbour `m`. -/
def Node.unlink (x : Node) (k k' : LayerKey) (m : NodeId) : Node :=
  if k'.layer < k.layer then { x with children := x.children.erase m }
  else if k.layer < k'.layer then { x with parents := x.parents.erase m }
  else { x with siblings := x.siblings.erase m }

theorem place_comm (a b : LayerKey) : place a b = place b a := by
  simp only [place]
  by_cases h : a = b
  · simp [h]
  · simp [h, Ne.symm h, Bool.or_comm]

theorem layer_cases (a b : LayerId) : (a < b ∧ ¬ b < a ∧ a ≠ b) ∨ (b < a ∧ ¬ a < b ∧ a ≠ b) ∨
    (a = b ∧ ¬ a < b ∧ ¬ b < a) := by
  simp only [UInt64.lt_iff_toNat_lt, ← UInt64.toNat_inj, ne_eq]; omega

theorem EdgeKey.exists_of (key : EdgeKey) (h : key = EdgeKey.of key.k1 key.k2) (n : NodeId) (hn : key.has n = true) :
    key = EdgeKey.of n (key.other n) := by
  simp only [EdgeKey.has, Bool.or_eq_true, beq_iff_eq] at hn
  simp only [EdgeKey.other]
  by_cases e : key.k1 = n
  · subst e; simpa using h
  · rcases hn with hn | hn
    · exact absurd hn e
    · subst hn; simp only [e, if_false]; rw [EdgeKey.of_comm]; exact h

namespace Spec

@[ext] theorem ext' {a b : Spec} (h1 : a.layerIds = b.layerIds) (h2 : a.dyn = b.dyn) (h3 : a.nodes = b.nodes)
    (h4 : a.edges = b.edges) (h5 : a.marks = b.marks) (h6 : a.mesh = b.mesh) : a = b := by
  cases a; cases b; simp_all

theorem contains_nbrs (σ : Spec) (n m : NodeId) (P : LayerKey → Bool) :
    (σ.nbrs n P).contains m = ((σ.key? m).any P && σ.hasEdge n m) := by
  simp only [nbrs, OMap.contains, OMap.find?_map, OMap.find?_filter, key?]
  cases h : σ.nodes.find? m with
  | none => simp
  | some i => cases e : P i.key <;> cases e' : σ.hasEdge n m <;> simp [e, e']

theorem placeOf_congr {σ σ' : Spec} (h : ∀ n, σ'.key? n = σ.key? n) (k : EdgeKey) : σ'.placeOf k = σ.placeOf k := by
  simp only [placeOf, h]

theorem placeOf_of {σ : Spec} {s t : NodeId} {ks kt : LayerKey} (hs : σ.key? s = some ks) (ht : σ.key? t = some kt) :
    σ.placeOf (EdgeKey.of s t) = some (place ks kt) := by
  rcases EdgeKey.of_eq s t with ⟨h, -⟩ | ⟨h, -⟩ <;> simp [placeOf, h, hs, ht, place_comm]

theorem hasEdge_addEdge (σ : Spec) (s t : NodeId) (a : EdgeAttrs) (n m : NodeId) :
    (σ.addEdge s t a).hasEdge n m = (σ.hasEdge n m || (n == s && m == t) || (n == t && m == s)) := by
  simp only [hasEdge, addEdge, OMap.contains_insert]
  by_cases h : EdgeKey.of s t = EdgeKey.of n m
  · have := EdgeKey.of_inj.1 h
    simp only [h, decide_true, Bool.true_or]
    rcases this with ⟨rfl, rfl⟩ | ⟨rfl, rfl⟩ <;> simp
  · have h' := mt EdgeKey.of_inj.2 h
    simp only [not_or, not_and] at h'
    simp only [h, decide_false, Bool.false_or]
    cases σ.edges.contains (EdgeKey.of n m) <;> simp
    exact ⟨fun e1 e2 => h'.1 e1.symm e2.symm, fun e1 e2 => h'.2 e2.symm e1.symm⟩

theorem hasEdge_eraseEdge (σ : Spec) (s t : NodeId) (n m : NodeId) :
    (σ.eraseEdge (EdgeKey.of s t)).hasEdge n m =
      (σ.hasEdge n m && !((n == s && m == t) || (n == t && m == s))) := by
  simp only [hasEdge, eraseEdge, OMap.contains_erase]
  by_cases h : EdgeKey.of s t = EdgeKey.of n m
  · have := EdgeKey.of_inj.1 h
    simp only [h, decide_true]
    rcases this with ⟨rfl, rfl⟩ | ⟨rfl, rfl⟩ <;> simp
  · have h' := mt EdgeKey.of_inj.2 h
    simp only [not_or, not_and] at h'
    simp only [h, decide_false]
    cases σ.edges.contains (EdgeKey.of n m) <;> simp
    grind

/-- The record of a node is determined by its layer's view of its neighbours. -/
theorem mkNode_congr {σ σ' : Spec} {n : NodeId} {i : NodeInfo} (hk : ∀ m, σ'.key? m = σ.key? m)
    (he : ∀ m, σ'.hasEdge n m = σ.hasEdge n m) : σ'.mkNode n i = σ.mkNode n i := by
  simp only [mkNode, parents, siblings, children, Node.mk.injEq, true_and]
  refine ⟨?_, ?_, ?_⟩ <;> (apply OMap.set_ext; intro m; simp only [contains_nbrs, hk, he])

theorem mkNode_link {σ σ' : Spec} {n t : NodeId} {i : NodeInfo} {kt : LayerKey} (hk : ∀ m, σ'.key? m = σ.key? m)
    (ht : σ.key? t = some kt) (he : ∀ m, σ'.hasEdge n m = (σ.hasEdge n m || m == t)) :
    σ'.mkNode n i = (σ.mkNode n i).link i.key kt t := by
  rcases layer_cases kt.layer i.key.layer with ⟨h1, h2, h3⟩ | ⟨h1, h2, h3⟩ | ⟨h1, h2, h3⟩
  · simp only [Node.link, if_pos h1, mkNode, parents, siblings, children, Node.mk.injEq, true_and]
    refine ⟨?_, ?_, ?_⟩ <;>
      (apply OMap.set_ext; intro m; simp only [contains_nbrs, hk, he, OMap.contains_add]
       by_cases e : t = m
       · subst e; simp [ht, h1, h2, h3]
       · simp [e, beq_false_of_ne (Ne.symm e)])
  · simp only [Node.link, if_neg h2, if_pos h1, mkNode, parents, siblings, children, Node.mk.injEq, true_and]
    refine ⟨?_, ?_, ?_⟩ <;>
      (apply OMap.set_ext; intro m; simp only [contains_nbrs, hk, he, OMap.contains_add]
       by_cases e : t = m
       · subst e; simp [ht, h1, h2, h3]
       · simp [e, beq_false_of_ne (Ne.symm e)])
  · simp only [Node.link, if_neg h2, if_neg h3, mkNode, parents, siblings, children, Node.mk.injEq, true_and]
    refine ⟨?_, ?_, ?_⟩ <;>
      (apply OMap.set_ext; intro m; simp only [contains_nbrs, hk, he, OMap.contains_add]
       by_cases e : t = m
       · subst e; simp [ht, h1, h2, h3]
       · simp [e, beq_false_of_ne (Ne.symm e)])

theorem mkNode_unlink {σ σ' : Spec} {n t : NodeId} {i : NodeInfo} {kt : LayerKey} (hk : ∀ m, σ'.key? m = σ.key? m)
    (ht : σ.key? t = some kt) (he : ∀ m, σ'.hasEdge n m = (σ.hasEdge n m && !(m == t))) :
    σ'.mkNode n i = (σ.mkNode n i).unlink i.key kt t := by
  rcases layer_cases kt.layer i.key.layer with ⟨h1, h2, h3⟩ | ⟨h1, h2, h3⟩ | ⟨h1, h2, h3⟩
  · simp only [Node.unlink, if_pos h1, mkNode, parents, siblings, children, Node.mk.injEq, true_and]
    refine ⟨?_, ?_, ?_⟩ <;>
      (apply OMap.set_ext; intro m; simp only [contains_nbrs, hk, he, OMap.contains_erase]
       by_cases e : t = m
       · subst e; simp [ht, h1, h2, h3]
       · simp [e, beq_false_of_ne (Ne.symm e)])
  · simp only [Node.unlink, if_neg h2, if_pos h1, mkNode, parents, siblings, children, Node.mk.injEq, true_and]
    refine ⟨?_, ?_, ?_⟩ <;>
      (apply OMap.set_ext; intro m; simp only [contains_nbrs, hk, he, OMap.contains_erase]
       by_cases e : t = m
       · subst e; simp [ht, h1, h2, h3]
       · simp [e, beq_false_of_ne (Ne.symm e)])
  · simp only [Node.unlink, if_neg h2, if_neg h3, mkNode, parents, siblings, children, Node.mk.injEq, true_and]
    refine ⟨?_, ?_, ?_⟩ <;>
      (apply OMap.set_ext; intro m; simp only [contains_nbrs, hk, he, OMap.contains_erase]
       by_cases e : t = m
       · subst e; simp [ht, h1, h2, h3]
       · simp [e, beq_false_of_ne (Ne.symm e)])

theorem nodeRec_eq {σ : Spec} {n : NodeId} {i : NodeInfo} (h : σ.nodes.find? n = some i) :
    σ.nodeRec i.key n = some (σ.mkNode n i) := by simp [nodeRec, h]

theorem key?_eq {σ : Spec} {n : NodeId} {i : NodeInfo} (h : σ.nodes.find? n = some i) : σ.key? n = some i.key := by
  simp [key?, h]

theorem exists_of_key? {σ : Spec} {n : NodeId} {k : LayerKey} (h : σ.key? n = some k) :
    ∃ i, σ.nodes.find? n = some i ∧ i.key = k := by
  simpa [key?] using h

theorem nodeRec_addEdge {σ : Spec} {s t : NodeId} {i j : NodeInfo} (hs : σ.nodes.find? s = some i)
    (ht : σ.nodes.find? t = some j) (hne : s ≠ t) (a : EdgeAttrs) (k : LayerKey) (n : NodeId) :
    (σ.addEdge s t a).nodeRec k n =
      if j.key = k ∧ t = n then some ((σ.mkNode t j).link j.key i.key s)
      else if i.key = k ∧ s = n then some ((σ.mkNode s i).link i.key j.key t)
      else σ.nodeRec k n := by
  have hk : ∀ m, (σ.addEdge s t a).key? m = σ.key? m := fun _ => rfl
  have hnodes : (σ.addEdge s t a).nodes = σ.nodes := rfl
  by_cases e1 : t = n
  · subst e1
    have := mkNode_link (σ := σ) (n := t) (i := j) hk (key?_eq hs)
      (fun m => by rw [hasEdge_addEdge]; simp [beq_false_of_ne (Ne.symm hne)])
    by_cases e : j.key = k <;> simp [nodeRec, hnodes, ht, e, this, hne]
  · by_cases e2 : s = n
    · subst e2
      have := mkNode_link (σ := σ) (n := s) (i := i) hk (key?_eq ht)
        (fun m => by rw [hasEdge_addEdge]; simp [beq_false_of_ne hne])
      by_cases e : i.key = k <;> simp [nodeRec, hnodes, hs, e, this, e1]
    · simp only [nodeRec, hnodes, e1, e2, and_false, if_false]
      cases h : σ.nodes.find? n with
      | none => rfl
      | some x =>
        have : (σ.addEdge s t a).mkNode n x = σ.mkNode n x := mkNode_congr hk (fun m => by
          rw [hasEdge_addEdge]; simp [beq_false_of_ne (Ne.symm e1), beq_false_of_ne (Ne.symm e2)])
        simp [this]

theorem nodeRec_eraseEdge {σ : Spec} {s t : NodeId} {i j : NodeInfo} (hs : σ.nodes.find? s = some i)
    (ht : σ.nodes.find? t = some j) (hne : s ≠ t) (k : LayerKey) (n : NodeId) :
    (σ.eraseEdge (EdgeKey.of s t)).nodeRec k n =
      if j.key = k ∧ t = n then some ((σ.mkNode t j).unlink j.key i.key s)
      else if i.key = k ∧ s = n then some ((σ.mkNode s i).unlink i.key j.key t)
      else σ.nodeRec k n := by
  have hk : ∀ m, (σ.eraseEdge (EdgeKey.of s t)).key? m = σ.key? m := fun _ => rfl
  have hnodes : (σ.eraseEdge (EdgeKey.of s t)).nodes = σ.nodes := rfl
  by_cases e1 : t = n
  · subst e1
    have := mkNode_unlink (σ := σ) (n := t) (i := j) hk (key?_eq hs)
      (fun m => by rw [hasEdge_eraseEdge]; simp [beq_false_of_ne (Ne.symm hne)])
    by_cases e : j.key = k <;> simp [nodeRec, hnodes, ht, e, this, hne]
  · by_cases e2 : s = n
    · subst e2
      have := mkNode_unlink (σ := σ) (n := s) (i := i) hk (key?_eq ht)
        (fun m => by rw [hasEdge_eraseEdge]; simp [beq_false_of_ne hne])
      by_cases e : i.key = k <;> simp [nodeRec, hnodes, hs, e, this, e1]
    · simp only [nodeRec, hnodes, e1, e2, and_false, if_false]
      cases h : σ.nodes.find? n with
      | none => rfl
      | some x =>
        have : (σ.eraseEdge (EdgeKey.of s t)).mkNode n x = σ.mkNode n x := mkNode_congr hk (fun m => by
          rw [hasEdge_eraseEdge]; simp [beq_false_of_ne (Ne.symm e1), beq_false_of_ne (Ne.symm e2)])
        simp [this]

theorem edgeRec_addEdge {σ : Spec} {s t : NodeId} {ks kt : LayerKey} (hs : σ.key? s = some ks)
    (ht : σ.key? t = some kt) (a : EdgeAttrs) (c : Place) (key : EdgeKey) :
    (σ.addEdge s t a).edgeRec c key =
      if EdgeKey.of s t = key then (if place ks kt = c then some ⟨s, t, some a⟩ else none) else σ.edgeRec c key := by
  have hp : ∀ key, (σ.addEdge s t a).placeOf key = σ.placeOf key := placeOf_congr (fun _ => rfl)
  simp only [edgeRec, hp]
  simp only [addEdge, OMap.find?_insert]
  by_cases e : EdgeKey.of s t = key
  · subst e; simp [placeOf_of hs ht, mkEdge]
  · simp [e]

theorem edgeRec_eraseEdge (σ : Spec) (k0 : EdgeKey) (c : Place) (key : EdgeKey) :
    (σ.eraseEdge k0).edgeRec c key = if k0 = key then none else σ.edgeRec c key := by
  have hp : ∀ key, (σ.eraseEdge k0).placeOf key = σ.placeOf key := placeOf_congr (fun _ => rfl)
  simp only [edgeRec, hp]
  simp only [eraseEdge, OMap.find?_erase]
  by_cases e : k0 = key <;> simp [e]

end Spec

/-- `remove` on a container that has the key. -/
def EdgeContainer.drop (c : EdgeContainer) (key : EdgeKey) : EdgeContainer :=
  { c with status := c.status.insert key .deleted, edges := c.edges.erase key }

theorem EdgeContainer.remove_ok {c : EdgeContainer} {s t : NodeId} {x : EdgeStatus}
    (h : c.status.find? (EdgeKey.of s t) = some x) : c.remove s t = .ok (c.drop (EdgeKey.of s t)) := by
  simp [remove, h, drop]

theorem infoOk_congr {m : Meta} {σ σ' : Spec} {k : LayerKey} (hd : σ'.dyn = σ.dyn) (hn : σ'.nodes = σ.nodes)
    (h : infoOk m σ k) : infoOk m σ' k := by
  cases k <;> simpa [infoOk, Spec.dynInfo, Spec.hasStamp, hd, hn] using h

theorem hasKey_congr {σ σ' : Spec} (hd : σ'.dyn = σ.dyn) (hl : σ'.layerIds = σ.layerIds) (k : LayerKey) :
    σ'.hasKey k = σ.hasKey k := by cases k <;> simp [Spec.hasKey, hd, hl]

/-- The view after an edge is added. -/
def View.addE (v : View) (s t : NodeId) (ks kt : LayerKey) (x y : Node) (a : EdgeAttrs) : View :=
  ((v.setN ks s (x.link ks kt t)).setN kt t (y.link kt ks s)).setE (place ks kt)
    ((v.ec (place ks kt)).insert s t (some a))

/-- The view after an edge is removed. -/
def View.delE (v : View) (s t : NodeId) (ks kt : LayerKey) (x y : Node) : View :=
  ((v.setN ks s (x.unlink ks kt t)).setN kt t (y.unlink kt ks s)).setE (place ks kt)
    ((v.ec (place ks kt)).drop (EdgeKey.of s t))

theorem RV.node_of {v : View} {σ : Spec} (h : RV v σ) {n : NodeId} {i : NodeInfo} (hn : σ.nodes.find? n = some i) :
    v.node i.key n = some (σ.mkNode n i) := by rw [h.node, Spec.nodeRec_eq hn]

theorem RV.edge_none {v : View} {σ : Spec} (h : RV v σ) {key : EdgeKey} (he : σ.edges.contains key = false) (c : Place) :
    (v.ec c).edges.find? key = none := by
  rw [(h.ec c).edges, Spec.edgeRec, OMap.contains_eq_false.1 he]; rfl

theorem adv_addEdge {v : View} {σ : Spec} (h : RV v σ) {s t : NodeId} {i j : NodeInfo}
    (hs : σ.nodes.find? s = some i) (ht : σ.nodes.find? t = some j) (hne : s ≠ t) (he : σ.hasEdge s t = false)
    (a : EdgeAttrs) (gone : NodeStatus) :
    Adv gone v (v.addE s t i.key j.key (σ.mkNode s i) (σ.mkNode t j) a) (σ.addEdge s t a) := by
  have hnone : ∀ c, (v.ec c).edges.find? (EdgeKey.of s t) = none := h.edge_none he
  have hnode : ∀ k n, (v.addE s t i.key j.key (σ.mkNode s i) (σ.mkNode t j) a).node k n =
      (σ.addEdge s t a).nodeRec k n := by
    intro k n
    rw [Spec.nodeRec_addEdge hs ht hne]
    simp only [View.addE, View.setE, View.setN, h.node]
  have hsome : ∀ k n, ((v.addE s t i.key j.key (σ.mkNode s i) (σ.mkNode t j) a).node k n).isSome =
      (v.node k n).isSome := by
    intro k n
    simp only [View.addE, View.setE, View.setN]
    by_cases e1 : j.key = k ∧ t = n
    · obtain ⟨rfl, rfl⟩ := e1; simp [h.node_of ht]
    · by_cases e2 : i.key = k ∧ s = n
      · obtain ⟨rfl, rfl⟩ := e2; simp [h.node_of hs, Ne.symm hne]
      · simp [e1, e2]
  refine ⟨⟨h.layerIds, h.mesh, h.lookup, hnode, ?_, ?_, ?_, ?_⟩, ?_, ?_⟩
  · intro k n; rw [hsome, ← h.live]; rfl
  · intro c
    by_cases ec : place i.key j.key = c
    · subst ec
      have hc : (v.addE s t i.key j.key (σ.mkNode s i) (σ.mkNode t j) a).ec (place i.key j.key) =
        (v.ec (place i.key j.key)).insert s t (some a) := by simp [View.addE, View.setE]
      rw [hc]
      have hE := h.ec (place i.key j.key)
      refine ⟨?_, ?_, ?_⟩
      · intro key
        rw [Spec.edgeRec_addEdge (Spec.key?_eq hs) (Spec.key?_eq ht)]
        simp only [EdgeContainer.insert, OMap.find?_emplace]
        by_cases e : EdgeKey.of s t = key
        · subst e; simp [hnone]
        · simp [e, hE.edges]
      · intro key
        simp only [EdgeContainer.insert, OMap.find?_emplace, OMap.find?_insert]
        by_cases e : EdgeKey.of s t = key
        · subst e; simp [hnone, EdgeStatus.live]
        · simp [e, hE.status]
      · intro key; exact hE.stale key
    · have hc : (v.addE s t i.key j.key (σ.mkNode s i) (σ.mkNode t j) a).ec c = v.ec c := by
        simp [View.addE, View.setE, View.setN, ec]
      rw [hc]
      have hE := h.ec c
      refine ⟨?_, hE.status, hE.stale⟩
      intro key
      rw [Spec.edgeRec_addEdge (Spec.key?_eq hs) (Spec.key?_eq ht)]
      by_cases e : EdgeKey.of s t = key
      · subst e; simp [hnone, ec]
      · simp [e, hE.edges]
  · intro k; exact (h.has k).trans (hasKey_congr (σ := σ) rfl rfl k).symm
  · intro k m hm; exact infoOk_congr rfl rfl (h.info k m hm)
  · intro k n; rw [hsome]; simp; rfl
  · intro c key
    simp only [View.hasE]
    by_cases ec : place i.key j.key = c
    · subst ec
      simp only [View.addE, View.setE, if_true, EdgeContainer.insert, OMap.find?_emplace, OMap.find?_insert]
      by_cases e : EdgeKey.of s t = key
      · subst e; simp [hnone]
      · simp [e]
    · simp [View.addE, View.setE, View.setN, ec]

theorem RV.edge_some {v : View} {σ : Spec} (h : RV v σ) {s t : NodeId} {ks kt : LayerKey} (hs : σ.key? s = some ks)
    (ht : σ.key? t = some kt) {e : EdgeInfo} (he : σ.edges.find? (EdgeKey.of s t) = some e) :
    (v.ec (place ks kt)).edges.find? (EdgeKey.of s t) = some (Spec.mkEdge e) := by
  rw [(h.ec _).edges, Spec.edgeRec, he]
  simp [Spec.placeOf_of hs ht]

theorem RV.edge_other {v : View} {σ : Spec} (h : RV v σ) {s t : NodeId} {ks kt : LayerKey} (hs : σ.key? s = some ks)
    (ht : σ.key? t = some kt) {c : Place} (hc : place ks kt ≠ c) :
    (v.ec c).edges.find? (EdgeKey.of s t) = none := by
  rw [(h.ec _).edges, Spec.edgeRec]
  simp only [Spec.placeOf_of hs ht, Option.some.injEq, hc, if_false]
  cases σ.edges.find? (EdgeKey.of s t) <;> rfl

theorem RV.contains_eq {v : View} {σ : Spec} (h : RV v σ) {s t : NodeId} {ks kt : LayerKey} (hs : σ.key? s = some ks)
    (ht : σ.key? t = some kt) : (v.ec (place ks kt)).contains s t = σ.hasEdge s t := by
  simp only [EdgeContainer.contains, OMap.contains, Spec.hasEdge]
  cases he : σ.edges.find? (EdgeKey.of s t) with
  | none => rw [h.edge_none (by simp [OMap.contains, he])]; rfl
  | some e => rw [h.edge_some hs ht he]; rfl

theorem adv_eraseEdge {v : View} {σ : Spec} (h : RV v σ) {s t : NodeId} {i j : NodeInfo}
    (hs : σ.nodes.find? s = some i) (ht : σ.nodes.find? t = some j) (hne : s ≠ t) (he : σ.hasEdge s t = true)
    (gone : NodeStatus) :
    Adv gone v (v.delE s t i.key j.key (σ.mkNode s i) (σ.mkNode t j)) (σ.eraseEdge (EdgeKey.of s t)) := by
  obtain ⟨e0, he0⟩ := OMap.contains_eq_true.1 he
  have hsm := h.edge_some (Spec.key?_eq hs) (Spec.key?_eq ht) he0
  have hnode : ∀ k n, (v.delE s t i.key j.key (σ.mkNode s i) (σ.mkNode t j)).node k n =
      (σ.eraseEdge (EdgeKey.of s t)).nodeRec k n := by
    intro k n
    rw [Spec.nodeRec_eraseEdge hs ht hne]
    simp only [View.delE, View.setE, View.setN, h.node]
  have hsome : ∀ k n, ((v.delE s t i.key j.key (σ.mkNode s i) (σ.mkNode t j)).node k n).isSome =
      (v.node k n).isSome := by
    intro k n
    simp only [View.delE, View.setE, View.setN]
    by_cases e1 : j.key = k ∧ t = n
    · obtain ⟨rfl, rfl⟩ := e1; simp [h.node_of ht]
    · by_cases e2 : i.key = k ∧ s = n
      · obtain ⟨rfl, rfl⟩ := e2; simp [h.node_of hs, Ne.symm hne]
      · simp [e1, e2]
  refine ⟨⟨h.layerIds, h.mesh, h.lookup, hnode, ?_, ?_, ?_, ?_⟩, ?_, ?_⟩
  · intro k n; rw [hsome, ← h.live]; rfl
  · intro c
    by_cases ec : place i.key j.key = c
    · subst ec
      have hc : (v.delE s t i.key j.key (σ.mkNode s i) (σ.mkNode t j)).ec (place i.key j.key) =
        (v.ec (place i.key j.key)).drop (EdgeKey.of s t) := by simp [View.delE, View.setE]
      rw [hc]
      have hE := h.ec (place i.key j.key)
      refine ⟨?_, ?_, ?_⟩
      · intro key
        rw [Spec.edgeRec_eraseEdge]
        simp only [EdgeContainer.drop, OMap.find?_erase, hE.edges]
      · intro key
        simp only [EdgeContainer.drop, OMap.find?_erase, OMap.find?_insert]
        by_cases e : EdgeKey.of s t = key
        · subst e; simp [EdgeStatus.live]
        · simp [e, hE.status]
      · intro key; exact hE.stale key
    · have hc : (v.delE s t i.key j.key (σ.mkNode s i) (σ.mkNode t j)).ec c = v.ec c := by
        simp [View.delE, View.setE, View.setN, ec]
      rw [hc]
      have hE := h.ec c
      refine ⟨?_, hE.status, hE.stale⟩
      intro key
      rw [Spec.edgeRec_eraseEdge]
      by_cases e : EdgeKey.of s t = key
      · subst e; simp [h.edge_other (Spec.key?_eq hs) (Spec.key?_eq ht) ec]
      · simp [e, hE.edges]
  · intro k; exact (h.has k).trans (hasKey_congr (σ := σ) rfl rfl k).symm
  · intro k m hm; exact infoOk_congr rfl rfl (h.info k m hm)
  · intro k n; rw [hsome]; simp; rfl
  · intro c key
    simp only [View.hasE]
    by_cases ec : place i.key j.key = c
    · subst ec
      simp only [View.delE, View.setE, if_true, EdgeContainer.drop, OMap.find?_erase, OMap.find?_insert]
      by_cases e : EdgeKey.of s t = key
      · subst e; simp [hsm]
      · simp [e]
    · simp [View.delE, View.setE, View.setN, ec]

end Verif
