import Verif.Refine.Loops
/-!
# Adding, removing and updating nodes; edge containers: on specifications and views
-/

namespace Verif

theorem Spec.hasStamp_iff {σ : Spec} {k : LayerKey} {t : Stamp} :
    σ.hasStamp k t = true ↔ ∃ n i, σ.nodes.find? n = some i ∧ i.key = k ∧ i.stamp = some t := by
  simp only [hasStamp, List.any_eq_true, Bool.and_eq_true, beq_iff_eq]
  constructor
  · rintro ⟨⟨n, i⟩, hm, h1, h2⟩; exact ⟨n, i, OMap.mem_toList.1 hm, h1, h2⟩
  · rintro ⟨n, i, hm, h1, h2⟩; exact ⟨(n, i), OMap.mem_toList.2 hm, h1, h2⟩

theorem Spec.key?_addNode (σ : Spec) (n : NodeId) (i : NodeInfo) (m : NodeId) :
    (σ.addNode n i).key? m = if n = m then some i.key else σ.key? m := by
  simp only [key?, addNode, OMap.find?_insert]
  split <;> rfl

theorem SWF.no_edge {σ : Spec} (hw : SWF σ) {n : NodeId} (hn : σ.key? n = none) {key : EdgeKey} (hk : key.has n = true) :
    σ.edges.find? key = none := by
  cases h : σ.edges.find? key with
  | none => rfl
  | some e =>
    obtain ⟨h1, h2, h3, h4⟩ := hw.edge key e h
    rw [h1, EdgeKey.has_of, Bool.or_eq_true, beq_iff_eq, beq_iff_eq] at hk
    rw [Spec.contains_of_key?] at h3 h4
    rcases hk with rfl | rfl <;> simp_all

theorem SWF.no_hasEdge {σ : Spec} (hw : SWF σ) {n : NodeId} (hn : σ.key? n = none) (m : NodeId) :
    σ.hasEdge n m = false ∧ σ.hasEdge m n = false := by
  constructor
  · simp [Spec.hasEdge, OMap.contains, hw.no_edge hn (EdgeKey.has_of_left n m)]
  · simp [Spec.hasEdge, OMap.contains, hw.no_edge hn (EdgeKey.has_of_right m n)]

/-- the record of a node without edges -/
def bareNode (n : NodeId) (i : NodeInfo) : Node :=
  { id := n, layer := i.key.layer, timestamp := i.stamp, attrs := some i.attrs }

theorem Spec.nbrs_empty {σ : Spec} {n : NodeId} (h : ∀ m, σ.hasEdge n m = false) (P : LayerKey → Bool) :
    σ.nbrs n P = ∅ := by
  apply OMap.set_ext; intro m
  rw [contains_nbrs, h]
  simp [OMap.contains]

theorem Spec.mkNode_bare {σ : Spec} {n : NodeId} (h : ∀ m, σ.hasEdge n m = false) (i : NodeInfo) :
    σ.mkNode n i = bareNode n i := by
  simp [mkNode, parents, siblings, children, nbrs_empty h, bareNode]

/-- Records only depend on the keys of neighbours. -/
theorem Spec.mkNode_congr' {σ σ' : Spec} {n : NodeId} {i : NodeInfo}
    (hk : ∀ m, σ.hasEdge n m = true → σ'.key? m = σ.key? m) (he : ∀ m, σ'.hasEdge n m = σ.hasEdge n m) :
    σ'.mkNode n i = σ.mkNode n i := by
  simp only [mkNode, parents, siblings, children, Node.mk.injEq, true_and]
  refine ⟨?_, ?_, ?_⟩ <;>
    (apply OMap.set_ext; intro m; simp only [contains_nbrs, he]
     cases h : σ.hasEdge n m with
     | false => simp
     | true => rw [hk m h])

theorem SWF.key_of_edge {σ : Spec} (hw : SWF σ) {key : EdgeKey} {e : EdgeInfo} (he : σ.edges.find? key = some e) :
    (σ.key? key.k1).isSome = true ∧ (σ.key? key.k2).isSome = true := by
  obtain ⟨h1, h2, h3, h4⟩ := hw.edge key e he
  rw [Spec.contains_of_key?] at h3 h4
  rcases EdgeKey.of_eq e.src e.tgt with ⟨h, -⟩ | ⟨h, -⟩ <;> rw [h1, h] <;> simp [h3, h4]

theorem Spec.edgeRec_congr {σ σ' : Spec} (hw : SWF σ) (he : σ'.edges = σ.edges)
    (hk : ∀ m, (σ.key? m).isSome = true → (∃ k, σ.hasEdge m k = true ∨ σ.hasEdge k m = true) → σ'.key? m = σ.key? m)
    (c : Place) (key : EdgeKey) : σ'.edgeRec c key = σ.edgeRec c key := by
  simp only [edgeRec, he]
  cases h : σ.edges.find? key with
  | none => rfl
  | some e =>
    obtain ⟨h1, h2⟩ := hw.key_of_edge h
    obtain ⟨h3, -⟩ := hw.edge key e h
    have hself : σ.edges.contains (EdgeKey.of key.k1 key.k2) = true := by
      rw [h3, EdgeKey.of_k1_k2, ← h3]; simp [OMap.contains, h]
    have : σ'.placeOf key = σ.placeOf key := by
      simp only [placeOf, hk _ h1 ⟨key.k2, .inl hself⟩, hk _ h2 ⟨key.k1, .inr hself⟩]
    simp [this]

/-- A view with one more node. -/
theorem RV.addNode {v v' : View} {σ : Spec} (h : RV v σ) (hw : SWF σ) {n : NodeId} (hn : σ.key? n = none) (i : NodeInfo)
    {dyn' : OMap (LayerId × Prefix) DynInfo}
    (h1 : v'.layerIds = v.layerIds) (h2 : v'.mesh = v.mesh)
    (h3 : ∀ m, v'.lookup m = if n = m then some i.key else v.lookup m)
    (h4 : ∀ k m, v'.node k m = if i.key = k ∧ n = m then some (bareNode n i) else v.node k m)
    (h5 : ∀ k m, NodeStatus.live (v'.st k m) = (v'.node k m).isSome)
    (h6 : v'.ec = v.ec)
    (h7 : ∀ k, (v'.info k).isSome = ({ σ with dyn := dyn' }.addNode n i).hasKey k)
    (h8 : ∀ k m, v'.info k = some m → infoOk m ({ σ with dyn := dyn' }.addNode n i) k) :
    RV v' ({ σ with dyn := dyn' }.addNode n i) := by
  have hkey : ∀ m, ({ σ with dyn := dyn' }.addNode n i).key? m = if n = m then some i.key else σ.key? m :=
    Spec.key?_addNode _ n i
  refine ⟨h1.trans h.layerIds, h2.trans h.mesh, ?_, ?_, h5, ?_, h7, h8⟩
  · intro m; rw [h3, hkey, h.lookup]
  · intro k m
    rw [h4, h.node]
    by_cases e : n = m
    · subst e
      have hb := Spec.mkNode_bare (σ := { σ with dyn := dyn' }.addNode n i) (n := n) (fun m => (hw.no_hasEdge hn m).1) i
      have hnone : σ.nodes.find? n = none := by simpa [Spec.key?] using hn
      by_cases e' : i.key = k <;> simp [Spec.nodeRec, Spec.addNode, e', hnone]
      exact hb.symm
    · simp only [e, and_false, if_false, Spec.nodeRec, Spec.addNode, OMap.find?_insert]
      cases hm : σ.nodes.find? m with
      | none => rfl
      | some j =>
        have : ({ σ with dyn := dyn' }.addNode n i).mkNode m j = σ.mkNode m j := by
          refine Spec.mkNode_congr' ?_ (fun _ => rfl)
          intro m' hm'
          rw [hkey, if_neg]
          rintro rfl
          rw [(hw.no_hasEdge hn m).2] at hm'; cases hm'
        simp only [Option.bind_some]
        rw [← this]; rfl
  · intro c
    rw [h6]
    have hE := h.ec c
    refine ⟨?_, hE.status, hE.stale⟩
    intro key
    rw [hE.edges]
    refine (Spec.edgeRec_congr (σ' := { σ with dyn := dyn' }.addNode n i) hw rfl ?_ c key).symm
    intro m hm _
    rw [hkey, if_neg]
    rintro rfl
    rw [hn] at hm; cases hm

/-- Change log of adding a node. -/
theorem nlog_addNode {v v' : View} {n : NodeId} {k0 : LayerKey} {x : Node} (gone : NodeStatus)
    (hnone : v.node k0 n = none)
    (h4 : ∀ k m, v'.node k m = if k0 = k ∧ n = m then some x else v.node k m)
    (h5 : ∀ k m, v'.st k m = if k0 = k ∧ n = m then some .new else v.st k m) : NLog gone v v' := by
  intro k m
  rw [h4, h5]
  by_cases e : k0 = k ∧ n = m
  · obtain ⟨rfl, rfl⟩ := e; simp [hnone]
  · simp [e]

/-- A view with one node less (which has no edges any more). -/
theorem RV.delNode {v v' : View} {σ : Spec} (h : RV v σ) (hw : SWF σ) {n : NodeId} {i : NodeInfo}
    (hn : σ.nodes.find? n = some i) (hE : ∀ m, σ.hasEdge n m = false)
    (h1 : v'.layerIds = v.layerIds) (h2 : v'.mesh = v.mesh)
    (h3 : ∀ m, v'.lookup m = if n = m then none else v.lookup m)
    (h4 : ∀ k m, v'.node k m = if i.key = k ∧ n = m then none else v.node k m)
    (h5 : ∀ k m, NodeStatus.live (v'.st k m) = (v'.node k m).isSome)
    (h6 : v'.ec = v.ec)
    (h7 : ∀ k, (v'.info k).isSome = (v.info k).isSome)
    (h8 : ∀ k m, v'.info k = some m → infoOk m { σ with nodes := σ.nodes.erase n } k) :
    RV v' { σ with nodes := σ.nodes.erase n } := by
  have hkey : ∀ m, Spec.key? { σ with nodes := σ.nodes.erase n } m = if n = m then none else σ.key? m := by
    intro m; simp only [Spec.key?, OMap.find?_erase]; split <;> rfl
  have hE' : ∀ m, σ.hasEdge m n = false := by
    intro m; have := hE m; simpa [Spec.hasEdge, EdgeKey.of_comm] using this
  refine ⟨h1.trans h.layerIds, h2.trans h.mesh, ?_, ?_, h5, ?_, ?_, h8⟩
  · intro m; rw [h3, hkey, h.lookup]
  · intro k m
    rw [h4, h.node]
    by_cases e : n = m
    · subst e
      by_cases e' : i.key = k <;> simp [Spec.nodeRec, e', hn]
    · simp only [e, and_false, if_false, Spec.nodeRec, OMap.find?_erase]
      cases hm : σ.nodes.find? m with
      | none => rfl
      | some j =>
        have : Spec.mkNode { σ with nodes := σ.nodes.erase n } m j = σ.mkNode m j := by
          refine Spec.mkNode_congr' ?_ (fun _ => rfl)
          intro m' hm'
          rw [hkey, if_neg]
          rintro rfl
          rw [hE'] at hm'; cases hm'
        simp only [Option.bind_some]
        rw [← this]
  · intro c
    rw [h6]
    have hEc := h.ec c
    refine ⟨?_, hEc.status, hEc.stale⟩
    intro key
    rw [hEc.edges]
    refine (Spec.edgeRec_congr (σ' := { σ with nodes := σ.nodes.erase n }) hw rfl ?_ c key).symm
    rintro m hm ⟨m', hm'⟩
    rw [hkey, if_neg]
    rintro rfl
    rw [hE, hE'] at hm'; simp at hm'
  · intro k; rw [h7, h.has]; exact (hasKey_congr rfl rfl k).symm

/-- Only edge containers changed. -/
theorem RV.setEcs {v v' : View} {σ σ' : Spec} (h : RV v σ)
    (h1 : v'.layerIds = v.layerIds) (h2 : v'.mesh = v.mesh) (h3 : v'.lookup = v.lookup) (h4 : v'.node = v.node)
    (h5 : v'.st = v.st) (h6 : v'.info = v.info)
    (n1 : σ'.layerIds = σ.layerIds) (n2 : σ'.mesh = σ.mesh) (n3 : σ'.nodes = σ.nodes) (n4 : σ'.dyn = σ.dyn)
    (n5 : ∀ key, σ'.edges.contains key = σ.edges.contains key)
    (hc : ∀ c, RE c (v'.ec c) σ') : RV v' σ' := by
  have hk : ∀ n, σ'.key? n = σ.key? n := by intro n; simp [Spec.key?, n3]
  refine ⟨by rw [h1, h.layerIds, n1], by rw [h2, h.mesh, n2], ?_, ?_, ?_, hc, ?_, ?_⟩
  · intro n; rw [h3, h.lookup, hk]
  · intro k n
    rw [h4, h.node]
    simp only [Spec.nodeRec, n3]
    cases σ.nodes.find? n with
    | none => rfl
    | some i =>
      have : σ'.mkNode n i = σ.mkNode n i := Spec.mkNode_congr hk (fun m => by simp [Spec.hasEdge, n5])
      simp [this]
  · intro k n; rw [h5, h4]; exact h.live k n
  · intro k; rw [h6, h.has]; exact (hasKey_congr n4 n1 k).symm
  · intro k m hm; rw [h6] at hm; exact infoOk_congr n4 n3 (h.info k m hm)

theorem Spec.placeOf_nodes {σ σ' : Spec} (h : σ'.nodes = σ.nodes) (key : EdgeKey) : σ'.placeOf key = σ.placeOf key :=
  Spec.placeOf_congr (fun n => by simp [Spec.key?, h]) key

theorem Spec.edgeRec_nodes {σ σ' : Spec} (h : σ'.nodes = σ.nodes) (h' : σ'.edges = σ.edges) (c : Place) (key : EdgeKey) :
    σ'.edgeRec c key = σ.edgeRec c key := by
  simp only [Spec.edgeRec, h', Spec.placeOf_nodes h]

theorem Spec.find?_marks_touch (σ : Spec) (k : EdgeKey) (key : EdgeKey) :
    (σ.touch k).marks.find? key =
      if k = key ∧ σ.edges.contains k = true ∧ σ.marks.find? k = σ.placeOf k then none else σ.marks.find? key := by
  simp only [touch]
  by_cases h : (σ.edges.contains k && decide (σ.marks.find? k = σ.placeOf k)) = true
  · rw [if_pos h]
    simp only [Bool.and_eq_true, decide_eq_true_eq] at h
    simp [OMap.find?_erase, h]
  · rw [if_neg h]
    simp only [Bool.and_eq_true, decide_eq_true_eq] at h
    rw [if_neg]
    rintro ⟨-, h'⟩; exact h h'

theorem Spec.touch_fields (σ : Spec) (k : EdgeKey) : (σ.touch k).layerIds = σ.layerIds ∧ (σ.touch k).dyn = σ.dyn ∧
    (σ.touch k).nodes = σ.nodes ∧ (σ.touch k).edges = σ.edges ∧ (σ.touch k).mesh = σ.mesh := by
  simp only [touch]; split <;> simp

/-- A successful lookup clears the stale mark in the container where the edge is stored. -/
theorem RE_touch {v : View} {σ : Spec} (h : RV v σ) {s t : NodeId} {ks kt : LayerKey} (hs : σ.key? s = some ks)
    (ht : σ.key? t = some kt) (he : σ.hasEdge s t = true) (c : Place) :
    RE c ((v.setE (place ks kt) ((v.ec (place ks kt)).find s t).1).ec c) (σ.touch (EdgeKey.of s t)) := by
  obtain ⟨e, he'⟩ := OMap.contains_eq_true.1 he
  have hf := h.edge_some hs ht he'
  have hp := Spec.placeOf_of hs ht
  obtain ⟨f1, f2, f3, f4, f5⟩ := Spec.touch_fields σ (EdgeKey.of s t)
  have hE := h.ec c
  by_cases ec : place ks kt = c
  · subst ec
    simp only [View.setE, if_true, EdgeContainer.find, EdgeContainer.findKey, hf]
    refine ⟨?_, hE.status, ?_⟩
    · intro key; rw [Spec.edgeRec_nodes f3 f4]; exact hE.edges key
    · intro key
      rw [Spec.find?_marks_touch]
      simp only [OMap.find?_insert]
      by_cases ek : EdgeKey.of s t = key
      · subst ek
        simp only [if_true, hp, true_and]
        by_cases em : σ.marks.find? (EdgeKey.of s t) = some (place ks kt)
        · have : σ.edges.contains (EdgeKey.of s t) = true := he
          simp [em, this]
        · simp [em]
      · simp [ek, hE.stale]
  · simp only [View.setE, ec, if_false]
    refine ⟨?_, hE.status, ?_⟩
    · intro key; rw [Spec.edgeRec_nodes f3 f4]; exact hE.edges key
    · intro key
      rw [hE.stale, Spec.find?_marks_touch]
      by_cases ek : EdgeKey.of s t = key ∧ σ.edges.contains (EdgeKey.of s t) = true ∧ σ.marks.find? (EdgeKey.of s t) = σ.placeOf (EdgeKey.of s t)
      · rw [if_pos ek]
        obtain ⟨rfl, -, h3⟩ := ek
        rw [h3, hp]
        simp [ec]
      · rw [if_neg ek]

theorem touch_status {c : EdgeContainer} {s t : NodeId} : (c.find s t).1.status = c.status ∧ (c.find s t).1.edges = c.edges := by
  simp only [EdgeContainer.find, EdgeContainer.findKey]
  split <;> simp

theorem adv_touch {v : View} {σ : Spec} (h : RV v σ) {s t : NodeId} {ks kt : LayerKey} (hs : σ.key? s = some ks)
    (ht : σ.key? t = some kt) (gone : NodeStatus) :
    Adv gone v (v.setE (place ks kt) ((v.ec (place ks kt)).find s t).1) (σ.touch (EdgeKey.of s t)) := by
  cases he : σ.hasEdge s t with
  | true =>
    obtain ⟨f1, f2, f3, f4, f5⟩ := Spec.touch_fields σ (EdgeKey.of s t)
    refine ⟨RV.setEcs h rfl rfl rfl rfl rfl rfl f1 f5 f3 f2 (by intro key; rw [f4]) (RE_touch h hs ht he), ?_, ?_⟩
    · intro k n; simp [View.setE]
    · intro c key
      simp only [View.hasE, View.setE]
      by_cases ec : place ks kt = c
      · subst ec; simp [touch_status]
      · simp [ec]
  | false =>
    have h1 : σ.touch (EdgeKey.of s t) = σ := by
      have : σ.edges.contains (EdgeKey.of s t) = false := he
      simp [Spec.touch, this]
    have h2 : v.setE (place ks kt) ((v.ec (place ks kt)).find s t).1 = v := by
      have : (v.ec (place ks kt)).edges.find? (EdgeKey.of s t) = none := h.edge_none he _
      simp only [EdgeContainer.find, EdgeContainer.findKey, this, View.setE]
      cases v; simp only [View.mk.injEq, true_and, and_true]
      funext c; by_cases ec : place ks kt = c <;> simp [ec]
    rw [h1, h2]; exact Adv.refl gone h

/-- Replace the attributes of a stored edge (orientation is kept). -/
theorem adv_setInfo {v : View} {σ : Spec} (h : RV v σ) {s t : NodeId} {ks kt : LayerKey} (hs : σ.key? s = some ks)
    (ht : σ.key? t = some kt) {e : EdgeInfo} (he : σ.edges.find? (EdgeKey.of s t) = some e) (a : EdgeAttrs) (gone : NodeStatus) :
    Adv gone v (v.setE (place ks kt) ((v.ec (place ks kt)).setInfo (EdgeKey.of s t) (some a)))
      { σ with edges := σ.edges.insert (EdgeKey.of s t) { e with attrs := a } } := by
  have hf := h.edge_some hs ht he
  have hp := Spec.placeOf_of hs ht
  have hcon : ∀ key, (σ.edges.insert (EdgeKey.of s t) { e with attrs := a }).contains key = σ.edges.contains key := by
    intro key
    rw [OMap.contains_insert]
    by_cases ek : EdgeKey.of s t = key
    · subst ek; simp [OMap.contains, he]
    · simp [ek]
  have hrec : ∀ c key, Spec.edgeRec { σ with edges := σ.edges.insert (EdgeKey.of s t) { e with attrs := a } } c key =
      if EdgeKey.of s t = key then (if place ks kt = c then some ⟨e.src, e.tgt, some a⟩ else none) else σ.edgeRec c key := by
    intro c key
    simp only [Spec.edgeRec, OMap.find?_insert]
    by_cases ek : EdgeKey.of s t = key
    · subst ek
      have : Spec.placeOf { σ with edges := σ.edges.insert (EdgeKey.of s t) { e with attrs := a } } (EdgeKey.of s t) =
        some (place ks kt) := hp
      simp [this, Spec.mkEdge]
    · simp only [ek, if_false]; rfl
  refine ⟨RV.setEcs h rfl rfl rfl rfl rfl rfl rfl rfl rfl rfl hcon ?_, ?_, ?_⟩
  · intro c
    have hE := h.ec c
    by_cases ec : place ks kt = c
    · subst ec
      simp only [View.setE, if_true, EdgeContainer.setInfo, hf]
      refine ⟨?_, ?_, hE.stale⟩
      · intro key
        rw [hrec]
        simp only [OMap.find?_insert]
        by_cases ek : EdgeKey.of s t = key
        · simp [ek, Spec.mkEdge]
        · simp [ek, hE.edges]
      · intro key
        simp only [OMap.find?_insert, hE.status]
        by_cases ek : EdgeKey.of s t = key
        · subst ek; simp [hf]
        · simp [ek]
    · simp only [View.setE, ec, if_false]
      refine ⟨?_, hE.status, hE.stale⟩
      intro key
      rw [hrec]
      by_cases ek : EdgeKey.of s t = key
      · subst ek; simp [ec, h.edge_other hs ht ec]
      · simp [ek, hE.edges]
  · intro k n; simp [View.setE]
  · intro c key
    simp only [View.hasE, View.setE]
    by_cases ec : place ks kt = c
    · subst ec
      simp only [if_true, EdgeContainer.setInfo, hf, OMap.find?_insert]
      by_cases ek : EdgeKey.of s t = key
      · subst ek; simp [hf]
      · simp [ek]
    · simp [ec]

/-- Replace the attributes of a node. -/
theorem adv_setAttrs {v : View} {σ : Spec} (h : RV v σ) {n : NodeId} {i : NodeInfo} (hn : σ.nodes.find? n = some i)
    (a : NodeAttrs) (gone : NodeStatus) :
    Adv gone v (v.setN i.key n { σ.mkNode n i with attrs := some a })
      { σ with nodes := σ.nodes.insert n { i with attrs := a } } := by
  have hk : ∀ m, Spec.key? { σ with nodes := σ.nodes.insert n { i with attrs := a } } m = σ.key? m := by
    intro m
    simp only [Spec.key?, OMap.find?_insert]
    by_cases e : n = m
    · subst e; simp [hn]
    · simp [e]
  have hmk : ∀ m j, Spec.mkNode { σ with nodes := σ.nodes.insert n { i with attrs := a } } m j = σ.mkNode m j :=
    fun m j => Spec.mkNode_congr hk (fun _ => rfl)
  have hsome : ∀ k m, ((v.setN i.key n { σ.mkNode n i with attrs := some a }).node k m).isSome = (v.node k m).isSome := by
    intro k m
    simp only [View.setN]
    by_cases e : i.key = k ∧ n = m
    · obtain ⟨rfl, rfl⟩ := e; simp [h.node_of hn]
    · simp [e]
  refine ⟨⟨h.layerIds, h.mesh, ?_, ?_, ?_, ?_, ?_, ?_⟩, ?_, ?_⟩
  · intro m; rw [hk]; exact h.lookup m
  · intro k m
    simp only [View.setN, Spec.nodeRec, OMap.find?_insert]
    by_cases e : n = m
    · subst e
      by_cases e' : i.key = k
      · subst e'; simp only [if_true, and_self, Option.bind_some]; exact congrArg some (hmk n { i with attrs := a }).symm
      · simp [e', h.node, Spec.nodeRec, hn]
    · simp only [e, and_false, if_false, h.node, Spec.nodeRec, hmk]
  · intro k m; rw [hsome, ← h.live]; rfl
  · intro c
    have hE := h.ec c
    refine ⟨?_, hE.status, hE.stale⟩
    intro key
    have : Spec.placeOf { σ with nodes := σ.nodes.insert n { i with attrs := a } } key = σ.placeOf key :=
      Spec.placeOf_congr hk key
    simp only [Spec.edgeRec, this]
    exact hE.edges key
  · intro k; exact (h.has k).trans (hasKey_congr (σ := σ) rfl rfl k).symm
  · intro k m hm
    have := h.info k m hm
    cases k with
    | static l => exact this
    | dyn l p =>
      obtain ⟨a1, a2, a3, a4, a6, a5⟩ := this
      refine ⟨a1, a2, a3, a4, a6, ?_⟩
      intro t
      rw [a5, Bool.eq_iff_iff, Spec.hasStamp_iff, Spec.hasStamp_iff]
      constructor
      · rintro ⟨m', j, h1, h2, h3⟩
        by_cases e : n = m'
        · subst e; rw [hn] at h1; cases h1
          exact ⟨n, _, OMap.find?_insert_self _ _ _, h2, h3⟩
        · exact ⟨m', j, by simp [OMap.find?_insert, e, h1], h2, h3⟩
      · rintro ⟨m', j, h1, h2, h3⟩
        simp only [OMap.find?_insert] at h1
        split at h1
        · rename_i e; cases h1; exact ⟨n, i, hn, h2, h3⟩
        · exact ⟨m', j, h1, h2, h3⟩
  · intro k m; rw [hsome]; simp; rfl
  · exact ELog.refl v

end Verif
