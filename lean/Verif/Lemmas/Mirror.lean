import Verif.Lemmas.Writer
import Verif.Spec.GraphIO
import Verif.Spec.Canonical
import Verif.Props.Removal
/-! # The receiver of a message mirrors its sender -/

namespace Verif

namespace GraphIO

theorem R.noCross {h : Graph} {τ : Spec} (hr : R h τ) (hw : SWF τ) (hc : ∀ n, h.CrossFree n) : τ.NoCross := by
  intro a b ka kb h1 h2 h3 h4
  exact (hc a b ka kb (by rw [hr.hasEdge hw, h1]) (by rw [hr.getLayerForNode, h2]) (by rw [hr.getLayerForNode, h3]) h4.symm).symm

theorem find?_foldl_erase (L : List (NodeId × NodeInfo)) (s : OSet NodeId) (m : NodeId) :
    (L.foldl (fun s e => s.erase e.1) s).contains m = true ↔ s.contains m = true ∧ m ∉ L.map Prod.fst := by
  induction L generalizing s with
  | nil => simp
  | cons e L ih =>
    rw [List.foldl_cons, ih, OMap.contains_erase]
    simp only [Bool.and_eq_true, List.map_cons, List.mem_cons, not_or, Bool.not_eq_true', decide_eq_false_iff_not, decide_eq_true_eq]
    constructor
    · rintro ⟨⟨a, b⟩, c⟩
      first
      | exact ⟨b, fun x => a (by simp [x]), c⟩
      | exact ⟨a, fun x => b (by simp [x]), c⟩
    · rintro ⟨a, b, c⟩
      first
      | exact ⟨⟨fun x => b (by simp [x]), a⟩, c⟩
      | exact ⟨⟨by simpa using Ne.symm b, a⟩, c⟩

theorem nbrs_congr {σ τ : Spec} (hn : ∀ n, (τ.nodes.find? n).map NodeInfo.key = (σ.nodes.find? n).map NodeInfo.key)
    (he : ∀ a b, τ.hasEdge a b = σ.hasEdge a b) (n : NodeId) (P : LayerKey → Bool) : τ.nbrs n P = σ.nbrs n P := by
  apply OMap.ext
  intro m
  have := hn m
  unfold Spec.nbrs
  simp only [OMap.find?_map, OMap.find?_filter, he]
  cases h1 : τ.nodes.find? m <;> cases h2 : σ.nodes.find? m <;> simp [h1, h2] at this ⊢
  simp only [Option.filter, this]
  split <;> rfl

/-- The nodes of the message fit the receiver. -/
theorem fits {g h : Graph} {σ τ : Spec} (hg : R g σ) (hwg : SWF σ) (hh : R h τ) (hwh : SWF τ) (hl : h.layerIds = g.layerIds)
    (hs : g.Storable) (ha : h.Accepts g) {A D : List (NodeId × NodeInfo)} (hnd : ((A ++ D).map Prod.fst).Nodup)
    (hmem : ∀ n i, (n, i) ∈ A ++ D ↔ σ.nodes.find? n = some i) : τ.Fits (A ++ D) := by
  have obs : ∀ n i, (n, i) ∈ A ++ D ↔ g.nodeObs n = some i := fun n i => by rw [hmem, hg.nodeObs hwg]
  have hlayh : h.layerIds = τ.layerIds := hh.layerIds
  constructor
  · rintro ⟨n, i⟩ he
    rw [← hlayh, hl, List.contains_iff_mem]
    exact hs.layers n i ((obs n i).1 he)
  · rintro ⟨n, i⟩ he
    have := (hwg.node n i ((hmem n i).1 he)).2
    unfold LayerKey.valid at this
    simpa using this
  · rintro ⟨n, i⟩ he
    have hi := (hmem n i).1 he
    cases hk : i.key with
    | static l =>
      left
      refine ⟨hs.plain n i ((obs n i).1 he) (by rw [hk]; rfl), ?_⟩
      simp [hk, LayerKey.layer]
    | dyn l p =>
      right
      obtain ⟨h1, h2, h3⟩ := hwg.dyn n i l p hi hk
      have hp : p = Prefix.fromId n := (Prefix.isMatch_iff p n).1 h2
      have h4 : g.view.node (.dyn l p) n = some (σ.mkNode n i) := by
        rw [RV.node hg]; simp [Spec.nodeRec, hi, hk]
      obtain ⟨b, hb, hx⟩ := Graph.layerAt?_of_view_node h4
      simp only [Graph.layerAt?, Option.map_eq_some_iff] at hb
      obtain ⟨d, hd, rfl⟩ := hb
      have hmemd : d ∈ g.dynList := by
        simp only [Graph.dynLayer?, Option.bind_eq_some_iff] at hd
        obtain ⟨m, hm, hd⟩ := hd
        simp only [Graph.dynList, List.mem_flatMap, List.mem_map]
        exact ⟨(l, m), OMap.mem_toList.2 hm, (p, d), OMap.mem_toList.2 hd, rfl⟩
      obtain ⟨_, h5⟩ := BaseLayer.nd_dyn_lt hx
      have hlt : d.pre.index n < d.nodes.length := by
        rcases Nat.lt_or_ge (d.pre.index n) d.nodes.length with h' | h'
        · exact h'
        · rw [List.getElem?_eq_none h'] at h5; cases h5
      have hlen := (hs.slots d hmemd).1
      refine ⟨h3, ?_, hp ▸ h1, ?_⟩
      · simp [LayerKey.layer, hp]
      · have : (Prefix.fromId n).index n = d.pre.index n := by rw [Prefix.index_eq, Prefix.index_eq]
        simp only [this]
        omega
  · rintro ⟨n, i⟩ he j hj
    exact ha.shared n i j ((obs n i).1 he) (by rw [hh.nodeObs hwh]; exact hj)
  · rintro ⟨n, i⟩ he m j hj hd hk hst
    exact ha.stamps n m i j ((obs n i).1 he) (by rw [hh.nodeObs hwh]; exact hj) hd hk hst
  · exact hnd
  · rintro ⟨n, i⟩ he ⟨n', i'⟩ he' hd hk hst
    have h1 := (hmem n i).1 he
    have h2 := (hmem n' i').1 he'
    cases hk' : i.key with
    | static l => rw [hk'] at hd; cases hd
    | dyn l p => exact hwg.stamps n n' i i' l p h1 h2 hk' (by rw [← hk, hk']) hst

/-- The nodes that the receiver removes. -/
theorem stale {h : Graph} {τ : Spec} (hh : R h τ) {order : List NodeId → List NodeId} (ho : ∀ l, (order l).Perm l) (N : List (NodeId × NodeInfo)) (m : NodeId) :
    m ∈ order (N.foldl (fun s e => s.erase e.1) (h.lookup.map (fun _ _ => ()))).keys ↔ τ.nodes.contains m = true ∧ m ∉ N.map Prod.fst := by
  rw [(ho _).mem_iff, OMap.mem_keys, find?_foldl_erase]
  have : (h.lookup.map (fun _ _ => ())).contains m = τ.nodes.contains m := by
    have h1 : h.lookup.find? m = τ.key? m := RV.lookup hh m
    rw [Bool.eq_iff_iff, OMap.contains_eq_true, OMap.contains_eq_true]
    simp only [OMap.find?_map, h1, Spec.key?]
    cases τ.nodes.find? m <;> simp
  rw [this]

/-- The heart of C25 and C26, for a receiver with the sender's layer ids. -/
theorem mirrorAs {g h : Graph} {σ τ : Spec} (hg : R g σ) (hwg : SWF σ) (hh : R h τ) (hwh : SWF τ) (hl : h.layerIds = g.layerIds)
    (hs : g.Storable) (ha : h.Accepts g) {W R' : Registry NodeClass} {V Q : Registry EdgeClass} (hu : g.Understood W R' V Q)
    {order : List NodeId → List NodeId} (ho : ∀ l, (order l).Perm l) {incl : Bool} {E : Env} {F : Fmt} (hv : F.Reads E) :
    ∃ (w : Wr) (h' : Graph) (ops : List Op) (outs : List Out),
      g.writeAs F W V incl = Wr.seq (Wr.vec Wr.u64 g.layerIds) w ∧ (Rd.RT E w (Rd.updateGraph R' Q order h) h' ∧
        ∃ wc, w = wc.seq (Rd.meshTail (if incl then g.mesh else none)) ∧ ((if incl then g.mesh else none) = none → Rd.RT E wc (Rd.updateCore R' Q order h) h')) ∧
      Op.okAll τ ops = true ∧ h.run ops = .ok (h', outs) ∧ h'.MirrorsAs F g ∧
      (∀ a b e, g.edgeObs a b = some e → ∃ e', h'.edgeObs a b = some e' ∧ e'.attrs = e.attrs ∧
        (∀ o, h.edgeObs a b = some o → e'.src = o.src ∧ e'.tgt = o.tgt)) ∧
      ((∀ n, h.nodeObs n = none) → ∀ a b, h'.edgeObs a b = g.edgeObs a b) ∧
      h'.mesh = (match (if incl then g.mesh else none) with | none => h.mesh | some m => some m) ∧
      ((∀ n, h.nodeObs n = none) → ∀ op ∈ ops, op.adds = true) := by
  obtain ⟨A, D, Es, hwr, hnd, hmem, hek, hem⟩ := hg.writer hwg (fun d hd => (hs.slots d hd).1) (by
    intro s hs' he
    subst he
    obtain ⟨d, hd, hd'⟩ := List.mem_flatMap.1 hs'
    exact (hs.slots d hd).2 hd')
  have obs : ∀ n i, (n, i) ∈ A ++ D ↔ g.nodeObs n = some i := fun n i => by rw [hmem, hg.nodeObs hwg]
  have hids : ∀ m, m ∈ (A ++ D).map Prod.fst ↔ σ.nodes.contains m = true := by
    intro m
    rw [OMap.contains_eq_true]
    constructor
    · intro hm
      obtain ⟨⟨n, i⟩, h1, rfl⟩ := List.mem_map.1 hm
      exact ⟨i, (hmem n i).1 h1⟩
    · rintro ⟨i, hi⟩
      exact List.mem_map.2 ⟨(m, i), (hmem m i).2 hi, rfl⟩
  have hlay : g.layerIds = σ.layerIds := hg.layerIds
  have hlayh : h.layerIds = τ.layerIds := hh.layerIds
  have hfits : τ.Fits (A ++ D) := fits hg hwg hh hwh hl hs ha hnd hmem
  obtain ⟨w0, hw0⟩ : ∃ rm, rm = order ((A ++ D).foldl (fun s e => s.erase e.1) (h.lookup.map (fun _ _ => ()))).keys := ⟨_, rfl⟩
  have hrm : ∀ m, m ∈ w0 ↔ τ.nodes.contains m = true ∧ m ∉ (A ++ D).map Prod.fst := by
    intro m
    rw [hw0]
    exact stale hh ho (A ++ D) m
  obtain ⟨s1, s2, s3, s4, s5, s6, s7⟩ := Spec.sync_all (F := F) (mesh := if incl then g.mesh else none) ⟨hwh, h, hh⟩ hfits (R.noCross hh hwh ha.cross) hrm hek (by
    intro e he
    obtain ⟨_, h2, h3, h4⟩ := hwg.edge _ _ ((hem e).1 he)
    exact ⟨h2, (hids _).2 h3, (hids _).2 h4⟩)
  obtain ⟨h', outs, hrun, hr', hw', _⟩ := hh.run hwh _ s1
  have hnodes : ∀ n, (τ.after (syncOps F (A ++ D) w0 Es (if incl then g.mesh else none))).nodes.find? n = (σ.nodes.find? n).map (NodeInfo.keptAs F n) := by
    intro n
    cases hn : σ.nodes.find? n with
    | some i => exact s2 (n, i) ((hmem n i).2 hn)
    | none => exact s3 n (by rw [hids, OMap.contains_eq_true, hn]; simp)
  have hedge : ∀ k, ∃ f : EdgeInfo → EdgeInfo, (τ.after (syncOps F (A ++ D) w0 Es (if incl then g.mesh else none))).edges.find? k = (σ.edges.find? k).map f ∧
      (∀ e, σ.edges.find? k = some e → (f e).attrs = e.attrs ∧ (∀ o, τ.edges.find? k = some o → (f e).src = o.src ∧ (f e).tgt = o.tgt) ∧
        ((∀ k, τ.edges.find? k = none) → w0 = [] → f e = e)) := by
    intro k
    cases hk : σ.edges.find? k with
    | none =>
      refine ⟨id, s5 k ?_, by simp⟩
      intro hm
      obtain ⟨e, he, rfl⟩ := List.mem_map.1 hm
      rw [(hem e).1 he] at hk
      cases hk
    | some e =>
      have hke : k = Spec.ekey e := (hwg.edge k e hk).1
      subst hke
      obtain ⟨x, x1, x2, x3, x4⟩ := s4 e ((hem e).2 hk)
      exact ⟨fun _ => x, x1, fun e' he' => by cases he'; exact ⟨x2, x3, x4⟩⟩
  have hhas : ∀ a b, (τ.after (syncOps F (A ++ D) w0 Es (if incl then g.mesh else none))).hasEdge a b = σ.hasEdge a b := by
    intro a b
    unfold Spec.hasEdge
    obtain ⟨f, hf, _⟩ := hedge (EdgeKey.of a b)
    rw [Bool.eq_iff_iff, OMap.contains_eq_true, OMap.contains_eq_true, hf]
    cases σ.edges.find? (EdgeKey.of a b) <;> simp
  refine ⟨_, h', _, outs, hwr F W V incl, ?_, s1, hrun, ⟨?_, ?_, ?_, ?_⟩, ?_, ?_, ?_, ?_⟩
  · have hnf : ∀ e ∈ A ++ D, e.2.attrs.Typed ∧ (factory W.names R').find? (W.typeId e.2.attrs.cls) = some e.2.attrs.cls := by
      rintro ⟨n, i⟩ he
      have hobs := (obs n i).1 he
      obtain ⟨name, n1, n2⟩ := hu.nodes n i hobs
      exact ⟨hs.typed n i hobs, by rw [C24_type_tables_portable W R' hu.nodesOnce hu.nodesFew name _ n1, n2]⟩
    have hef : (factory V.names Q).find? (V.typeId .base) = some .base := by
      obtain ⟨name, n1, n2⟩ := hu.edges
      rw [C24_type_tables_portable V Q hu.edgesOnce hu.edgesFew name _ n1, n2]
    refine ⟨Rd.RT.updateGraph hv hnf hef (hw0 ▸ hrun), _, Rd.body_eq .., fun hm => ?_⟩
    rw [hm] at hrun
    exact Rd.RT.updateCore hv hnf hef (hw0 ▸ hrun)
  · rw [show h'.layerIds = _ from hr'.layerIds, s6, ← hlayh, hl]
  · intro n
    rw [hr'.nodeObs hw', hg.nodeObs hwg, hnodes]
  · intro a b
    rw [hr'.edgeObs hw', hg.edgeObs hwg]
    unfold Spec.edge?
    obtain ⟨f, hf, hf'⟩ := hedge (EdgeKey.of a b)
    rw [hf]
    cases hk : σ.edges.find? (EdgeKey.of a b) with
    | none => rfl
    | some e => exact congrArg some (hf' e hk).1
  · intro n
    have hk : ∀ n, ((τ.after (syncOps F (A ++ D) w0 Es (if incl then g.mesh else none))).nodes.find? n).map NodeInfo.key = (σ.nodes.find? n).map NodeInfo.key := by
      intro n
      rw [hnodes]
      cases σ.nodes.find? n <;> rfl
    rw [hr'.adjObs hw', hg.adjObs hwg, hnodes]
    cases hn : σ.nodes.find? n with
    | none => rfl
    | some i =>
      simp only [Option.map_some, Spec.parents, Spec.siblings, Spec.children, nbrs_congr hk hhas]
      rfl
  · intro a b e he
    rw [hg.edgeObs hwg] at he
    obtain ⟨f, hf, hf'⟩ := hedge (EdgeKey.of a b)
    obtain ⟨f1, f2, _⟩ := hf' e he
    refine ⟨f e, ?_, f1, ?_⟩
    · rw [hr'.edgeObs hw']
      unfold Spec.edge?
      rw [hf, show σ.edges.find? (EdgeKey.of a b) = some e from he]
      rfl
    · intro o ho'
      rw [hh.edgeObs hwh] at ho'
      exact f2 o ho'
  · intro hempty a b
    have hnone : ∀ n, τ.nodes.find? n = none := fun n => by rw [← hh.nodeObs hwh]; exact hempty n
    have hw00 : w0 = [] := by
      rw [List.eq_nil_iff_forall_not_mem]
      intro m hm
      obtain ⟨i, hi⟩ := OMap.contains_eq_true.1 ((hrm m).1 hm).1
      rw [hnone] at hi
      cases hi
    have hnoe : ∀ k, τ.edges.find? k = none := by
      intro k
      cases hk : τ.edges.find? k with
      | none => rfl
      | some e =>
        obtain ⟨i, hi⟩ := OMap.contains_eq_true.1 (hwh.edge k e hk).2.2.1
        rw [hnone] at hi
        cases hi
    rw [hr'.edgeObs hw', hg.edgeObs hwg]
    unfold Spec.edge?
    obtain ⟨f, hf, hf'⟩ := hedge (EdgeKey.of a b)
    rw [hf]
    cases hk : σ.edges.find? (EdgeKey.of a b) with
    | none => rfl
    | some e => exact congrArg some ((hf' e hk).2.2 hnoe hw00)
  · rw [show h'.mesh = _ from hr'.mesh, s7, ← (show h.mesh = _ from hh.mesh)]
    cases (if incl = true then g.mesh else none) <;> rfl
  · intro hempty op hop
    have hw00 : w0 = [] := by
      rw [List.eq_nil_iff_forall_not_mem]
      intro m hm
      obtain ⟨i, hi⟩ := OMap.contains_eq_true.1 ((hrm m).1 hm).1
      rw [← hh.nodeObs hwh, hempty] at hi
      cases hi
    subst hw00
    simp only [syncOps, List.mem_append, List.mem_map, List.mem_cons, List.not_mem_nil] at hop
    rcases hop with ⟨e, _, rfl⟩ | ⟨e, h1, _⟩ | rfl | ⟨e, _, rfl⟩ | rfl | hm
    · rfl
    · cases h1
    · rfl
    · rfl
    · rfl
    · revert hm
      cases (if incl = true then g.mesh else none) with
      | none => intro hm; cases hm
      | some m => intro hm; cases hm with
        | head => rfl
        | tail _ hm => cases hm

theorem mirrors_current {h g : Graph} : h.MirrorsAs Fmt.current g ↔ h.Mirrors g :=
  ⟨fun ⟨a, b, c, d⟩ => ⟨a, b, c, d⟩, fun ⟨a, b, c, d⟩ => ⟨a, b, c, d⟩⟩

/-- the same for the current format -/
theorem mirror {g h : Graph} {σ τ : Spec} (hg : R g σ) (hwg : SWF σ) (hh : R h τ) (hwh : SWF τ) (hl : h.layerIds = g.layerIds)
    (hs : g.Storable) (ha : h.Accepts g) {W R' : Registry NodeClass} {V Q : Registry EdgeClass} (hu : g.Understood W R' V Q)
    {order : List NodeId → List NodeId} (ho : ∀ l, (order l).Perm l) {incl : Bool} {E : Env} (hv : E.version = FileHeader.current.version) :
    ∃ (w : Wr) (h' : Graph) (ops : List Op) (outs : List Out),
      g.write W V incl = Wr.seq (Wr.vec Wr.u64 g.layerIds) w ∧ Rd.RT E w (Rd.updateGraph R' Q order h) h' ∧
      Op.okAll τ ops = true ∧ h.run ops = .ok (h', outs) ∧ h'.Mirrors g ∧
      (∀ a b e, g.edgeObs a b = some e → ∃ e', h'.edgeObs a b = some e' ∧ e'.attrs = e.attrs ∧
        (∀ o, h.edgeObs a b = some o → e'.src = o.src ∧ e'.tgt = o.tgt)) ∧
      ((∀ n, h.nodeObs n = none) → ∀ a b, h'.edgeObs a b = g.edgeObs a b) ∧
      h'.mesh = (match (if incl then g.mesh else none) with | none => h.mesh | some m => some m) := by
  obtain ⟨w, h', ops, outs, m1, m2, m3, m4, m5, m6, m7, m8, _⟩ := mirrorAs hg hwg hh hwh hl hs ha hu ho (incl := incl) (Fmt.reads_current hv)
  exact ⟨w, h', ops, outs, by rw [← Graph.writeAs_current]; exact m1, m2.1, m3, m4, mirrors_current.1 m5, m6, m7, m8⟩

/-- Reading what was written for `g` in some format. -/
theorem readAs {ids : List LayerId} {ops : List Op} {g : Graph} (hg : Reached ids ops g) (hs : g.Storable) (hne : g.layerIds ≠ [])
    {W R' : Registry NodeClass} {V Q : Registry EdgeClass} (hu : g.Understood W R' V Q)
    {order : List NodeId → List NodeId} (ho : ∀ l, (order l).Perm l) {includeMesh : Bool} {bs pre post : List UInt8} {E : Env} {F : Fmt}
    (hv : F.Reads E) (hw : g.writeAs F W V includeMesh = .ok bs) (hb : E.buf = pre ++ bs ++ post) :
    ∃ h ops', Rd.readGraph R' Q order E pre.length = .ok (h, pre.length + bs.length) ∧ Reached g.layerIds ops' h ∧ h.MirrorsAs F g ∧
      (∀ a b, h.edgeObs a b = g.edgeObs a b) ∧ h.mesh = (if includeMesh then g.mesh else none) ∧ ∀ op ∈ ops', op.adds = true := by
  obtain ⟨rg, wg⟩ := hg.rep
  obtain ⟨h0, e0, r0⟩ := R.create hne
  have w0 := SWF.empty g.layerIds
  have hempty : ∀ n, h0.nodeObs n = none := fun n => by rw [r0.nodeObs w0]; rfl
  have hacc : h0.Accepts g := by
    constructor
    · intro n i j _ hj; rw [hempty] at hj; cases hj
    · intro n m i j _ hj; rw [hempty] at hj; cases hj
    · intro n m kn km he
      rw [r0.hasEdge w0] at he
      cases he
  obtain ⟨w, h', ops1, outs, m1, m2, m3, m4, m5, m6, m7, m8, m9⟩ :=
    GraphIO.mirrorAs rg wg r0 w0 (show h0.layerIds = _ from r0.layerIds) hs hacc hu ho (incl := includeMesh) hv
  refine ⟨h', ops1, ?_, ⟨hne, m3, outs, ?_⟩, m5, m7 hempty, ?_, m9 hempty⟩
  · have : Rd.RT E (g.writeAs F W V includeMesh) (Rd.readGraph R' Q order) h' := by
      rw [m1]
      unfold Rd.readGraph
      refine Rd.RT.bind (Rd.RT.vec _ (fun a _ => Rd.RT.u64 a)) ?_
      exact Rd.RT.skip (Rd.lift_ok e0) m2.1
    exact this bs pre post hw hb
  · simp only [Graph.exec, e0, Res.bind_ok, m4]
  · rw [m8, show h0.mesh = none from r0.mesh]
    cases (if includeMesh = true then g.mesh else none) <;> rfl

end GraphIO
end Verif
