import Verif.Lemmas.Writable
import Verif.Lemmas.Json
/-! # What is written depends on the content of a graph only -/

namespace Verif

/-! ## Lists over ordered maps -/

section
variable {K V U β : Type} [DecidableEq K] [OKey K]

omit [DecidableEq K] [OKey K] in
private theorem flatMap_filter (l : List (K × List β)) : (l.filter (fun e => !e.2.isEmpty)).flatMap Prod.snd = l.flatMap Prod.snd := by
  induction l with
  | nil => rfl
  | cons e l ih =>
    obtain ⟨k, x⟩ := e
    cases x with
    | nil => simpa using ih
    | cons a x => simp [ih]

/-- Maps with the same contribution under every key have the same contributions in sequence; a key without contribution does not matter. -/
theorem OMap.flatMap_congr (m : OMap K V) (m' : OMap K U) (f : V → List β) (f' : U → List β)
    (h : ∀ k, ((m.find? k).map f).getD [] = ((m'.find? k).map f').getD []) :
    m.toList.flatMap (fun e => f e.2) = m'.toList.flatMap (fun e => f' e.2) := by
  have e1 : ∀ {W : Type} (m : OMap K W) (f : W → List β),
      m.toList.flatMap (fun e => f e.2) = ((m.map (fun _ v => f v)).filter (fun _ l => !l.isEmpty)).toList.flatMap Prod.snd := by
    intro W m f
    show _ = ((m.map (fun _ v => f v)).toList.filter (fun e => !e.2.isEmpty)).flatMap Prod.snd
    rw [flatMap_filter]
    show _ = (m.toList.map (fun e => (e.1, f e.2))).flatMap Prod.snd
    rw [List.flatMap_map]
  rw [e1 m f, e1 m' f']
  refine congrArg (fun x : OMap K (List β) => x.toList.flatMap Prod.snd) (OMap.ext fun k => ?_)
  rw [OMap.find?_filter, OMap.find?_filter, OMap.find?_map, OMap.find?_map]
  have hk := h k
  cases h1 : m.find? k with
  | none =>
    cases h2 : m'.find? k with
    | none => rfl
    | some v' =>
      rw [h1, h2] at hk
      simp only [Option.map_none, Option.getD_none, Option.map_some, Option.getD_some] at hk
      simp [← hk, Option.filter]
  | some v =>
    cases h2 : m'.find? k with
    | none =>
      rw [h1, h2] at hk
      simp only [Option.map_none, Option.getD_none, Option.map_some, Option.getD_some] at hk
      simp [hk]
    | some v' =>
      rw [h1, h2] at hk
      simp only [Option.map_some, Option.getD_some] at hk
      simp [hk]

/-- slots with the same contents -/
theorem slots_congr {α : Type} (w : V → α) : ∀ (l l' : List (Option V)),
    (∀ j : Nat, (l[j]?.join).map w = (l'[j]?.join).map w) → (l.filterMap id).map w = (l'.filterMap id).map w
  | [], [], _ => rfl
  | [], b :: l', h => by
    have h0 := h 0
    have := slots_congr w [] l' (fun j => by simpa using h (j + 1))
    cases b with
    | none => simpa using this
    | some b => simp at h0
  | a :: l, [], h => by
    have h0 := h 0
    have := slots_congr w l [] (fun j => by simpa using h (j + 1))
    cases a with
    | none => simpa using this
    | some a => simp at h0
  | a :: l, b :: l', h => by
    have h0 := h 0
    have := slots_congr w l l' (fun j => by simpa using h (j + 1))
    cases a with
    | none =>
      cases b with
      | none => simpa using this
      | some b => simp at h0
    | some a =>
      cases b with
      | none => simp at h0
      | some b =>
        simp at h0
        simp [h0, this]
end

/-! ## Graphs -/

section
variable {g h : Graph} {σ τ : Spec} {β : Type}

/-- Graphs whose layers contribute the same, layer by layer. -/
theorem Graph.dyn_congr (g h : Graph) (f : DynLayer → List β)
    (hk : ∀ l p, ((g.dynLayer? l p).map f).getD [] = ((h.dynLayer? l p).map f).getD []) : g.dynList.flatMap f = h.dynList.flatMap f := by
  have e : ∀ g : Graph, g.dynList.flatMap f = g.dyns.toList.flatMap (fun e => e.2.toList.flatMap (fun e' => f e'.2)) := by
    intro g
    simp only [Graph.dynList, List.flatMap_assoc, List.flatMap_map]
  rw [e g, e h]
  refine OMap.flatMap_congr g.dyns h.dyns (fun m => m.toList.flatMap (fun e' => f e'.2)) (fun m => m.toList.flatMap (fun e' => f e'.2)) fun l => ?_
  have c : ∀ o : Option (OMap Prefix DynLayer), (o.map (fun m => m.toList.flatMap (fun e' => f e'.2))).getD [] =
      (o.getD ∅).toList.flatMap (fun e' => f e'.2) := by
    intro o; cases o <;> rfl
  rw [c, c]
  refine OMap.flatMap_congr _ _ f f fun p => ?_
  have d : ∀ g : Graph, ((g.dyns.find? l).getD ∅).find? p = g.dynLayer? l p := by
    intro g
    unfold Graph.dynLayer?
    cases g.dyns.find? l <;> rfl
  rw [d, d]
  exact hk l p

/-- The writer `w` makes the same of the nodes of `σ` and `τ`. -/
structure SameNodes (σ τ : Spec) {α : Type} (w : Node → α) : Prop where
  key : ∀ n, σ.key? n = τ.key? n
  rec_ : ∀ n i j, σ.nodes.find? n = some i → τ.nodes.find? n = some j → w (σ.mkNode n i) = w (τ.mkNode n j)

theorem SameNodes.nodeRec {α : Type} {w : Node → α} (hs : SameNodes σ τ w) (k : LayerKey) (n : NodeId) :
    (σ.nodeRec k n).map w = (τ.nodeRec k n).map w := by
  have hk := hs.key n
  unfold Spec.nodeRec
  unfold Spec.key? at hk
  cases h1 : σ.nodes.find? n with
  | none =>
    rw [h1] at hk
    cases h2 : τ.nodes.find? n with
    | none => rfl
    | some j => rw [h2] at hk; cases hk
  | some i =>
    cases h2 : τ.nodes.find? n with
    | none => rw [h1, h2] at hk; cases hk
    | some j =>
      rw [h1, h2] at hk
      have hk : i.key = j.key := Option.some.inj hk
      have := hs.rec_ n i j h1 h2
      simp only [Option.bind_some, hk]
      split
      · simp [this]
      · rfl

theorem R.static_congr (hg : R g σ) (hh : R h τ) {α : Type} {w : Node → α} (hs : SameNodes σ τ w) : g.staticNodes.map w = h.staticNodes.map w := by
  simp only [Graph.staticNodes, List.map_flatMap, List.map_map]
  refine OMap.flatMap_congr g.layers h.layers (fun y => y.nodes.toList.map (w ∘ Prod.snd)) (fun y => y.nodes.toList.map (w ∘ Prod.snd)) fun l => ?_
  have c : ∀ (g : Graph), ((g.layers.find? l).map (fun y : Layer => y.nodes.toList.map (w ∘ Prod.snd))).getD [] =
      (((g.layers.find? l).map Layer.nodes).getD ∅).toList.flatMap (fun e => [w e.2]) := by
    intro g
    cases g.layers.find? l with
    | none => rfl
    | some y => simp [List.map_eq_flatMap]
  rw [c, c]
  refine OMap.flatMap_congr _ _ (fun x => [w x]) (fun x => [w x]) fun n => ?_
  have d : ∀ (g : Graph), (((g.layers.find? l).map Layer.nodes).getD ∅).find? n = g.view.node (.static l) n := by
    intro g
    simp only [Graph.view, Graph.layerAt?]
    cases g.layers.find? l <;> rfl
  have e : ∀ o : Option Node, (o.map (fun x => [w x])).getD [] = ((o.map w).map (fun x => [x])).getD [] := by
    intro o; cases o <;> rfl
  rw [d, d, RV.node hg, RV.node hh, e, e, hs.nodeRec]

theorem R.dynSlot (hg : R g σ) {l : LayerId} {p : Prefix} {d : DynLayer} (hd : g.dynLayer? l p = some d) {j : Nat} (hj : j < 2 ^ 32) :
    d.nodes[j]?.join = σ.nodeRec (.dyn l p) (p.makeId j) := by
  have hb : g.layerAt? (.dyn l p) = some (.dyn d) := by simp [Graph.layerAt?, hd]
  have hpre : d.pre = p := (RV.info hg (.dyn l p) (BaseLayer.info (.dyn d)) (by simp [Graph.view, hb])).2.1
  rw [← RV.node hg, Graph.view_node_of_layerAt? hb]
  simp [BaseLayer.nd, hpre, Prefix.isMatch_makeId p hj, Prefix.index_makeId p p hj]

theorem R.dynNodes_congr (hg : R g σ) (hh : R h τ) (hl : ∀ d ∈ g.dynList, d.nodes.length < 2 ^ 32) (hl' : ∀ d ∈ h.dynList, d.nodes.length < 2 ^ 32)
    {α : Type} {w : Node → α} (hs : SameNodes σ τ w) : g.dynNodes.map w = h.dynNodes.map w := by
  have e : ∀ g : Graph, g.dynNodes.map w = g.dynList.flatMap (fun d => (d.nodes.filterMap id).map w) := by
    intro g
    simp only [Graph.dynNodes, Graph.dynSlots, List.filterMap_flatMap, List.map_flatMap]
  rw [e, e]
  refine Graph.dyn_congr g h _ fun l p => ?_
  have c : ∀ o : Option DynLayer, (o.map (fun d => (d.nodes.filterMap id).map w)).getD [] = (((o.map DynLayer.nodes).getD []).filterMap id).map w := by
    intro o; cases o <;> rfl
  rw [c, c]
  refine slots_congr w _ _ fun j => ?_
  have s : ∀ {g : Graph} {σ : Spec}, R g σ → (∀ d ∈ g.dynList, d.nodes.length < 2 ^ 32) →
      (((g.dynLayer? l p).map DynLayer.nodes).getD [])[j]?.join = if j < 2 ^ 32 then σ.nodeRec (.dyn l p) (p.makeId j) else none := by
    intro g σ hg hl
    cases hd : g.dynLayer? l p with
    | none =>
      have : g.view.node (.dyn l p) (p.makeId j) = none := by simp [Graph.view, Graph.layerAt?, hd]
      rw [RV.node hg] at this
      rw [this]
      simp
    | some d =>
      simp only [Option.map_some, Option.getD_some]
      by_cases hj : j < 2 ^ 32
      · rw [if_pos hj]; exact hg.dynSlot hd hj
      · rw [if_neg hj]
        have hmem : d ∈ g.dynList := by
          simp only [Graph.dynLayer?, Option.bind_eq_some_iff] at hd
          obtain ⟨m, hm, hd⟩ := hd
          simp only [Graph.dynList, List.mem_flatMap, List.mem_map]
          exact ⟨(l, m), OMap.mem_toList.2 hm, (p, d), OMap.mem_toList.2 hd, rfl⟩
        have := hl d hmem
        rw [List.getElem?_eq_none (by omega)]
        rfl
  rw [s hg hl, s hh hl']
  split
  · exact hs.nodeRec _ _
  · rfl

/-! ### Edges -/

theorem edgeRec_congr (hk : ∀ n, σ.key? n = τ.key? n) (he : ∀ k, σ.edges.find? k = τ.edges.find? k) (c : Place) (k : EdgeKey) :
    σ.edgeRec c k = τ.edgeRec c k := by
  unfold Spec.edgeRec Spec.placeOf
  rw [he k, hk, hk]

theorem R.ec_congr (hg : R g σ) (hh : R h τ) (hk : ∀ n, σ.key? n = τ.key? n) (he : ∀ k, σ.edges.find? k = τ.edges.find? k) (c : Place) :
    (g.view.ec c).edges = (h.view.ec c).edges :=
  OMap.ext fun k => by rw [(RV.ec hg c).edges, (RV.ec hh c).edges, edgeRec_congr hk he]

theorem R.staticEdges_congr (hg : R g σ) (hh : R h τ) (hk : ∀ n, σ.key? n = τ.key? n) (he : ∀ k, σ.edges.find? k = τ.edges.find? k) :
    g.layers.toList.flatMap (fun e => e.2.edges.edges.toList.map Prod.snd) = h.layers.toList.flatMap (fun e => e.2.edges.edges.toList.map Prod.snd) := by
  refine OMap.flatMap_congr g.layers h.layers (fun y => y.edges.edges.toList.map Prod.snd) (fun y => y.edges.edges.toList.map Prod.snd) fun l => ?_
  have d : ∀ (g : Graph), ((g.layers.find? l).map (fun y : Layer => y.edges.edges.toList.map Prod.snd)).getD [] =
      (g.view.ec (.within (.static l))).edges.toList.map Prod.snd := by
    intro g
    simp only [Graph.view, Graph.ecAt?, Graph.layerAt?]
    cases g.layers.find? l <;> rfl
  rw [d, d, hg.ec_congr hh hk he]

theorem R.dynEdges_congr (hg : R g σ) (hh : R h τ) (hk : ∀ n, σ.key? n = τ.key? n) (he : ∀ k, σ.edges.find? k = τ.edges.find? k) :
    g.dynList.flatMap (fun d => d.edges.edges.toList.map Prod.snd) = h.dynList.flatMap (fun d => d.edges.edges.toList.map Prod.snd) := by
  refine Graph.dyn_congr g h _ fun l p => ?_
  have d : ∀ (g : Graph), ((g.dynLayer? l p).map (fun y : DynLayer => y.edges.edges.toList.map Prod.snd)).getD [] =
      (g.view.ec (.within (.dyn l p))).edges.toList.map Prod.snd := by
    intro g
    simp only [Graph.view, Graph.ecAt?, Graph.layerAt?]
    cases g.dynLayer? l p <;> rfl
  rw [d, d, hg.ec_congr hh hk he]

theorem R.inter_congr (hg : R g σ) (hh : R h τ) (hk : ∀ n, σ.key? n = τ.key? n) (he : ∀ k, σ.edges.find? k = τ.edges.find? k) :
    g.inter.edges = h.inter.edges ∧ g.dynInter.edges = h.dynInter.edges :=
  ⟨hg.ec_congr hh hk he (.across false), hg.ec_congr hh hk he (.across true)⟩

theorem R.allEdges_congr (hg : R g σ) (hh : R h τ) (hk : ∀ n, σ.key? n = τ.key? n) (he : ∀ k, σ.edges.find? k = τ.edges.find? k) :
    g.allEdges = h.allEdges ∧ g.jsonEdges = h.jsonEdges := by
  unfold Graph.allEdges Graph.jsonEdges
  rw [hg.staticEdges_congr hh hk he, hg.dynEdges_congr hh hk he, (hg.inter_congr hh hk he).1, (hg.inter_congr hh hk he).2]
  exact ⟨rfl, rfl⟩

theorem Wr.all_mapped {α γ : Type} (f : α → Wr) (u : γ → α) (l : List γ) : Wr.all f (l.map u) = Wr.all (fun x => f (u x)) l := by
  induction l with
  | nil => rfl
  | cons a l ih => simp only [List.map_cons, Wr.all, ih]
theorem Wr.all_same {α : Type} (f : α → Wr) (l : List α) : Wr.all f l = Wr.all (fun x : Wr => x) (l.map f) := by rw [Wr.all_mapped]
theorem Wr.dynArr_same {α : Type} {f : α → Wr} {l l' : List α} (h : l.map f = l'.map f) : Wr.dynArr f l = Wr.dynArr f l' := by
  unfold Wr.dynArr
  rw [Wr.all_same f l, Wr.all_same f l', h]

theorem allRes_congr {α γ : Type} {f : α → Res γ} : ∀ {l l' : List α}, l.map f = l'.map f → allRes f l = allRes f l'
  | [], [], _ => rfl
  | [], _ :: _, h => by simp at h
  | _ :: _, [], h => by simp at h
  | a :: l, b :: l', h => by
    simp only [List.map_cons, List.cons.injEq] at h
    simp only [allRes, h.1, allRes_congr h.2]

/-- Same contents up to what is written of the nodes, no gaps: the same bytes. -/
theorem R.write_congr (hg : R g σ) (hh : R h τ) (hl : ∀ d ∈ g.dynList, d.nodes.length < 2 ^ 32) (hl' : ∀ d ∈ h.dynList, d.nodes.length < 2 ^ 32)
    (hn : ¬ g.Gap) (hn' : ¬ h.Gap) {W : Registry NodeClass} (hs : SameNodes σ τ (fun x => Wr.node W (some x)))
    (he : ∀ k, σ.edges.find? k = τ.edges.find? k) (hi : g.layerIds = h.layerIds) (V : Registry EdgeClass) (incl : Bool)
    (hm : incl = true → g.mesh = h.mesh) : g.write W V incl = h.write W V incl := by
  have h1 : Wr.dynArr (Wr.node W) (g.staticNodes.map some) = Wr.dynArr (Wr.node W) (h.staticNodes.map some) := by
    refine Wr.dynArr_same ?_
    rw [List.map_map, List.map_map]
    exact hg.static_congr hh hs
  have h2 : Wr.dynArr (Wr.node W) g.dynSlots = Wr.dynArr (Wr.node W) h.dynSlots := by
    rw [g.dynSlots_eq hn, h.dynSlots_eq hn']
    refine Wr.dynArr_same ?_
    rw [List.map_map, List.map_map]
    exact hg.dynNodes_congr hh hl hl' hs
  have h3 : (if incl then g.mesh else none) = (if incl then h.mesh else none) := by
    cases incl with
    | false => rfl
    | true => exact hm rfl
  unfold Graph.write
  rw [h1, h2, h3, (hg.allEdges_congr hh hs.key he).1, hi]

/-- Same contents up to what is written of the nodes: the same document. -/
theorem R.writeJson_congr (hg : R g σ) (hh : R h τ) (hl : ∀ d ∈ g.dynList, d.nodes.length < 2 ^ 32) (hl' : ∀ d ∈ h.dynList, d.nodes.length < 2 ^ 32)
    (F : JArith) {W : Registry NodeClass} (hs : SameNodes σ τ (F.node W))
    (he : ∀ k, σ.edges.find? k = τ.edges.find? k) (hi : g.layerIds = h.layerIds) (V : Registry EdgeClass) (incl : Bool)
    (hm : incl = true → g.mesh = h.mesh) : g.writeJson F W V incl = h.writeJson F W V incl := by
  have h1 : allRes (F.node W) g.jsonNodes = allRes (F.node W) h.jsonNodes := by
    refine allRes_congr ?_
    show (g.staticNodes ++ g.dynNodes).map _ = (h.staticNodes ++ h.dynNodes).map _
    rw [List.map_append, List.map_append, hg.static_congr hh hs, hg.dynNodes_congr hh hl hl' hs]
  have h3 : (if incl then g.mesh else none) = (if incl then h.mesh else none) := by
    cases incl with
    | false => rfl
    | true => exact hm rfl
  unfold Graph.writeJson
  rw [h1, h3, (hg.allEdges_congr hh hs.key he).2, hi]
end
end Verif
