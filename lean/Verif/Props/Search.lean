import Verif.Lemmas.SearchLayer
import Verif.Props.Sample
import Verif.Props.Layer
/-!
# C35–C38: breadth-first searches and components on a layer

All statements are about consistent layers (`Layer.Consistent`: edges join different nodes of the layer, siblings mirror edges);
`C35_layers_are_consistent` shows that the static layers of reached graphs are.
-/

namespace Verif
open Search

variable {l : Layer}

/-- Static layers of a graph reached by a well-behaved history are consistent, as long as their nodes have no edges into dynamic layers
with the same layer id. -/
theorem C35_layers_are_consistent {ids : List LayerId} {ops : List Op} {g : Graph} (h : Reached ids ops g) {i : LayerId} {l : Layer}
    (hl : g.layerFromKey (.static i) = .ok (.static l)) (hc : ∀ n, l.hasNode n = true → g.CrossFree n) : l.Consistent :=
  h.layer_consistent hl hc

/-- **C35.** A breadth-first search ends within as many iterations as the layer has nodes, without fault; it visits exactly the nodes
that can be reached from the roots, each once, in order of increasing distance. A missing root makes it visit nothing. -/
theorem C35_bfs (h : l.Consistent) (fuel : Nat) (hf : l.nodes.size ≤ fuel) (roots : List NodeId) (hr : roots.Nodup) :
    ((∀ r ∈ roots, l.hasNode r = true) → ∃ tr, bfsRoots l.search fuel roots = some (.ok tr) ∧ tr.Nodup ∧
      (∀ n, n ∈ tr ↔ Reach l.Linked roots n) ∧ ByDistance l.Linked roots tr) ∧
    ((∃ r ∈ roots, l.hasNode r = false) → bfsRoots l.search fuel roots = some (.ok [])) ∧
    (∀ r, bfs l.search fuel r = bfsRoots l.search fuel [r]) := by
  refine ⟨?_, ?_, ?_⟩
  · intro hall
    obtain ⟨s, tr, e, hres, _⟩ := seen_total (body := seenBody l.search) (adj := l.adj) (S0 := fun _ => false) (W := fun _ => True)
      (V := l.nodes.keys) hr (fun r hr' => Layer.mem_nodes.2 (hall r hr')) h.closed (by
        rintro n ⟨r, hr', k, hw⟩ s d c ha
        have hn : n ∈ l.nodes.keys := Walk.closed (S := (· ∈ l.nodes.keys)) (fun a b ha hb => h.closed a ha b hb) hw (Layer.mem_nodes.2 (hall r hr'))
        exact seenBody_spec (h.neighbors hn) (fun _ _ => rfl) s d c ha)
      (s0 := roots.foldl (fun s r => s.add r) ∅) (by
        intro x _
        have key : ∀ (L : List NodeId) (s : OSet NodeId), (L.foldl (fun s r => s.add r) s).contains x = (s.contains x || decide (x ∈ L)) := by
          intro L
          induction L with
          | nil => intro s; simp
          | cons a L ih =>
            intro s
            rw [List.foldl_cons, ih, OMap.contains_add]
            by_cases hax : a = x
            · subst hax; simp
            · have : ¬ x = a := fun hh => hax hh.symm
              simp [hax, this]
        rw [key]; rfl) fuel (by rw [OMap.length_keys]; exact hf)
    refine ⟨tr, ?_, hres.nodup, ?_, ?_⟩
    · unfold bfsRoots
      rw [if_pos (show roots.all l.search.contains = true from List.all_eq_true.2 hall), e]; rfl
    · intro n; rw [hres.mem, h.linked_eq]; simp [Reach]
    · rw [← h.linked_eq]; exact hres.order
  · rintro ⟨r, hr', hn⟩
    unfold bfsRoots
    rw [if_neg]
    intro hall
    have := List.all_eq_true.1 hall r hr'
    change l.hasNode r = true at this
    rw [hn] at this; cases this
  · intro r
    unfold bfs bfsRoots
    cases hc : l.search.contains r with
    | true => simp [hc]
    | false => simp [hc]

example : Sample.layer.Consistent ∧ bfs Sample.layer.search 5 1 = some (.ok [1, 5, 8, 2, 6]) ∧
    bfsRoots Sample.layer.search 5 [8, 6] = some (.ok [8, 6, 1, 5, 2]) ∧ bfs Sample.layer.search 5 77 = some (.ok []) :=
  ⟨Sample.layer_consistent, by decide +kernel, by decide +kernel, by decide +kernel⟩

/-- **C36.** A search limited to `limit` hops ends without fault and visits exactly the nodes within that many hops of the roots, each
once, in order of increasing distance; `getNeighborhood` returns exactly those nodes. -/
theorem C36_bfs_limit (h : l.Consistent) (fuel : Nat) (hf : l.nodes.size ≤ fuel) (roots : List NodeId) (hr : roots.Nodup) (limit : Nat) :
    ((∀ r ∈ roots, l.hasNode r = true) → ∃ tr, bfsRootsLimit l.search fuel roots limit = some (.ok tr) ∧ tr.Nodup ∧
      (∀ n, n ∈ tr ↔ Within l.Linked roots limit n) ∧ ByDistance l.Linked roots tr) ∧
    ((∃ r ∈ roots, l.hasNode r = false) → bfsRootsLimit l.search fuel roots limit = some (.ok [])) ∧
    (∀ r, bfsLimit l.search fuel r limit = bfsRootsLimit l.search fuel [r] limit) ∧
    ((∀ r ∈ roots, l.hasNode r = true) → ∃ s, l.getNeighborhoodOf fuel roots limit = some (.ok s) ∧
      ∀ n, s.contains n = true ↔ Within l.Linked roots limit n) ∧
    (∀ r, l.getNeighborhood fuel r limit = l.getNeighborhoodOf fuel [r] limit) := by
  have main : (∀ r ∈ roots, l.hasNode r = true) → ∃ tr, bfsRootsLimit l.search fuel roots limit = some (.ok tr) ∧ tr.Nodup ∧
      (∀ n, n ∈ tr ↔ Within l.Linked roots limit n) ∧ ByDistance l.Linked roots tr := by
    intro hall
    obtain ⟨d, tr, e, hres⟩ := cost_total (g := l.search) (adj := l.adj) (limit := limit) (V := l.nodes.keys) hr
      (fun r hr' => Layer.mem_nodes.2 (hall r hr')) h.closed (fun a ha => h.neighbors ha) fuel (by rw [OMap.length_keys]; exact hf)
    refine ⟨tr, ?_, hres.nodup, ?_, ?_⟩
    · unfold bfsRootsLimit
      rw [if_pos (show roots.all l.search.contains = true from List.all_eq_true.2 hall), e]; rfl
    · intro n; rw [hres.mem, h.linked_eq]; simp [Within]
    · rw [← h.linked_eq]; exact hres.order
  have single : ∀ r, bfsLimit l.search fuel r limit = bfsRootsLimit l.search fuel [r] limit := by
    intro r
    unfold bfsLimit bfsRootsLimit
    cases hc : l.search.contains r with
    | true => simp [hc]
    | false => simp [hc]
  have memFold : ∀ (L : List NodeId) (s : OSet NodeId) x, (L.foldl (fun s r => s.add r) s).contains x = true ↔ s.contains x = true ∨ x ∈ L := by
    intro L
    induction L with
    | nil => intro s x; simp
    | cons a L ih =>
      intro s x
      rw [List.foldl_cons, ih, OMap.contains_add]
      by_cases hax : a = x
      · subst hax; simp
      · have : ¬ x = a := fun hh => hax hh.symm
        simp [hax, this]
  refine ⟨main, ?_, single, ?_, ?_⟩
  · rintro ⟨r, hr', hn⟩
    unfold bfsRootsLimit
    rw [if_neg]
    intro hall
    have := List.all_eq_true.1 hall r hr'
    change l.hasNode r = true at this
    rw [hn] at this; cases this
  · intro hall
    obtain ⟨tr, e, _, hm, _⟩ := main hall
    refine ⟨tr.foldl (fun s m => s.add m) ∅, ?_, ?_⟩
    · unfold Layer.getNeighborhoodOf; rw [e]
    · intro n; rw [memFold, hm]; simp [OMap.contains]
  · intro r
    unfold Layer.getNeighborhood Layer.getNeighborhoodOf
    rw [single]

example : Sample.layer.Consistent ∧ bfsLimit Sample.layer.search 5 8 2 = some (.ok [8, 1, 5]) ∧
    bfsRootsLimit Sample.layer.search 5 [8, 6] 1 = some (.ok [8, 6, 1, 5]) :=
  ⟨Sample.layer_consistent, by decide +kernel, by decide +kernel⟩

/-- What a list of components must be, for an edge relation and the accepted roots: duplicate-free lists, each the set of nodes
reachable from one of the roots, no two of which share a node, and every root in one of them. -/
structure IsComponents (adj : NodeId → NodeId → Prop) (root : NodeId → Prop) (comps : List (List NodeId)) : Prop where
  cls : ∀ c ∈ comps, c.Nodup ∧ ∃ r, root r ∧ ∀ n, n ∈ c ↔ Reach adj [r] n
  disjoint : comps.Pairwise (fun c c' => ∀ x ∈ c, x ∉ c')
  cover : ∀ r, root r → ∃ c ∈ comps, r ∈ c

/-- **C37.** For every order in which the roots are enumerated, `getConnectedComponents` returns the connected components that contain a
root (roots missing from the layer are ignored). -/
theorem C37_components (h : l.Consistent) (fuel : Nat) (hf : l.nodes.size ≤ fuel) (roots : List NodeId) :
    ∃ comps, components l.search fuel roots false = some (.ok comps) ∧
      IsComponents l.Linked (fun r => r ∈ roots ∧ l.hasNode r = true) comps := by
  have hfk : l.nodes.keys.length ≤ fuel := by rw [OMap.length_keys]; exact hf
  have hsym : ∀ a b, True → b ∈ l.adj a → a ∈ l.adj b := by
    intro a b _ hb; rw [h.mem_adj] at *; rw [Layer.hasEdge_comm]; exact hb
  obtain ⟨seen, comps, e, hi, _, hcov⟩ := comp_loop (adj := l.adj) (W := fun _ => True) (R := fun r => r ∈ roots ∧ l.hasNode r = true)
    (key := fun n : NodeId => n) (step := componentStep l.search fuel none) (fun _ _ => trivial) roots
    (by
      rintro ⟨s, c⟩ a ha hh
      unfold componentStep
      cases hc : l.search.contains a with
      | false => simp
      | true =>
        rcases hh with hh | hh
        · exact absurd ⟨ha, hc⟩ hh
        · simp [hh])
    (by
      intro seen comps a ha hinv hR hns
      obtain ⟨seen', tr, e, h1, h2⟩ := comp_step (body := seenBody l.search) (V := l.nodes.keys) h.closed (fun _ _ _ _ => trivial) hsym
        (fun S0 n hn hS s d c hag => seenBody_spec (h.neighbors hn) hS s d c hag) hinv (Layer.mem_nodes.2 hR.2) trivial hR hns
        (fun r hr => ⟨trivial, Layer.mem_nodes.2 hr.2⟩) hfk
      refine ⟨seen', tr, ?_, h1, h2⟩
      have hc : l.search.contains a = true := hR.2
      unfold componentStep
      simp [hc, hns, e]) ∅ [] ⟨by intro x _; simp [OMap.contains], by simp, List.Pairwise.nil⟩
  refine ⟨comps, ?_, ?_, hi.disj, ?_⟩
  · unfold components; simp only [if_neg Bool.false_ne_true]; rw [e]
  · rw [← h.linked_eq]; exact hi.cls
  · intro r hr; exact hcov r hr.1 hr

/-- A layer with two components. -/
def Sample.twoParts : List LOp :=
  Sample.layerOps ++ [.removeEdge 5 1, .emplaceNode 9 none]

def Sample.partsLayer : Layer :=
  match Layer.run { id := 2 } Sample.twoParts with
  | .ok (l, _) => l
  | _ => { id := 2 }

theorem Sample.partsLayer_consistent : Sample.partsLayer.Consistent := by
  obtain ⟨l, e, _, _, _, _, h, _⟩ := C34_layer 2 Sample.twoParts (by decide +kernel)
  have : Layer.run { id := 2 } Sample.twoParts = .ok (Sample.partsLayer, ((LGraph.empty 2).run Sample.twoParts).2) := by
    decide +kernel
  rw [this] at e
  cases e; exact h

example : Sample.partsLayer.Consistent ∧
    components Sample.partsLayer.search 6 [9, 6, 77, 1, 8] false = some (.ok [[9], [6, 5, 2], [1, 8]]) ∧
    components Sample.partsLayer.search 6 [9, 6, 77, 2, 8] true = some (.ok [[9], [6], [2], [8]]) ∧
    filterComponents Sample.partsLayer.search 6 (fun x => x.id != 5) (fun _ => true) = some (.ok [[1, 8], [2], [6], [9]]) :=
  ⟨Sample.partsLayer_consistent, by decide +kernel, by decide +kernel, by decide +kernel⟩

/-- **C37, restricted to the roots.** With `only_root_nodes`, the same holds for the edges between two roots. -/
theorem C37_components_of_roots (h : l.Consistent) (fuel : Nat) (hf : l.nodes.size ≤ fuel) (roots : List NodeId) :
    ∃ comps, components l.search fuel roots true = some (.ok comps) ∧
      IsComponents (fun a b => l.Linked a b ∧ a ∈ roots ∧ b ∈ roots) (fun r => r ∈ roots ∧ l.hasNode r = true) comps := by
  have hfk : l.nodes.keys.length ≤ fuel := by rw [OMap.length_keys]; exact hf
  let V := roots.foldl (fun s r => s.add r) (∅ : OSet NodeId)
  have hV : ∀ x, V.contains x = true ↔ x ∈ roots := by
    have key : ∀ (L : List NodeId) (s : OSet NodeId) x, (L.foldl (fun s r => s.add r) s).contains x = true ↔ s.contains x = true ∨ x ∈ L := by
      intro L
      induction L with
      | nil => intro s x; simp
      | cons a L ih =>
        intro s x
        rw [List.foldl_cons, ih, OMap.contains_add]
        by_cases hax : a = x
        · subst hax; simp
        · have : ¬ x = a := fun hh => hax hh.symm
          simp [hax, this]
    intro x; rw [key]; simp [OMap.contains]
  let adj := fun a => (l.adj a).filter V.contains
  have hmem : ∀ a b, b ∈ adj a ↔ l.hasEdge a b = true ∧ b ∈ roots := by
    intro a b; simp only [adj, List.mem_filter]; rw [h.mem_adj, hV]
  have hsym : ∀ a b, V.contains a = true → b ∈ adj a → a ∈ adj b := by
    intro a b ha hb
    rw [hmem] at *
    exact ⟨by rw [Layer.hasEdge_comm]; exact hb.1, (hV a).1 ha⟩
  have hcl : ∀ a ∈ l.nodes.keys, ∀ b ∈ adj a, b ∈ l.nodes.keys := by
    intro a ha b hb
    exact h.closed a ha b (List.mem_filter.1 hb).1
  have hW : ∀ a ∈ l.nodes.keys, ∀ b ∈ adj a, V.contains b = true := by
    intro a _ b hb; exact (hV b).2 ((hmem a b).1 hb).2
  obtain ⟨seen, comps, e, hi, _, hcov⟩ := comp_loop (adj := adj) (W := fun x => V.contains x = true)
    (R := fun r => r ∈ roots ∧ l.hasNode r = true)
    (key := fun n : NodeId => n) (step := componentStep l.search fuel (some V)) (fun r hr => (hV r).2 hr.1) roots
    (by
      rintro ⟨s, c⟩ a ha hh
      unfold componentStep
      cases hc : l.search.contains a with
      | false => simp
      | true =>
        rcases hh with hh | hh
        · exact absurd ⟨ha, hc⟩ hh
        · simp [hh])
    (by
      intro seen comps a ha hinv hR hns
      obtain ⟨seen', tr, e, h1, h2⟩ := comp_step (body := validBody l.search V) (V := l.nodes.keys) hcl hW hsym
        (fun S0 n hn hS s d c hag => validBody_spec (h.neighbors hn) (fun m hm hv => hS m (List.mem_filter.2 ⟨hm, hv⟩)) s d c hag)
        hinv (Layer.mem_nodes.2 hR.2) ((hV a).2 ha) hR hns (fun r hr => ⟨(hV r).2 hr.1, Layer.mem_nodes.2 hr.2⟩) hfk
      refine ⟨seen', tr, ?_, h1, h2⟩
      have hc : l.search.contains a = true := hR.2
      unfold componentStep
      simp [hc, hns, e]) ∅ [] ⟨by intro x _; simp [OMap.contains], by simp, List.Pairwise.nil⟩
  refine ⟨comps, ?_, ?_, hi.disj, ?_⟩
  · unfold components; simp only [if_true]; rw [e]
  · intro c hc
    obtain ⟨h1, r, hr, h2⟩ := hi.cls c hc
    refine ⟨h1, r, hr, fun n => ?_⟩
    rw [h2]
    have fwd : ∀ {k n}, Walk (fun a b => b ∈ adj a) k r n → Walk (fun a b => l.Linked a b ∧ a ∈ roots ∧ b ∈ roots) k r n ∧ n ∈ roots := by
      intro k n hw
      induction hw with
      | nil => exact ⟨.nil _, hr.1⟩
      | @snoc k _ b c hw e ih =>
        have := (hmem b c).1 e
        have ih := ih hr h2
        exact ⟨.snoc ih.1 ⟨this.1, ih.2, this.2⟩, this.2⟩
    constructor
    · rintro ⟨r0, hr0, k, hw⟩
      rw [List.mem_singleton] at hr0; subst hr0
      exact ⟨r0, by simp, k, (fwd hw).1⟩
    · rintro ⟨r0, hr0, k, hw⟩
      refine ⟨r0, hr0, k, ?_⟩
      clear hr0
      induction hw with
      | nil => exact .nil _
      | snoc _ e ih => exact .snoc ih ((hmem _ _).2 ⟨e.1, e.2.2⟩)
  · intro r hr; exact hcov r hr.1 hr

/-- The node is in the layer and passes the filter. -/
def Layer.ValidNode (l : Layer) (nv : Node → Bool) (n : NodeId) : Prop := ∃ x, l.findNode n = some x ∧ nv x = true
/-- There is an edge and it passes the filter. -/
def Layer.ValidEdge (l : Layer) (ev : Edge → Bool) (a b : NodeId) : Prop := ∃ e, (l.findEdge a b).2 = some e ∧ ev e = true

/-- **C37, with filters.** The filtered `getConnectedComponents` returns the connected components of the graph made of the nodes and
edges that pass the filters. -/
theorem C37_components_filtered (h : l.Consistent) (fuel : Nat) (hf : l.nodes.size ≤ fuel) (nv : Node → Bool) (ev : Edge → Bool) :
    ∃ comps, filterComponents l.search fuel nv ev = some (.ok comps) ∧
      IsComponents (fun a b => l.ValidEdge ev a b ∧ l.ValidNode nv a ∧ l.ValidNode nv b) (l.ValidNode nv) comps := by
  have hfk : l.nodes.keys.length ≤ fuel := by rw [OMap.length_keys]; exact hf
  let nd : NodeId → Node := fun n => (l.findNode n).getD { id := n, layer := 0, attrs := none }
  let ed : NodeId → NodeId → Edge := fun a b => ((l.findEdge a b).2).getD ⟨a, b, none⟩
  let adj := fun a => (l.adj a).filter (fun m => nv (nd m) && ev (ed a m))
  have hfe : ∀ a b, (l.findEdge a b).2 = l.edges.edges.find? (EdgeKey.of a b) := by
    intro a b
    unfold Layer.findEdge EdgeContainer.find EdgeContainer.findKey
    cases l.edges.edges.find? (EdgeKey.of a b) <;> rfl
  have hedge : ∀ a b, l.hasEdge a b = true ↔ ∃ e, (l.findEdge a b).2 = some e := by
    intro a b; rw [hfe]; exact OMap.contains_eq_true
  have hedc : ∀ a b, l.hasEdge a b = true → ed a b = ed b a := by
    intro a b hab
    obtain ⟨e, he⟩ := (hedge a b).1 hab
    have he' : (l.findEdge b a).2 = some e := by rw [hfe] at *; rw [EdgeKey.of_comm]; exact he
    simp [ed, he, he']
  have hvn : ∀ n, l.hasNode n = true → (l.ValidNode nv n ↔ nv (nd n) = true) := by
    intro n hn
    obtain ⟨x, hx⟩ := Layer.hasNode_iff.1 hn
    simp [Layer.ValidNode, hx, nd]
  have hve : ∀ a b, l.ValidEdge ev a b ↔ l.hasEdge a b = true ∧ ev (ed a b) = true := by
    intro a b
    rw [hedge]
    constructor
    · rintro ⟨e, h1, h2⟩; exact ⟨⟨e, h1⟩, by simp [ed, h1, h2]⟩
    · rintro ⟨⟨e, h1⟩, h2⟩; exact ⟨e, h1, by simpa [ed, h1] using h2⟩
  have hmem : ∀ a b, b ∈ adj a ↔ l.hasEdge a b = true ∧ nv (nd b) = true ∧ ev (ed a b) = true := by
    intro a b; simp only [adj, List.mem_filter, Bool.and_eq_true]; rw [h.mem_adj]
  have hsym : ∀ a b, nv (nd a) = true → b ∈ adj a → a ∈ adj b := by
    intro a b ha hb
    rw [hmem] at *
    exact ⟨by rw [Layer.hasEdge_comm]; exact hb.1, ha, by rw [← hedc a b hb.1]; exact hb.2.2⟩
  have hcl : ∀ a ∈ l.nodes.keys, ∀ b ∈ adj a, b ∈ l.nodes.keys := by
    intro a ha b hb
    exact h.closed a ha b (List.mem_filter.1 hb).1
  have hW : ∀ a ∈ l.nodes.keys, ∀ b ∈ adj a, nv (nd b) = true := by
    intro a _ b hb; exact ((hmem a b).1 hb).2.1
  have hin : ∀ a : NodeId × Node, a ∈ l.nodes.toList → l.findNode a.1 = some a.2 := by
    intro a ha; exact OMap.mem_toList.1 ha
  obtain ⟨seen, comps, e, hi, _, hcov⟩ := comp_loop (adj := adj) (W := fun x => nv (nd x) = true)
    (R := fun r => l.hasNode r = true ∧ nv (nd r) = true)
    (key := fun a : NodeId × Node => a.1) (step := filterStep l.search fuel nv ev) (fun r hr => hr.2) l.nodes.toList
    (by
      rintro ⟨s, c⟩ a ha hh
      have hx := hin a ha
      have hnd : nd a.1 = a.2 := by simp [nd, hx]
      unfold filterStep
      cases hc : nv a.2 with
      | false => simp
      | true =>
        rcases hh with hh | hh
        · exact absurd ⟨Layer.hasNode_iff.2 ⟨_, hx⟩, by rw [hnd]; exact hc⟩ hh
        · simp [hh])
    (by
      intro seen comps a ha hinv hR hns
      have hx := hin a ha
      have hnd : nd a.1 = a.2 := by simp [nd, hx]
      obtain ⟨seen', tr, e, h1, h2⟩ := comp_step (body := filterBody l.search nv ev) (V := l.nodes.keys) hcl hW hsym
        (fun S0 n hn hS s d c hag => filterBody_spec (nd := nd) (ed := ed n) (h.neighbors hn)
          (fun m hm => by
            obtain ⟨x, hx⟩ := Layer.hasNode_iff.1 (h.ends _ _ ((h.mem_adj n m).1 hm)).2.2
            simp [Layer.search, hx, nd])
          (fun m hm => by
            obtain ⟨x, hx⟩ := (hedge n m).1 ((h.mem_adj n m).1 hm)
            simp [Layer.search, hx, ed])
          (fun m hm hv1 hv2 => hS m (List.mem_filter.2 ⟨hm, by rw [hv1, hv2]; rfl⟩)) s d c hag)
        hinv (Layer.mem_nodes.2 hR.1) hR.2 hR hns (fun r hr => ⟨hr.2, Layer.mem_nodes.2 hr.1⟩) hfk
      refine ⟨seen', tr, ?_, h1, h2⟩
      have hc : nv a.2 = true := by rw [← hnd]; exact hR.2
      unfold filterStep
      simp [hc, hns, e]) ∅ [] ⟨by intro x _; simp [OMap.contains], by simp, List.Pairwise.nil⟩
  have hroot : ∀ r, l.ValidNode nv r → l.hasNode r = true ∧ nv (nd r) = true := by
    rintro r ⟨x, hx, hv⟩
    exact ⟨Layer.hasNode_iff.2 ⟨x, hx⟩, by simpa [nd, hx] using hv⟩
  refine ⟨comps, ?_, ?_, hi.disj, ?_⟩
  · unfold filterComponents; rw [show l.search.nodes = l.nodes.toList from rfl, e]
  · intro c hc
    obtain ⟨h1, r, hr, h2⟩ := hi.cls c hc
    refine ⟨h1, r, (hvn r hr.1).2 hr.2, fun n => ?_⟩
    rw [h2]
    have fwd : ∀ {k n}, Walk (fun a b => b ∈ adj a) k r n →
        Walk (fun a b => l.ValidEdge ev a b ∧ l.ValidNode nv a ∧ l.ValidNode nv b) k r n ∧ l.ValidNode nv n := by
      intro k n hw
      induction hw with
      | nil => exact ⟨.nil _, (hvn _ hr.1).2 hr.2⟩
      | @snoc k _ b c hw e ih =>
        have := (hmem b c).1 e
        have ih := ih hr h2
        have hcv := (hvn c (h.ends _ _ this.1).2.2).2 this.2.1
        exact ⟨.snoc ih.1 ⟨(hve b c).2 ⟨this.1, this.2.2⟩, ih.2, hcv⟩, hcv⟩
    constructor
    · rintro ⟨r0, hr0, k, hw⟩
      rw [List.mem_singleton] at hr0; subst hr0
      exact ⟨r0, by simp, k, (fwd hw).1⟩
    · rintro ⟨r0, hr0, k, hw⟩
      refine ⟨r0, hr0, k, ?_⟩
      clear hr0
      induction hw with
      | nil => exact .nil _
      | snoc _ e ih =>
        have h3 := (hve _ _).1 e.1
        exact .snoc ih ((hmem _ _).2 ⟨h3.1, (hroot _ e.2.2).2, h3.2⟩)
  · intro r hr
    have hr' := hroot r hr
    obtain ⟨x, hx, _⟩ := hr
    exact hcov (r, x) (OMap.mem_toList.2 hx) hr'

end Verif
