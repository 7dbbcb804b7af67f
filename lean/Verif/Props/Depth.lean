import Verif.Lemmas.SearchDepth
/-!
# C59: components of limited depth

`getConnectedComponents(layer, max_depth, roots)` (graph_utilities.h:286-320) groups the nodes within `max_depth` hops of the roots.
-/

namespace Verif
open Search

/-- `n` is at most `depth` hops away from node `r` of the layer. -/
def Layer.Near (l : Layer) (depth : Nat) (r n : NodeId) : Prop := Within l.Linked [r] depth n

/-- Some root is near both nodes. -/
def Layer.NearBoth (l : Layer) (depth : Nat) (roots : List NodeId) (x y : NodeId) : Prop :=
  ∃ r ∈ roots, l.hasNode r = true ∧ l.Near depth r x ∧ l.Near depth r y

/-- A chain of neighbourhoods of the roots, each overlapping the next, leads from `x` to `y`. -/
def Layer.Overlapping (l : Layer) (depth : Nat) (roots : List NodeId) (x y : NodeId) : Prop := ∃ k, Walk (l.NearBoth depth roots) k x y

variable {l : Layer}

/-- **C59.** For every order in which the roots are enumerated the call ends (within `(nodes + 1) ^ depth` iterations per root), without
fault. A node is in some returned component exactly if it is within `depth` hops of a root that is in the layer; no component is empty; all
nodes near one root are in one component; nodes of one component are joined by a chain of overlapping neighbourhoods. If no two
components share a node, nodes joined by such a chain are in the same component. (Two components can share a node, depending on
the order: `C59_depends_on_order`.) -/
theorem C59_depth_components (h : l.Consistent) (depth fuel : Nat) (hf : (l.nodes.size + 1) ^ depth ≤ fuel) (roots : List NodeId) :
    ∃ comps, depthComponents l.search fuel depth roots = some (.ok comps) ∧
      (∀ n, (∃ c ∈ comps, c.contains n = true) ↔ ∃ r ∈ roots, l.hasNode r = true ∧ l.Near depth r n) ∧
      (∀ c ∈ comps, ∃ n, c.contains n = true) ∧
      (∀ r ∈ roots, l.hasNode r = true → ∃ c ∈ comps, ∀ n, l.Near depth r n → c.contains n = true) ∧
      (∀ c ∈ comps, ∀ x y, c.contains x = true → c.contains y = true → l.Overlapping depth roots x y) ∧
      (Apart comps → ∀ c ∈ comps, ∀ x y, c.contains x = true → l.Overlapping depth roots x y → c.contains y = true) := by
  have hle := h.linked_eq
  have htr : ∀ a b c, l.Overlapping depth roots a b → l.Overlapping depth roots b c → l.Overlapping depth roots a c := by
    rintro a b c ⟨i, hi⟩ ⟨j, hj⟩; exact ⟨_, hi.trans hj⟩
  have hsym : ∀ a b, l.Overlapping depth roots a b → l.Overlapping depth roots b a := by
    rintro a b ⟨i, hi⟩; exact ⟨i, Walk.symm (fun a b ⟨r, h1, h2, h3, h4⟩ => ⟨r, h1, h2, h4, h3⟩) hi⟩
  have hD : ∀ a ∈ l.nodes.keys, (l.adj a).length ≤ l.nodes.size := by
    intro a ha
    rw [← OMap.length_keys]
    have hnd : (l.adj a).Nodup := by
      unfold Layer.adj
      split
      · exact OMap.keys_nodup _
      · exact List.nodup_nil
    exact hnd.length_le_of_subset (fun b hb => h.closed a ha b hb)
  obtain ⟨st, e, R, hR, hs⟩ := depth_loop (g := l.search) (adj := l.adj) (limit := depth) (D := l.nodes.size) (fuel := fuel) (V := l.nodes.keys)
    (J := l.Overlapping depth roots) h.closed hsym htr (fun a ha => h.neighbors ha) hD (fun a => Layer.mem_nodes.symm) hf roots
    (by
      intro n hn hV m hm
      rw [hle] at hm
      exact ⟨1, .snoc (.nil _) ⟨n, hn, Layer.mem_nodes.1 hV, ⟨n, by simp, 0, Nat.zero_le _, .nil _⟩, hm⟩⟩)
    [] (by simp) (∅, ∅, []) ⟨by simp, ⟨[], by simp, ⟨⟨by intro n k hk; simp at hk, by simp, by intro n; simp [OMap.contains], by intro n k hk; simp at hk, List.Pairwise.nil⟩⟩,
      by intro x y hx; simp [OMap.contains] at hx⟩, by simp⟩
  have hR' : ∀ r, r ∈ R ↔ r ∈ roots ∧ l.hasNode r = true := by intro r; rw [hR, Layer.mem_nodes]; simp
  obtain ⟨d, cur, done⟩ := st
  have hs1 := hs.sets
  have hs2 := hs.all
  rw [hle] at hs1 hs2
  let sets := if cur.size != 0 then done ++ [cur] else done
  have hsets : ∀ s, s ∈ sets → (∃ x, s.contains x = true) ∧ (∃ B, (∀ r ∈ B, r ∈ R) ∧ ∀ n, s.contains n = true ↔ Within l.Linked B depth n) ∧
      ∀ x y, s.contains x = true → s.contains y = true → l.Overlapping depth roots x y := by
    intro s hm
    have hcur : cur.size ≠ 0 → (∃ x, cur.contains x = true) ∧ (∃ B, (∀ r ∈ B, r ∈ R) ∧ ∀ n, cur.contains n = true ↔ Within l.Linked B depth n) ∧
        ∀ x y, cur.contains x = true → cur.contains y = true → l.Overlapping depth roots x y := by
      intro hc
      obtain ⟨B, hB, hb, hj⟩ := hs.now
      refine ⟨size_ne_zero.1 (by simpa using hc), ⟨B, hB, fun n => ?_⟩, hj⟩
      have := hb.mem n
      rw [hle] at this
      exact this
    by_cases hc : (cur.size != 0) = true
    · simp only [sets, hc, if_true] at hm
      rcases List.mem_append.1 hm with hm | hm
      · exact hs1 s hm
      · rw [List.mem_singleton] at hm; subst hm
        exact hcur (by simpa using hc)
    · simp only [sets, hc] at hm
      exact hs1 s hm
  have hall : ∀ r ∈ R, ∃ s ∈ sets, ∀ n, Within l.Linked [r] depth n → s.contains n = true := by
    intro r hr
    rcases hs2 r hr with ⟨s, hm, h1⟩ | h1
    · refine ⟨s, ?_, h1⟩
      simp only [sets]
      split
      · exact List.mem_append.2 (.inl hm)
      · exact hm
    · refine ⟨cur, ?_, h1⟩
      have : (cur.size != 0) = true := size_ne_zero.2 ⟨r, h1 r ⟨r, by simp, 0, Nat.zero_le _, .nil _⟩⟩
      simp only [sets, this, if_true]
      exact List.mem_append.2 (.inr (List.mem_singleton.2 rfl))
  have hco := Coarser.merged sets
  have hch : ∀ {x y}, Chained sets x y → l.Overlapping depth roots x y := by
    rintro x y ⟨k, hk⟩
    induction hk with
    | nil a => exact ⟨0, .nil _⟩
    | snoc _ hs ih =>
      obtain ⟨s, h1, h2, h3⟩ := hs
      exact htr _ _ _ ih ((hsets s h1).2.2 _ _ h2 h3)
  have hone : ∀ r ∈ roots, l.hasNode r = true → ∃ c ∈ mergedComponents sets, ∀ n, l.Near depth r n → c.contains n = true := by
    intro r hr hn
    obtain ⟨s, hm, h1⟩ := hall r ((hR' r).2 ⟨hr, hn⟩)
    obtain ⟨c, hc, h2⟩ := hco.covers s hm
    exact ⟨c, hc, fun n hn => h2 n (h1 n hn)⟩
  refine ⟨mergedComponents sets, by unfold depthComponents; rw [e], ?_, ?_, hone, fun c hc x y hx hy => hch (hco.chained c hc x y hx hy), ?_⟩
  · intro n
    constructor
    · rintro ⟨c, hc, hx⟩
      obtain ⟨s, hm, h1⟩ := hco.from_inputs c hc n hx
      obtain ⟨_, ⟨B, hB, h2⟩, _⟩ := hsets s hm
      obtain ⟨r, hr, k, hk, hw⟩ := (h2 n).1 h1
      exact ⟨r, ((hR' r).1 (hB r hr)).1, ((hR' r).1 (hB r hr)).2, r, by simp, k, hk, hw⟩
    · rintro ⟨r, hr, hn, hx⟩
      obtain ⟨c, hc, h1⟩ := hone r hr hn
      exact ⟨c, hc, h1 n hx⟩
  · exact merged_nonempty sets (fun s hm => (hsets s hm).1)
  · intro hap c hc x y hx ⟨k, hk⟩
    clear hco
    induction hk with
    | nil a => exact hx
    | snoc _ hs ih =>
      obtain ⟨r, hr, hn, h1, h2⟩ := hs
      have hb := ih hx
      obtain ⟨c', hc', h3⟩ := hone r hr hn
      have : c = c' := by
        apply Classical.byContradiction
        intro hne
        exact absurd (h3 _ h1) (by rw [hap.apart hc hc' hne hb]; simp)
      exact this ▸ h3 _ h2

namespace Depth
/-- A path of seven nodes. -/
def path : List LOp :=
  [.emplaceNode 1 none, .emplaceNode 2 none, .emplaceNode 3 none, .emplaceNode 4 none, .emplaceNode 5 none, .emplaceNode 6 none,
   .emplaceNode 7 none, .insertEdge 1 2 none, .insertEdge 2 3 none, .insertEdge 3 4 none, .insertEdge 4 5 none, .insertEdge 5 6 none, .insertEdge 6 7 none]
def pathLayer : Layer :=
  match Layer.run { id := 2 } path with
  | .ok (l, _) => l
  | _ => { id := 2 }
theorem pathLayer_consistent : pathLayer.Consistent := by
  obtain ⟨l, e, _, _, _, _, h, _⟩ := C34_layer 2 path (by decide +kernel)
  have : Layer.run { id := 2 } path = .ok (pathLayer, ((LGraph.empty 2).run path).2) := by
    decide +kernel
  rw [this] at e
  cases e; exact h
end Depth

/-- **C59 (finding).** The result depends on the order in which the (unordered) set of roots is enumerated, and its components can share nodes:
on the path 1-…-7 with roots 2, 4, 6 and depth 1, one order gives a single component of seven nodes, another gives {1, …, 5} and {5, 6, 7}. -/
theorem C59_depends_on_order : Depth.pathLayer.Consistent ∧
    depthComponents Depth.pathLayer.search 8 1 [2, 4, 6] = some (.ok [Sample.nodeSet [1, 2, 3, 4, 5, 6, 7]]) ∧
    depthComponents Depth.pathLayer.search 8 1 [2, 6, 4] = some (.ok [Sample.nodeSet [1, 2, 3, 4, 5], Sample.nodeSet [5, 6, 7]]) :=
  ⟨Depth.pathLayer_consistent, by decide +kernel, by decide +kernel⟩

example : Depth.pathLayer.Consistent ∧ (Depth.pathLayer.nodes.size + 1) ^ 2 ≤ 64 ∧
    depthComponents Depth.pathLayer.search 64 2 [1, 77, 7] = some (.ok [Sample.nodeSet [1, 2, 3], Sample.nodeSet [5, 6, 7]]) ∧
    depthComponents Depth.pathLayer.search 64 2 [1, 2, 7] = some (.ok [Sample.nodeSet [1, 2, 3, 4], Sample.nodeSet [5, 6, 7]]) :=
  ⟨Depth.pathLayer_consistent, by decide +kernel, by decide +kernel, by decide +kernel⟩

end Verif
