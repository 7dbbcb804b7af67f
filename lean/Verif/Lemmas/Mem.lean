import Verif.Refine.Whole
/-!
# No undefined behaviour: an invariant strong enough for hostile input

The representation relation of `Refine/` describes graphs built by sensible calls. Here is a weaker invariant that survives every call a
binary message can provoke, whatever it contains.
-/

namespace Verif

namespace Res
variable {α β : Type} {P : α → Prop} {Q : β → Prop}
/-- The call throws, or returns a value satisfying `P`; it is not undefined behaviour. -/
def Sat (P : α → Prop) : Res α → Prop
  | .ok a => P a
  | .throw _ => True
  | .ub => False

theorem Sat.bind {r : Res α} {f : α → Res β} (h : Sat P r) (hf : ∀ a, P a → Sat Q (f a)) : Sat Q (r >>= f) := by
  cases r with
  | ok a => exact hf a h
  | throw e => trivial
  | ub => exact h.elim
theorem Sat.mono {P' : α → Prop} {r : Res α} (h : Sat P r) (hf : ∀ a, P a → P' a) : Sat P' r := by
  cases r with
  | ok a => exact hf a h
  | throw e => trivial
  | ub => exact h.elim
theorem Sat.at? {o : Option α} {f : α → Res β} (h : ∀ a, o = some a → Sat Q (f a)) : Sat Q (Res.at? o >>= f) := by
  cases o with
  | none => trivial
  | some a => exact h a rfl
theorem Sat.at {o : Option α} (h : ∀ a, o = some a → P a) : Sat P (Res.at? o) := by
  cases o with
  | none => trivial
  | some a => exact h a rfl
theorem Sat.of_throw {r : Res α} (h : ∃ e, r = .throw e) : Sat P r := by
  obtain ⟨e, rfl⟩ := h; trivial
theorem Sat.of_ok {r : Res α} {a : α} (e : r = .ok a) (h : P a) : Sat P r := by subst e; exact h
theorem Sat.fold {γ : Type} {f : α → γ → Res α} (hf : ∀ s x, P s → Sat P (f s x)) (L : List γ) {s : α} (hs : P s) :
    Sat P (foldRes f s L) := by
  induction L generalizing s with
  | nil => exact hs
  | cons x L ih => exact Sat.bind (hf s x hs) (fun a ha => ih ha)
/-- A loop over distinct things to do: `D x` holds of the state once `x` has been treated, and later steps keep it. -/
theorem Sat.fold_done {γ : Type} {f : α → γ → Res α} {D : γ → α → Prop} (L : List γ)
    (hf : ∀ s x, x ∈ L → P s → Sat (fun s' => P s' ∧ D x s' ∧ ∀ y, D y s → D y s') (f s x)) {s : α} (hs : P s) :
    Sat (fun s' => P s' ∧ (∀ x ∈ L, D x s') ∧ ∀ y, D y s → D y s') (foldRes f s L) := by
  induction L generalizing s with
  | nil => exact ⟨hs, by simp, fun _ h => h⟩
  | cons x L ih =>
    refine Sat.bind (hf s x (by simp) hs) (fun a ⟨h1, h2, h3⟩ => ?_)
    refine (ih (fun s y hy => hf s y (by simp [hy])) h1).mono ?_
    rintro b ⟨h4, h5, h6⟩
    refine ⟨h4, ?_, fun y hy => h6 y (h3 y hy)⟩
    intro y hy
    rcases List.mem_cons.1 hy with rfl | hy
    · exact h6 _ h2
    · exact h5 y hy
end Res
open Res (Sat)

/-! ## The invariant -/

/-- Node pointers found through the lookup table are not null. -/
structure MW (v : View) : Prop where
  key : ∀ n k, v.lookup n = some k → (v.node k n).isSome = true
  info : ∀ l p m, v.info (.dyn l p) = some m → m.pre = p ∧ m.top ≤ 2 ^ 32

/-- Everything the code relies on when it dereferences a pointer. -/
structure MV (v : View) : Prop where
  key : ∀ n k, v.lookup n = some k ↔ (v.node k n).isSome = true
  live : ∀ k n, NodeStatus.live (v.st k n) = (v.node k n).isSome
  info : ∀ l p m, v.info (.dyn l p) = some m → m.pre = p ∧ m.top ≤ 2 ^ 32
  stamp : ∀ l p n x, v.node (.dyn l p) n = some x → x.timestamp.isSome = true
  edge : ∀ k a b, (v.ec (.within k)).contains a b = true → a ≠ b ∧ ∃ x y, v.node k a = some x ∧ v.node k b = some y ∧
    x.siblings.contains b = true ∧ y.siblings.contains a = true
  child : ∀ k n x t, v.node k n = some x → x.children.contains t = true →
    ∃ k' y, v.node k' t = some y ∧ y.parents.contains n = true ∧ k'.layer < k.layer
  par : ∀ k n x t, v.node k n = some x → x.parents.contains t = true →
    ∃ k' y, v.node k' t = some y ∧ y.children.contains n = true ∧ k.layer < k'.layer

theorem MV.mw {v : View} (h : MV v) : MW v := ⟨fun n k e => (h.key n k).1 e, h.info⟩

theorem MV.uniq {v : View} (h : MV v) {k k' : LayerKey} {n : NodeId} {x y : Node} (h1 : v.node k n = some x) (h2 : v.node k' n = some y) :
    k = k' := by
  have e1 := (h.key n k).2 (by simp [h1])
  have e2 := (h.key n k').2 (by simp [h2])
  rw [e1] at e2; exact Option.some.inj e2

theorem MW.setN {v : View} (h : MW v) (k : LayerKey) (n : NodeId) (x : Node) : MW (v.setN k n x) where
  key m k' e := by
    simp only [View.setN]
    split
    · rfl
    · exact h.key m k' e
  info := h.info

theorem EdgeContainer.contains_comm (c : EdgeContainer) (a b : NodeId) : c.contains a b = c.contains b a := by
  simp only [EdgeContainer.contains, EdgeKey.of_comm]

/-- Changing one node's attributes or siblings. -/
theorem MV.setN {v : View} (h : MV v) {k : LayerKey} {n : NodeId} {x y : Node} (hx : v.node k n = some x)
    (ht : y.timestamp = x.timestamp) (hp : y.parents = x.parents) (hc : y.children = x.children)
    (hs : ∀ b, (v.ec (.within k)).contains n b = true → x.siblings.contains b = true → y.siblings.contains b = true) : MV (v.setN k n y) where
  key m k' := by
    rw [show (v.setN k n y).lookup m = v.lookup m from rfl, h.key]
    simp only [View.setN]
    split
    · rename_i e; obtain ⟨rfl, rfl⟩ := e; simp [hx]
    · rfl
  live k' m := by
    rw [show (v.setN k n y).st k' m = v.st k' m from rfl, h.live]
    simp only [View.setN]
    split
    · rename_i e; obtain ⟨rfl, rfl⟩ := e; simp [hx]
    · rfl
  info := h.info
  stamp l p m z hz := by
    simp only [View.setN] at hz
    split at hz
    · rename_i e; obtain ⟨rfl, rfl⟩ := e; cases hz; rw [ht]; exact h.stamp _ _ _ _ hx
    · exact h.stamp _ _ _ _ hz
  edge k' a b e := by
    obtain ⟨h1, xa, xb, h2, h3, h4, h5⟩ := h.edge k' a b e
    have e' : (v.ec (.within k')).contains a b = true := e
    refine ⟨h1, ?_⟩
    simp only [View.setN]
    by_cases e1 : k = k' ∧ n = a
    · obtain ⟨rfl, rfl⟩ := e1
      rw [hx] at h2; cases h2
      refine ⟨y, xb, by simp, by simp [h1, h3], hs b e' h4, h5⟩
    · by_cases e2 : k = k' ∧ n = b
      · obtain ⟨rfl, rfl⟩ := e2
        rw [hx] at h3; cases h3
        have := hs a (by rw [EdgeContainer.contains_comm]; exact e')
        exact ⟨xa, y, by simp [Ne.symm h1, h2], by simp, h4, this h5⟩
      · exact ⟨xa, xb, by simp [e1, h2], by simp [e2, h3], h4, h5⟩
  child k' m z t hz hzt := by
    simp only [View.setN] at hz ⊢
    have : ∃ z', v.node k' m = some z' ∧ z'.children.contains t = true := by
      split at hz
      · rename_i e; obtain ⟨rfl, rfl⟩ := e; cases hz; exact ⟨x, hx, hc ▸ hzt⟩
      · exact ⟨z, hz, hzt⟩
    obtain ⟨z', h1, h2⟩ := this
    obtain ⟨k2, w, h3, h4, h5⟩ := h.child k' m z' t h1 h2
    by_cases e : k = k2 ∧ n = t
    · obtain ⟨rfl, rfl⟩ := e
      rw [hx] at h3; cases h3
      exact ⟨k, y, by simp, hp ▸ h4, h5⟩
    · exact ⟨k2, w, by simp [e, h3], h4, h5⟩
  par k' m z t hz hzt := by
    simp only [View.setN] at hz ⊢
    have : ∃ z', v.node k' m = some z' ∧ z'.parents.contains t = true := by
      split at hz
      · rename_i e; obtain ⟨rfl, rfl⟩ := e; cases hz; exact ⟨x, hx, hp ▸ hzt⟩
      · exact ⟨z, hz, hzt⟩
    obtain ⟨z', h1, h2⟩ := this
    obtain ⟨k2, w, h3, h4, h5⟩ := h.par k' m z' t h1 h2
    by_cases e : k = k2 ∧ n = t
    · obtain ⟨rfl, rfl⟩ := e
      rw [hx] at h3; cases h3
      exact ⟨k, y, by simp, hc ▸ h4, h5⟩
    · exact ⟨k2, w, by simp [e, h3], h4, h5⟩

/-- Linking or unlinking a parent `s` and a child `t`. -/
theorem MV.kin {v : View} (h : MV v) {ks kt : LayerKey} {s t : NodeId} {x y : Node} (hs : v.node ks s = some x) (ht : v.node kt t = some y)
    (hlt : kt.layer < ks.layer) (hne : s ≠ t) {C P : OSet NodeId} (hC : ∀ u, u ≠ t → C.contains u = x.children.contains u)
    (hP : ∀ u, u ≠ s → P.contains u = y.parents.contains u) (hCP : C.contains t = P.contains s) :
    MV ((v.setN ks s { x with children := C }).setN kt t { y with parents := P }) := by
  have hnode : ∀ k n, ((v.setN ks s { x with children := C }).setN kt t { y with parents := P }).node k n =
      if kt = k ∧ t = n then some { y with parents := P } else if ks = k ∧ s = n then some { x with children := C } else v.node k n :=
    fun k n => rfl
  have hsome : ∀ k n, (((v.setN ks s { x with children := C }).setN kt t { y with parents := P }).node k n).isSome = (v.node k n).isSome := by
    intro k n
    rw [hnode]
    split
    · rename_i e; obtain ⟨rfl, rfl⟩ := e; simp [ht]
    · split
      · rename_i e; obtain ⟨rfl, rfl⟩ := e; simp [hs]
      · rfl
  have hcase : ∀ k n z, ((v.setN ks s { x with children := C }).setN kt t { y with parents := P }).node k n = some z →
      (k = kt ∧ n = t ∧ z = { y with parents := P }) ∨ (k = ks ∧ n = s ∧ z = { x with children := C }) ∨
      (n ≠ s ∧ n ≠ t ∧ v.node k n = some z) := by
    intro k n z hz
    rw [hnode] at hz
    split at hz
    · rename_i e; obtain ⟨rfl, rfl⟩ := e; cases hz; exact .inl ⟨rfl, rfl, rfl⟩
    · rename_i e1
      split at hz
      · rename_i e; obtain ⟨rfl, rfl⟩ := e; cases hz; exact .inr (.inl ⟨rfl, rfl, rfl⟩)
      · rename_i e2
        refine .inr (.inr ⟨?_, ?_, hz⟩)
        · rintro rfl; exact e2 ⟨h.uniq hs hz, rfl⟩
        · rintro rfl; exact e1 ⟨h.uniq ht hz, rfl⟩
  have n1 : ((v.setN ks s { x with children := C }).setN kt t { y with parents := P }).node kt t = some { y with parents := P } := by simp [hnode]
  have n2 : ((v.setN ks s { x with children := C }).setN kt t { y with parents := P }).node ks s = some { x with children := C } := by
    simp [hnode, Ne.symm hne]
  have n3 : ∀ k n, n ≠ s → n ≠ t → ((v.setN ks s { x with children := C }).setN kt t { y with parents := P }).node k n = v.node k n := by
    intro k n h1 h2; simp [hnode, Ne.symm h1, Ne.symm h2]
  constructor
  · intro n k; rw [hsome]; exact h.key n k
  · intro k n; rw [hsome]; exact h.live k n
  · exact h.info
  · intro l p n z hz
    rcases hcase _ _ _ hz with ⟨e1, rfl, rfl⟩ | ⟨e1, rfl, rfl⟩ | ⟨_, _, h3⟩
    · have := h.stamp l p _ _ (e1 ▸ ht); exact this
    · have := h.stamp l p _ _ (e1 ▸ hs); exact this
    · exact h.stamp l p _ _ h3
  · intro k a b e
    obtain ⟨h1, xa, xb, h2, h3, h4, h5⟩ := h.edge k a b e
    refine ⟨h1, ?_⟩
    have get : ∀ c xc, v.node k c = some xc → ∃ z, ((v.setN ks s { x with children := C }).setN kt t { y with parents := P }).node k c = some z ∧
        z.siblings = xc.siblings := by
      intro c xc hc
      by_cases e1 : c = t
      · subst e1; have := h.uniq hc ht; subst this; rw [ht] at hc; cases hc; exact ⟨_, n1, rfl⟩
      · by_cases e2 : c = s
        · subst e2; have := h.uniq hc hs; subst this; rw [hs] at hc; cases hc; exact ⟨_, n2, rfl⟩
        · exact ⟨xc, by rw [n3 _ _ e2 e1]; exact hc, rfl⟩
    obtain ⟨za, ga, sa⟩ := get a xa h2
    obtain ⟨zb, gb, sb⟩ := get b xb h3
    exact ⟨za, zb, ga, gb, by rw [sa]; exact h4, by rw [sb]; exact h5⟩
  · intro k n z u hz hzu
    have old : ∀ z', v.node k n = some z' → z'.children.contains u = true → (n ≠ s ∨ u ≠ t) →
        ∃ k' w, ((v.setN ks s { x with children := C }).setN kt t { y with parents := P }).node k' u = some w ∧ w.parents.contains n = true ∧ k'.layer < k.layer := by
      intro z' g1 g2 g3
      obtain ⟨k', w, g4, g5, g6⟩ := h.child k n z' u g1 g2
      by_cases e1 : u = t
      · subst e1; have := h.uniq g4 ht; subst this; rw [ht] at g4; cases g4
        have : n ≠ s := by rcases g3 with g3 | g3 <;> simp_all
        exact ⟨_, _, n1, by show P.contains n = true; rw [hP _ this]; exact g5, g6⟩
      · by_cases e2 : u = s
        · subst e2; have := h.uniq g4 hs; subst this; rw [hs] at g4; cases g4
          exact ⟨_, _, n2, g5, g6⟩
        · exact ⟨k', w, by rw [n3 _ _ e2 e1]; exact g4, g5, g6⟩
    rcases hcase _ _ _ hz with ⟨rfl, rfl, rfl⟩ | ⟨rfl, rfl, rfl⟩ | ⟨q1, q2, h3⟩
    · exact old y ht hzu (.inl (Ne.symm hne))
    · by_cases e : u = t
      · subst e
        refine ⟨kt, _, n1, ?_, hlt⟩
        show P.contains n = true
        rw [← hCP]; exact hzu
      · have hzu' : C.contains u = true := hzu
        rw [hC u e] at hzu'
        exact old x hs hzu' (.inr e)
    · exact old z h3 hzu (.inl q1)
  · intro k n z u hz hzu
    have old : ∀ z', v.node k n = some z' → z'.parents.contains u = true → (n ≠ t ∨ u ≠ s) →
        ∃ k' w, ((v.setN ks s { x with children := C }).setN kt t { y with parents := P }).node k' u = some w ∧ w.children.contains n = true ∧ k.layer < k'.layer := by
      intro z' g1 g2 g3
      obtain ⟨k', w, g4, g5, g6⟩ := h.par k n z' u g1 g2
      by_cases e1 : u = t
      · subst e1; have := h.uniq g4 ht; subst this; rw [ht] at g4; cases g4
        exact ⟨_, _, n1, g5, g6⟩
      · by_cases e2 : u = s
        · subst e2; have := h.uniq g4 hs; subst this; rw [hs] at g4; cases g4
          have : n ≠ t := by rcases g3 with g3 | g3 <;> simp_all
          exact ⟨_, _, n2, by show C.contains n = true; rw [hC _ this]; exact g5, g6⟩
        · exact ⟨k', w, by rw [n3 _ _ e2 e1]; exact g4, g5, g6⟩
    rcases hcase _ _ _ hz with ⟨rfl, rfl, rfl⟩ | ⟨rfl, rfl, rfl⟩ | ⟨q1, q2, h3⟩
    · by_cases e : u = s
      · subst e
        refine ⟨ks, _, n2, ?_, hlt⟩
        show C.contains n = true
        rw [hCP]; exact hzu
      · have hzu' : P.contains u = true := hzu
        rw [hP u e] at hzu'
        exact old y ht hzu' (.inr e)
    · exact old x hs hzu (.inl hne)
    · exact old z h3 hzu (.inl q2)

/-- Changing an edge container so that no edge within a layer is added. -/
theorem MV.setE {v : View} (h : MV v) (c : Place) (e : EdgeContainer)
    (hc : ∀ k a b, c = .within k → e.contains a b = true → (v.ec c).contains a b = true) : MV (v.setE c e) where
  key := h.key
  live := h.live
  info := h.info
  stamp := h.stamp
  edge k a b he := by
    refine h.edge k a b ?_
    simp only [View.setE] at he
    split at he
    · rename_i e; have := hc k a b e he; rw [e] at this; exact this
    · exact he
  child := h.child
  par := h.par

/-- A new node without relatives. -/
theorem MV.add {v v' : View} (h : MV v) {k : LayerKey} {n : NodeId} {x : Node} (hn : v.lookup n = none)
    (hl : ∀ m, v'.lookup m = if n = m then some k else v.lookup m)
    (hnode : ∀ k' m, v'.node k' m = if k = k' ∧ n = m then some x else v.node k' m)
    (hst : ∀ k' m, NodeStatus.live (v'.st k' m) = (v'.node k' m).isSome)
    (hinfo : ∀ l p m, v'.info (.dyn l p) = some m → m.pre = p ∧ m.top ≤ 2 ^ 32)
    (hec : v'.ec = v.ec) (hp : x.parents = ∅) (hc : x.children = ∅) (ht : k.dynamic = true → x.timestamp.isSome = true) : MV v' := by
  have hnone : ∀ k', v.node k' n = none := by
    intro k'
    cases e : v.node k' n with
    | none => rfl
    | some y => have := (h.key n k').2 (by simp [e]); rw [hn] at this; cases this
  have keep : ∀ k' m y, v.node k' m = some y → v'.node k' m = some y := by
    intro k' m y hy
    rw [hnode]
    split
    · rename_i e; obtain ⟨rfl, rfl⟩ := e; rw [hnone] at hy; cases hy
    · exact hy
  constructor
  · intro m k'
    rw [hl, hnode]
    by_cases e : n = m
    · subst e
      by_cases e' : k = k'
      · simp [e']
      · simp [e', hnone]
    · simp [e, h.key]
  · exact hst
  · exact hinfo
  · intro l p m y hy
    rw [hnode] at hy
    split at hy
    · rename_i e; obtain ⟨rfl, rfl⟩ := e; cases hy; exact ht rfl
    · exact h.stamp _ _ _ _ hy
  · intro k' a b e
    rw [hec] at e
    obtain ⟨h1, xa, xb, h2, h3, h4, h5⟩ := h.edge k' a b e
    exact ⟨h1, xa, xb, keep _ _ _ h2, keep _ _ _ h3, h4, h5⟩
  · intro k' m y t hy hyt
    rw [hnode] at hy
    split at hy
    · cases hy; rw [hc] at hyt; cases (show false = true from hyt)
    · obtain ⟨k2, w, h3, h4, h5⟩ := h.child _ _ _ _ hy hyt
      exact ⟨k2, w, keep _ _ _ h3, h4, h5⟩
  · intro k' m y t hy hyt
    rw [hnode] at hy
    split at hy
    · cases hy; rw [hp] at hyt; cases (show false = true from hyt)
    · obtain ⟨k2, w, h3, h4, h5⟩ := h.par _ _ _ _ hy hyt
      exact ⟨k2, w, keep _ _ _ h3, h4, h5⟩

/-- Removing a node without relatives. -/
theorem MV.del {v v' : View} (h : MV v) {k : LayerKey} {n : NodeId} {x : Node} (hx : v.node k n = some x)
    (hl : ∀ m, v'.lookup m = if n = m then none else v.lookup m)
    (hnode : ∀ k' m, v'.node k' m = if k = k' ∧ n = m then none else v.node k' m)
    (hst : ∀ k' m, NodeStatus.live (v'.st k' m) = (v'.node k' m).isSome)
    (hinfo : ∀ l p m, v'.info (.dyn l p) = some m → m.pre = p ∧ m.top ≤ 2 ^ 32)
    (hec : v'.ec = v.ec) (hp : ∀ t, x.parents.contains t = false) (hc : ∀ t, x.children.contains t = false)
    (he : ∀ b, (v.ec (.within k)).contains n b = false) : MV v' := by
  have sub : ∀ k' m y, v'.node k' m = some y → v.node k' m = some y := by
    intro k' m y hy
    rw [hnode] at hy
    split at hy
    · cases hy
    · exact hy
  have keep : ∀ k' m y, m ≠ n → v.node k' m = some y → v'.node k' m = some y := by
    intro k' m y hm hy
    rw [hnode]; simp [Ne.symm hm, hy]
  constructor
  · intro m k'
    rw [hl, hnode]
    by_cases e : n = m
    · subst e
      by_cases e' : k = k'
      · simp [e']
      · simp only [if_true, e', false_and, if_false]
        constructor
        · intro q; cases q
        · intro q
          obtain ⟨y, hy⟩ := Option.isSome_iff_exists.1 q
          exact (e' (h.uniq hx hy)).elim
    · simp [e, h.key]
  · exact hst
  · exact hinfo
  · intro l p m y hy; exact h.stamp _ _ _ _ (sub _ _ _ hy)
  · intro k' a b e
    rw [hec] at e
    obtain ⟨h1, xa, xb, h2, h3, h4, h5⟩ := h.edge k' a b e
    have ha : a ≠ n := by
      rintro rfl
      have := h.uniq hx h2; subst this
      rw [he] at e; cases e
    have hb : b ≠ n := by
      rintro rfl
      have := h.uniq hx h3; subst this
      rw [EdgeContainer.contains_comm, he] at e; cases e
    exact ⟨h1, xa, xb, keep _ _ _ ha h2, keep _ _ _ hb h3, h4, h5⟩
  · intro k' m y t hy hyt
    obtain ⟨k2, w, h3, h4, h5⟩ := h.child _ _ _ _ (sub _ _ _ hy) hyt
    refine ⟨k2, w, keep _ _ _ ?_ h3, h4, h5⟩
    rintro rfl
    have := h.uniq hx h3; subst this
    rw [hx] at h3; cases h3
    rw [hp] at h4; cases h4
  · intro k' m y t hy hyt
    obtain ⟨k2, w, h3, h4, h5⟩ := h.par _ _ _ _ (sub _ _ _ hy) hyt
    refine ⟨k2, w, keep _ _ _ ?_ h3, h4, h5⟩
    rintro rfl
    have := h.uniq hx h3; subst this
    rw [hx] at h3; cases h3
    rw [hc] at h4; cases h4

/-! ## Node pointers -/

namespace Graph
variable {g : Graph}

theorem view_lookup (g : Graph) (m : OMap NodeId LayerKey) : { g with lookup := m }.view = { g.view with lookup := m.find? } := by
  simp only [view, View.mk.injEq, true_and]
  refine ⟨?_, ?_, ?_, ?_⟩ <;> funext k <;> (try funext n) <;> cases k <;> try rfl
  all_goals (rename_i d; cases d <;> rfl)

/-- A pointer found through the lookup table throws or points to the node of that id. -/
theorem ptr (h : MW g.view) {n : NodeId} {k : LayerKey} (hn : g.lookup.find? n = some k) :
    (∃ e, g.getNodePtr n k = .throw e) ∨ ∃ x, g.view.node k n = some x ∧ g.getNodePtr n k = .ok (some x) ∧
      ∀ f, ∃ g', g.modNode n k f = .ok g' ∧ g'.view = g.view.setN k n (f x) := by
  obtain ⟨x, hx⟩ := Option.isSome_iff_exists.1 (h.key n k hn)
  obtain ⟨b, hb, hnd⟩ := layerAt?_of_view_node hx
  have hb' := hb
  have hview : ∀ y, (g.setLayer k (b.setNode n y)).view = g.view.setN k n y := by
    intro y
    rw [view_setLayer (by simpa using fits_of_layerAt? hb'), setL_setNode hb' hnd]
  cases k with
  | static l =>
    simp only [layerAt?, Option.map_eq_some_iff] at hb
    obtain ⟨y, hy, rfl⟩ := hb
    simp only [BaseLayer.nd] at hnd
    have hp : g.getNodePtr n (.static l) = .ok (some x) := by simp [getNodePtr, hy, hnd]
    refine .inr ⟨x, hx, hp, fun f => ⟨_, ?_, hview (f x)⟩⟩
    simp [modNode, hp, hy, setLayer, BaseLayer.setNode]
  | dyn l p =>
    simp only [layerAt?, Option.map_eq_some_iff, dynLayer?, Option.bind_eq_some_iff] at hb
    obtain ⟨y, ⟨m, hm, hy⟩, rfl⟩ := hb
    obtain ⟨hpre, htop⟩ := h.info l p (BaseLayer.info (.dyn y)) (by simp [view, hb'])
    obtain ⟨hmat, hidx⟩ := BaseLayer.nd_dyn_lt hnd
    have htop : y.nodes.length ≤ 2 ^ 32 := htop
    by_cases hlt : (NodeSymbol.categoryId n).toNat < y.nodes.length
    · right
      have hcat : (NodeSymbol.categoryId n).toNat = y.pre.index n := by
        rw [Prefix.categoryId_toNat] at hlt ⊢
        rw [Prefix.index_eq]; omega
      have hp : g.getNodePtr n (.dyn l p) = .ok (some x) := by simp [getNodePtr, hm, hy, hcat, hidx]
      refine ⟨x, hx, hp, fun f => ⟨_, ?_, hview (f x)⟩⟩
      simp [modNode, hp, dynLayer?, hm, hy, setLayer, BaseLayer.setNode, hcat]
    · left
      refine ⟨.outOfRange, ?_⟩
      simp only [getNodePtr, hm, hy, Res.at?_some, Res.bind_ok]
      rw [List.getElem?_eq_none (by omega)]; rfl

theorem ptr_sat (h : MW g.view) {n : NodeId} {k : LayerKey} (hn : g.lookup.find? n = some k) :
    Sat (fun p => ∃ x, g.view.node k n = some x ∧ p = some x) (g.getNodePtr n k) := by
  rcases ptr h hn with h1 | ⟨x, h1, h2, _⟩
  · exact .of_throw h1
  · exact .of_ok h2 ⟨x, h1, rfl⟩

theorem mod_sat (h : MW g.view) {n : NodeId} {k : LayerKey} (hn : g.lookup.find? n = some k) (f : Node → Node) :
    Sat (fun g' => ∃ x, g.view.node k n = some x ∧ g'.view = g.view.setN k n (f x)) (g.modNode n k f) := by
  rcases ptr h hn with ⟨e, h1⟩ | ⟨x, h1, h2, h3⟩
  · refine .of_throw ⟨e, ?_⟩
    simp only [modNode, h1, Res.bind_throw]
  · obtain ⟨g', e, v⟩ := h3 f
    exact .of_ok e ⟨x, h1, v⟩

theorem lookup_of_view {g' : Graph} {v : View} (e : g'.view = v) : g'.lookup.find? = v.lookup := by
  rw [← e]; rfl

theorem mod2_sat (h : MW g.view) {s t : NodeId} {ks kt : LayerKey} (hs : g.lookup.find? s = some ks) (ht : g.lookup.find? t = some kt)
    (hne : s ≠ t) (f f' : Node → Node) :
    Sat (fun g' => ∃ x y, g.view.node ks s = some x ∧ g.view.node kt t = some y ∧ g'.view = (g.view.setN ks s (f x)).setN kt t (f' y))
      (g.modNode s ks f >>= fun g => g.modNode t kt f') := by
  refine (mod_sat h hs f).bind ?_
  rintro g1 ⟨x, hx, v1⟩
  have h1 : MW g1.view := by rw [v1]; exact h.setN _ _ _
  have ht1 : g1.lookup.find? t = some kt := by rw [lookup_of_view v1]; exact ht
  refine (mod_sat h1 ht1 f').mono ?_
  rintro g2 ⟨y, hy, v2⟩
  rw [v1] at hy
  simp only [View.setN, hne, and_false, if_false] at hy
  exact ⟨x, y, hx, hy, by rw [v2, v1]⟩

theorem addAncestry_sat (h : MW g.view) {s t : NodeId} {ks kt : LayerKey} (hs : g.lookup.find? s = some ks) (ht : g.lookup.find? t = some kt)
    (hne : s ≠ t) :
    Sat (fun g' => ∃ x y, g.view.node ks s = some x ∧ g.view.node kt t = some y ∧
      g'.view = (g.view.setN ks s (x.link ks kt t)).setN kt t (y.link kt ks s)) (g.addAncestry s t ks kt) := by
  unfold Graph.addAncestry
  refine (ptr_sat h hs).bind (fun _ _ => (ptr_sat h ht).bind (fun _ _ => ?_))
  simp only [LayerKey.isParent, decide_eq_true_eq]
  rcases layer_cases kt.layer ks.layer with ⟨h1, h2, h3⟩ | ⟨h1, h2, h3⟩ | ⟨h1, h2, h3⟩
  · simp only [if_pos h1, Node.link_lt h1, Node.link_gt h1 h2]
    exact mod2_sat h hs ht hne _ _
  · simp only [if_neg h2, if_pos h1, Node.link_lt h1, Node.link_gt h1 h2]
    refine (mod2_sat h ht hs (Ne.symm hne) (fun x => { x with children := x.children.add s }) (fun x => { x with parents := x.parents.add t })).mono ?_
    rintro g' ⟨y, x, hy, hx, v⟩
    exact ⟨x, y, hx, hy, by rw [v, View.setN_comm _ _ hne]⟩
  · simp only [if_neg h2, if_neg h3, Node.link_eq h2 h3, Node.link_eq h3 h2]
    exact mod2_sat h hs ht hne _ _

theorem removeAncestry_sat (h : MW g.view) {s t : NodeId} {ks kt : LayerKey} (hs : g.lookup.find? s = some ks) (ht : g.lookup.find? t = some kt)
    (hne : s ≠ t) :
    Sat (fun g' => ∃ x y, g.view.node ks s = some x ∧ g.view.node kt t = some y ∧
      g'.view = (g.view.setN ks s (x.unlink ks kt t)).setN kt t (y.unlink kt ks s)) (g.removeAncestry s t ks kt) := by
  unfold Graph.removeAncestry
  refine (ptr_sat h hs).bind (fun _ _ => (ptr_sat h ht).bind (fun _ _ => ?_))
  simp only [LayerKey.isParent, decide_eq_true_eq]
  rcases layer_cases kt.layer ks.layer with ⟨h1, h2, h3⟩ | ⟨h1, h2, h3⟩ | ⟨h1, h2, h3⟩
  · simp only [if_pos h1, Node.unlink_lt h1, Node.unlink_gt h1 h2]
    exact mod2_sat h hs ht hne _ _
  · simp only [if_neg h2, if_pos h1, Node.unlink_lt h1, Node.unlink_gt h1 h2]
    refine (mod2_sat h ht hs (Ne.symm hne) (fun x => { x with children := x.children.erase s }) (fun x => { x with parents := x.parents.erase t })).mono ?_
    rintro g' ⟨y, x, hy, hx, v⟩
    exact ⟨x, y, hx, hy, by rw [v, View.setN_comm _ _ hne]⟩
  · simp only [if_neg h2, if_neg h3, Node.unlink_eq h2 h3, Node.unlink_eq h3 h2]
    exact mod2_sat h hs ht hne _ _

end Graph

/-- No edge is stored within a layer between nodes of different layers. -/
theorem MV.no_edge {v : View} (h : MV v) {ks kt : LayerKey} {s t : NodeId} {x y : Node} (hs : v.node ks s = some x) (ht : v.node kt t = some y)
    (hk : ks ≠ kt) (k : LayerKey) : (v.ec (.within k)).contains s t = false := by
  cases e : (v.ec (.within k)).contains s t with
  | false => rfl
  | true =>
    obtain ⟨_, x', y', h1, h2, _, _⟩ := h.edge k s t e
    exact (hk ((h.uniq hs h1).trans (h.uniq ht h2).symm)).elim

theorem MV.link {v : View} (h : MV v) {ks kt : LayerKey} {s t : NodeId} {x y : Node} (hs : v.node ks s = some x) (ht : v.node kt t = some y)
    (hk : ks ≠ kt) : MV ((v.setN ks s (x.link ks kt t)).setN kt t (y.link kt ks s)) := by
  have hne : s ≠ t := by rintro rfl; exact hk (h.uniq hs ht)
  rcases layer_cases kt.layer ks.layer with ⟨h1, h2, h3⟩ | ⟨h1, h2, h3⟩ | ⟨h1, h2, h3⟩
  · rw [Node.link_lt h1, Node.link_gt h1 h2]
    refine h.kin hs ht h1 hne ?_ ?_ ?_
    · intro u hu; simp [Ne.symm hu]
    · intro u hu; simp [Ne.symm hu]
    · simp
  · rw [Node.link_lt h1, Node.link_gt h1 h2, View.setN_comm _ _ hne]
    refine h.kin ht hs h1 (Ne.symm hne) ?_ ?_ ?_
    · intro u hu; simp [Ne.symm hu]
    · intro u hu; simp [Ne.symm hu]
    · simp
  · rw [Node.link_eq h2 h3, Node.link_eq h3 h2]
    refine MV.setN (x := y) (y := { y with siblings := y.siblings.add s }) (h.setN (y := { x with siblings := x.siblings.add t }) hs rfl rfl rfl ?_) ?_ rfl rfl rfl ?_
    · intro b _ hb; show (x.siblings.add t).contains b = true; simp [hb]
    · simp [View.setN, hne, ht]
    · intro b _ hb; show (y.siblings.add s).contains b = true; simp [hb]

theorem MV.unlink {v : View} (h : MV v) {ks kt : LayerKey} {s t : NodeId} {x y : Node} (hs : v.node ks s = some x) (ht : v.node kt t = some y)
    (hk : ks ≠ kt) : MV ((v.setN ks s (x.unlink ks kt t)).setN kt t (y.unlink kt ks s)) := by
  have hne : s ≠ t := by rintro rfl; exact hk (h.uniq hs ht)
  rcases layer_cases kt.layer ks.layer with ⟨h1, h2, h3⟩ | ⟨h1, h2, h3⟩ | ⟨h1, h2, h3⟩
  · rw [Node.unlink_lt h1, Node.unlink_gt h1 h2]
    refine h.kin hs ht h1 hne ?_ ?_ ?_
    · intro u hu; simp [OMap.contains_erase, Ne.symm hu]
    · intro u hu; simp [OMap.contains_erase, Ne.symm hu]
    · simp [OMap.contains_erase]
  · rw [Node.unlink_lt h1, Node.unlink_gt h1 h2, View.setN_comm _ _ hne]
    refine h.kin ht hs h1 (Ne.symm hne) ?_ ?_ ?_
    · intro u hu; simp [OMap.contains_erase, Ne.symm hu]
    · intro u hu; simp [OMap.contains_erase, Ne.symm hu]
    · simp [OMap.contains_erase]
  · rw [Node.unlink_eq h2 h3, Node.unlink_eq h3 h2]
    have q := h.no_edge hs ht hk
    refine MV.setN (x := y) (y := { y with siblings := y.siblings.erase s }) (h.setN (y := { x with siblings := x.siblings.erase t }) hs rfl rfl rfl ?_) ?_ rfl rfl rfl ?_
    · intro b hb hb'
      have : b ≠ t := by rintro rfl; rw [q] at hb; cases hb
      show (x.siblings.erase t).contains b = true; simp [OMap.contains_erase, hb', Ne.symm this]
    · simp [View.setN, hne, ht]
    · intro b hb hb'
      have : b ≠ s := by
        rintro rfl
        have hb : (v.ec (.within kt)).contains t b = true := hb
        rw [EdgeContainer.contains_comm, q] at hb; cases hb
      show (y.siblings.erase s).contains b = true; simp [OMap.contains_erase, hb', Ne.symm this]

end Verif
