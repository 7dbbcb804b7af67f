import Verif.Lemmas.Basic
import Verif.Lemmas.Mem6
/-!
# What a call that throws leaves behind: the invariants of memory safety (second part, the whole graph)
-/

namespace Verif
open Res (Sat Keeps NoThrow)
open Act (Thrown Strong Calm)

theorem Res.Sat.got {α : Type} {P : α → Prop} {r : Res α} {a : α} (h : Sat P r) (e : r = .ok a) : P a := by rw [e] at h; exact h
theorem Res.Sat.keeps {α : Type} {P : α → Prop} {r : Res α} (h : Sat P r) : Keeps P r := ⟨fun _ e => h.got e⟩

theorem Act.Thrown.mono {S α : Type} {P Q : S → Prop} {m : Act S α} {s : S} (h : m.Thrown P s) (hPQ : ∀ s, P s → Q s) : m.Thrown Q s :=
  fun e s' he => hPQ s' (h e s' he)

theorem EdgeContainer.strong_removeT (s t : NodeId) (c : EdgeContainer) : (EdgeContainer.removeT s t).Strong c :=
  Act.Strong.ofRead (fun _ _ => Act.Calm.strong (Act.Calm.ofGet (Act.Calm.bind (Act.calm_set _ _) (fun _ _ _ => Act.Calm.ofGet (Act.calm_set _ _)))))

namespace Graph
variable {A : LayerId → Prefix → Prop} {F : Prop} {N : Nat} {g : Graph}

/-- The invariants from which no call can be undefined behaviour. -/
structure Inv (A : LayerId → Prefix → Prop) (N : Nat) (F : Prop) (g : Graph) : Prop where
  mv : MV g.view
  tame : g.Tame A N F

theorem Inv.mono (h : g.Inv A N F) {M : Nat} (hM : N ≤ M) : g.Inv A M F := ⟨h.mv, h.tame.mono hM⟩
theorem Inv.weaken (h : g.Inv A N F) {F' : Prop} (hF : F' → F) : g.Inv A N F' := ⟨h.mv, h.tame.weaken hF⟩

/-- `removeAncestry` writes only after both pointers have been found. -/
theorem strong_removeAncestryT (s t ks kt) (g : Graph) : (removeAncestryT s t ks kt).Strong g := by
  unfold removeAncestryT
  refine Strong.ofRead (fun p hp => Strong.ofRead (fun q hq => ?_))
  have h1 := held_of_ok hp
  have h2 := held_of_ok hq
  split
  · exact (calm_mods h1 h2 _ _).strong
  split
  · exact (calm_mods h2 h1 _ _).strong
  · exact (calm_mods h1 h2 _ _).strong

theorem strong_onInter {α : Type} (d : Bool) {m : Act EdgeContainer α} (h : ∀ c, m.Strong c) (g : Graph) : (onInter d m).Strong g := by
  unfold onInter
  split
  · exact Strong.within (fun c hc => by cases hc; rfl) (fun c _ => h c)
  · exact Strong.within (fun c hc => by cases hc; rfl) (fun c _ => h c)

theorem ok_of_unit {m : Act Graph Unit} {r : Res Graph} {g g' : Graph} {u : Unit} (hr : m.res g = (r >>= fun g' => .ok (g', ()))) (e : m g = .ok u g') : r = .ok g' := by
  have := of_res e
  rw [hr] at this
  cases r with
  | ok a => cases this; rfl
  | throw e => cases this
  | ub => cases this

theorem Inv.removedAncestry (h : g.Inv A N F) {s t : NodeId} {ks kt : LayerKey} (hs : g.lookup.find? s = some ks) (ht : g.lookup.find? t = some kt)
    (e : ks ≠ kt) {g' : Graph} (e' : g.removeAncestry s t ks kt = .ok g') : g'.Inv A N F ∧ ∀ m, g'.lookup.find? m = g.lookup.find? m := by
  have hne : s ≠ t := by rintro rfl; rw [hs] at ht; exact e (Option.some.inj ht)
  obtain ⟨x, y, hx, hy, v⟩ := (removeAncestry_sat h.mv.mw hs ht hne).got e'
  exact ⟨⟨by rw [v]; exact h.mv.unlink hx hy e, (h.tame.removeAncestry s t ks kt).get _ e'⟩, fun m => by rw [lookup_of_view v]; rfl⟩
theorem Inv.addedAncestry (h : g.Inv A N F) {s t : NodeId} {ks kt : LayerKey} (hs : g.lookup.find? s = some ks) (ht : g.lookup.find? t = some kt)
    {g' : Graph} (e' : g.addAncestry s t ks kt = .ok g') : g'.Inv A N F :=
  ⟨(addAncestry_sat' h.mv hs ht).got e', (h.tame.addAncestry s t ks kt).get _ e'⟩

theorem Inv.removeInterlayerEdgeT (h : g.Inv A N F) {s t : NodeId} {ks kt : LayerKey} (hs : g.lookup.find? s = some ks) (ht : g.lookup.find? t = some kt)
    (e : ks ≠ kt) : (removeInterlayerEdgeT s t ks kt).Thrown (Inv A N F) g := by
  unfold Graph.removeInterlayerEdgeT
  refine Thrown.bind ((strong_removeAncestryT s t ks kt g).thrown h) (fun u g' e' => ?_)
  have e' := ok_of_unit (res_removeAncestryT s t ks kt g) e'
  exact (strong_onInter _ (EdgeContainer.strong_removeT s t) g').thrown (h.removedAncestry hs ht e e').1

theorem calm_dispatch {α : Type} {m : Act Layer α} {m' : Act DynLayer α} {b : BaseLayer} (h : ∀ l, b = .static l → m.Calm l) (h' : ∀ d, b = .dyn d → m'.Calm d) :
    (BaseLayer.dispatch m m').Calm b := by
  intro e s' he
  unfold BaseLayer.dispatch at he
  cases b with
  | static l =>
    simp only at he
    cases hm : m l with
    | throw e1 l1 => exact h l rfl _ _ hm
    | ok a l1 => rw [hm] at he; cases he
    | ub => rw [hm] at he; cases he
  | dyn l =>
    simp only at he
    cases hm : m' l with
    | throw e1 l1 => exact h' l rfl _ _ hm
    | ok a l1 => rw [hm] at he; cases he
    | ub => rw [hm] at he; cases he
theorem strong_dispatch' {α : Type} {m : Act Layer α} {m' : Act DynLayer α} {b : BaseLayer} (h : ∀ l, b = .static l → m.Strong l) (h' : ∀ d, b = .dyn d → m'.Strong d) :
    (BaseLayer.dispatch m m').Strong b := by
  intro e s' he
  unfold BaseLayer.dispatch at he
  cases b with
  | static l =>
    simp only at he
    cases hm : m l with
    | throw e1 l1 => rw [hm] at he; cases he; rw [h l rfl _ _ hm]
    | ok a l1 => rw [hm] at he; cases he
    | ub => rw [hm] at he; cases he
  | dyn l =>
    simp only at he
    cases hm : m' l with
    | throw e1 l1 => rw [hm] at he; cases he; rw [h' l rfl _ _ hm]
    | ok a l1 => rw [hm] at he; cases he
    | ub => rw [hm] at he; cases he

theorem strong_onLayer' {α : Type} (k : LayerKey) {m : Act BaseLayer α} (h : ∀ b, g.layerFromKey k = .ok b → m.Strong b) : (onLayer k m).Strong g :=
  Strong.within (fun _ hb => setLayer_self (layerFromKey_iff.1 hb)) (fun b hb => h b hb)

theorem Inv.removeEdgeT (h : g.Inv A N F) (s t : NodeId) : (removeEdgeT s t).Thrown (Inv A N F) g := by
  unfold Graph.removeEdgeT
  refine Thrown.ofRead h (fun r hr => ?_)
  have hk := (hasEdgeKeys_sat h.mv s t).got hr
  obtain ⟨has, ks, kt⟩ := r
  simp only
  split
  · exact Act.thrown_pure _ _
  split
  · exact Act.thrown_pure _ _
  rename_i _ hv
  have hk : g.lookup.find? s = some ks ∧ g.lookup.find? t = some kt := by
    rcases hk with hk | hk
    · cases hk; exact (hv (by decide)).elim
    · exact hk
  split
  · refine (strong_onLayer' ks (fun b hb => strong_dispatch' (fun l e => ?_) (fun d e => ?_))).thrown h
    · have hl := (h.tame.layerFromKey ks).get b hb
      rw [e] at hl
      exact (Act.calm_of (Layer.res_removeEdgeT s t l) (Layer.removeEdge_nt hl s t)).strong
    · have hl := (h.tame.layerFromKey ks).get b hb
      rw [e] at hl
      exact (Act.calm_of (DynLayer.res_removeEdgeT s t d) (DynLayer.removeEdge_nt hl s t)).strong
  · rename_i e
    exact Thrown.bind (h.removeInterlayerEdgeT hk.1 hk.2 e) (fun _ _ _ => Act.thrown_pure _ _)

theorem Inv.removeEdge (h : g.Inv A N F) (s t : NodeId) : Keeps (fun r => r.1.Inv A N F) (g.removeEdge s t) :=
  ⟨fun r e => ⟨(removeEdge_sat h.mv s t).got e, (h.tame.removeEdge s t).get r e⟩⟩

/-- Forget the answer. -/
theorem Inv.removeEdgeT_ (h : g.Inv A N F) (s t : NodeId) : (Graph.removeEdgeT s t >>= fun _ => (pure () : Act Graph Unit)).Thrown (Inv A N F) g :=
  Thrown.bind (h.removeEdgeT s t) (fun _ _ _ => Act.thrown_pure _ _)
theorem Inv.removeEdgeK_ (h : g.Inv A N F) (s t : NodeId) :
    Keeps (fun r => r.1.Inv A N F) ((Graph.removeEdgeT s t >>= fun _ => (pure () : Act Graph Unit)).res g) := by
  simp only [Act.res_bind, res_removeEdgeT, Act.res_pure]
  exact Keeps.bind (h.removeEdge s t) (fun r hr => Keeps.ok hr)

theorem Inv.removeStaleEdgesT (h : g.Inv A N F) (m : OMap EdgeKey Bool) : (removeStaleEdgesT m).Thrown (Inv A N F) g := by
  unfold Graph.removeStaleEdgesT
  refine Thrown.eachInv h (fun e g h => ?_) (fun e g h => ?_)
  · split
    · exact h.removeEdgeT_ _ _
    · exact Act.thrown_pure _ _
  · split
    · exact h.removeEdgeK_ _ _
    · exact Keeps.ok h
theorem Inv.removeStaleEdges (h : g.Inv A N F) (m : OMap EdgeKey Bool) : Keeps (fun r => r.1.Inv A N F) ((Graph.removeStaleEdgesT m).res g) := by
  rw [res_removeStaleEdgesT]
  exact Keeps.bind (P := Inv A N F) ⟨fun g' e => ⟨(removeStaleEdges_sat h.mv m).got e, (h.tame.removeStaleEdges m).get g' e⟩⟩ (fun _ h => Keeps.ok h)

theorem Inv.removeStaleStatic (h : g.Inv A N F) (l : LayerId) : (removeStaleStaticT l).Thrown (Inv A N F) g ∧ Keeps (fun r => r.1.Inv A N F) ((removeStaleStaticT l).res g) := by
  unfold removeStaleStaticT
  refine ⟨Thrown.ofGet ?_, ?_⟩
  · cases g.layers.find? l with
    | none => exact Act.thrown_pure _ _
    | some x => exact h.removeStaleEdgesT _
  · simp only [Act.res_bind, Act.res_get, Res.bind_ok]
    cases g.layers.find? l with
    | none => exact Keeps.ok h
    | some x => exact h.removeStaleEdges _
theorem Inv.removeStaleDyn (h : g.Inv A N F) (l : LayerId × Prefix) : (removeStaleDynT l).Thrown (Inv A N F) g ∧ Keeps (fun r => r.1.Inv A N F) ((removeStaleDynT l).res g) := by
  unfold removeStaleDynT
  refine ⟨Thrown.ofGet ?_, ?_⟩
  · cases g.dynLayer? l.1 l.2 with
    | none => exact Act.thrown_pure _ _
    | some x => exact h.removeStaleEdgesT _
  · simp only [Act.res_bind, Act.res_get, Res.bind_ok]
    cases g.dynLayer? l.1 l.2 with
    | none => exact Keeps.ok h
    | some x => exact h.removeStaleEdges _

theorem Inv.each {β : Type} {f : β → Act Graph Unit} (hf : ∀ x g, Inv A N F g → (f x).Thrown (Inv A N F) g ∧ Keeps (fun r => r.1.Inv A N F) ((f x).res g)) (L : List β)
    (h : g.Inv A N F) : (Act.each f L).Thrown (Inv A N F) g ∧ ∀ g' u, Act.each f L g = .ok u g' → g'.Inv A N F := by
  refine ⟨Thrown.eachInv h (fun x g h => (hf x g h).1) (fun x g h => (hf x g h).2), fun g' u e => ?_⟩
  have e := of_res e
  rw [Act.res_each] at e
  obtain ⟨g1, e1, e⟩ := bind_eq_ok e
  cases e
  exact (Keeps.fold (P := Inv A N F) (fun g x h => Keeps.bind (hf x g h).2 (fun r hr => Keeps.ok hr)) L h).get _ e1

theorem Inv.removeAllStaleEdgesT (h : g.Inv A N F) : removeAllStaleEdgesT.Thrown (Inv A N F) g := by
  unfold Graph.removeAllStaleEdgesT
  refine Thrown.ofGet ?_
  have k1 := Inv.each (f := removeStaleStaticT) (fun x g h => h.removeStaleStatic x) g.layers.keys h
  refine Thrown.bind k1.1 (fun u g1 e1 => Thrown.ofGet ?_)
  have h1 := k1.2 g1 u e1
  have k2 := Inv.each (f := removeStaleDynT) (fun x g h => h.removeStaleDyn x) (g1.dyns.toList.flatMap (fun e => e.2.keys.map (fun p => (e.1, p)))) h1
  refine Thrown.bind k2.1 (fun u g2 e2 => Thrown.ofGet ?_)
  have h2 := k2.2 g2 u e2
  refine Thrown.bind (h2.removeStaleEdgesT _) (fun u g3 e3 => Thrown.ofGet ?_)
  exact ((h2.removeStaleEdges _).get _ (of_res e3)).removeStaleEdgesT _

theorem Inv.dropAllParentsT (h : g.Inv A N F) (s t : NodeId) (ks kt : LayerKey) : (dropAllParentsT s t ks kt).Thrown (Inv A N F) g := by
  unfold Graph.dropAllParentsT
  refine Thrown.ofRead h (fun p _ => Thrown.ofRead h (fun q _ => Thrown.ofRead h (fun x _ => ?_)))
  exact Thrown.eachInv h (fun q g h => h.removeEdgeT_ _ _) (fun q g h => h.removeEdgeK_ _ _)

theorem Inv.linkParentT (h : g.Inv A N F) (s t : NodeId) (ks kt : LayerKey) (a : Option EdgeAttrs) : (linkParentT s t ks kt a).Thrown (Inv A N F) g :=
  Thrown.bind ((strong_addAncestryT s t ks kt g).thrown h) (fun _ _ _ => (Calm.bind (calm_modify _ _) (fun _ _ _ => Act.calm_pure _ _)).thrown)

theorem Inv.insertParentEdgeT (h : g.Inv A N F) (s t : NodeId) (i : Option EdgeAttrs) : (insertParentEdgeT s t i).Thrown (Inv A N F) g := by
  unfold Graph.insertParentEdgeT
  refine Thrown.ofRead h (fun r hr => ?_)
  have hk := (hasEdgeKeys_sat h.mv s t).got hr
  obtain ⟨has, ks, kt⟩ := r
  simp only
  split
  · exact Act.thrown_pure _ _
  split
  · exact Act.thrown_pure _ _
  rename_i _ hv
  have hk : g.lookup.find? s = some ks ∧ g.lookup.find? t = some kt := by
    rcases hk with hk | hk
    · cases hk; exact (hv (by decide)).elim
    · exact hk
  split
  · refine Thrown.bind (h.dropAllParentsT s t ks kt) (fun u g1 e1 => ?_)
    have e1 := ok_of_unit (res_dropAllParentsT s t ks kt g) e1
    exact Inv.linkParentT ⟨((dropAllParents_sat h.mv hk.1 hk.2).got e1).1, (h.tame.dropAllParents s t ks kt).get _ e1⟩ _ _ _ _ _
  · exact h.linkParentT _ _ _ _ _

/-! ## Removing a node -/

theorem fold_unit {β : Type} {f : β → Act Graph Unit} {k : Graph → β → Res Graph} (hk : ∀ x g, (f x).res g = (k g x >>= fun g' => .ok (g', ()))) :
    (fun g x => (f x).res g >>= fun r => .ok r.1) = k := by
  funext g x
  rw [hk]
  cases k g x <;> rfl

/-- One of the two loops of `removeNode`. -/
theorem Inv.detachT (h : g.Inv A N F) {k : LayerKey} {n : NodeId} {x : Node} (hn : g.lookup.find? n = some k) (hx : g.view.node k n = some x)
    (L : List NodeId) (hL : (∀ t ∈ L, x.children.contains t = true) ∨ (∀ t ∈ L, x.parents.contains t = true)) :
    (Act.each (fun t => removeInterlayerEdgeT' n t) L).Thrown (Inv A N F) g ∧
    ∀ g' u, Act.each (fun t => removeInterlayerEdgeT' n t) L g = .ok u g' → g'.Inv A N F ∧ Near g k n x g' := by
  have hf := fold_unit (f := fun t => removeInterlayerEdgeT' n t) (k := fun g t => g.removeInterlayerEdge' n t) (fun t g => res_removeInterlayerEdgeT' n t g)
  have key : ∀ L, ((∀ t ∈ L, x.children.contains t = true) ∨ (∀ t ∈ L, x.parents.contains t = true)) → ∀ g',
      foldRes (fun g t => g.removeInterlayerEdge' n t) g L = .ok g' → g'.Inv A N F ∧ Near g k n x g' := by
    intro L hL g' e
    have hN : Near g k n x g' := by
      rcases hL with hL | hL
      · exact ((detach_sat h.mv hn L Node.children (.inl ⟨rfl, hL⟩) hx).got e).1
      · exact ((detach_sat h.mv hn L Node.parents (.inr ⟨rfl, hL⟩) hx).got e).1
    exact ⟨⟨hN.mv, (Keeps.fold (P := Tame A N F) (fun g t hg => hg.removeInterlayerEdge' n t) L h.tame).get _ e⟩, hN⟩
  refine ⟨Thrown.each (fun pre t post g' hpre e => ?_), fun g' u e => ?_⟩
  · rw [hf] at e
    have hpre' : ∀ u ∈ pre, u ∈ L := fun u hu => by rw [hpre]; exact List.mem_append_left _ hu
    have ht : t ∈ L := by rw [hpre]; simp
    obtain ⟨hI, hN⟩ := key pre (hL.imp (fun h u hu => h u (hpre' u hu)) (fun h u hu => h u (hpre' u hu))) g' e
    have hk : ∃ k', g.lookup.find? t = some k' ∧ k ≠ k' := by
      rcases hL with hL | hL
      · obtain ⟨k', y, e1, -, e3⟩ := h.mv.child k n x t hx (hL t ht)
        exact ⟨k', (h.mv.key t k').2 (by simp [e1]), by rintro rfl; exact lt_irrefl_layer k e3⟩
      · obtain ⟨k', y, e1, -, e3⟩ := h.mv.par k n x t hx (hL t ht)
        exact ⟨k', (h.mv.key t k').2 (by simp [e1]), by rintro rfl; exact lt_irrefl_layer k e3⟩
    obtain ⟨k', hk', hne⟩ := hk
    unfold removeInterlayerEdgeT'
    refine Thrown.ofRead hI (fun a ha => Thrown.ofRead hI (fun b hb => ?_))
    rw [hN.look, hn] at ha
    rw [hN.look, hk'] at hb
    cases ha; cases hb
    exact hI.removeInterlayerEdgeT ((hN.look n).trans hn) ((hN.look t).trans hk') hne
  · have e := of_res e
    rw [Act.res_each, hf] at e
    obtain ⟨g1, e1, e⟩ := bind_eq_ok e
    cases e
    exact key L hL _ e1

theorem Inv.removeNodeT (h : g.Inv A N F) (n : NodeId) : (removeNodeT n).Thrown (Inv A N F) g := by
  unfold Graph.removeNodeT
  refine Thrown.ofGet ?_
  cases hn : g.lookup.find? n with
  | none => exact Act.thrown_pure _ _
  | some k =>
    simp only
    refine Thrown.ofRead h (fun p hp => Thrown.ofRead h (fun x hx => ?_))
    obtain ⟨x', hx', rfl⟩ := (ptr_sat h.mv.mw hn).got hp
    cases hx
    have d1 := h.detachT hn hx' x.children.keys (.inl (fun t ht => OMap.mem_keys.1 ht))
    refine Thrown.bind d1.1 (fun u g1 e1 => ?_)
    obtain ⟨h1, N1⟩ := d1.2 g1 u e1
    have hn1 : g1.lookup.find? n = some k := (N1.look n).trans hn
    refine Thrown.ofRead h1 (fun p hp => Thrown.ofRead h1 (fun y hy => ?_))
    obtain ⟨y', hy', rfl⟩ := (ptr_sat h1.mv.mw hn1).got hp
    cases hy
    have d2 := h1.detachT hn1 hy' y.parents.keys (.inr (fun t ht => OMap.mem_keys.1 ht))
    refine Thrown.bind d2.1 (fun u g2 e2 => ?_)
    obtain ⟨h2, N2⟩ := d2.2 g2 u e2
    refine Thrown.bind ((strong_onLayer' k (fun b hb => strong_dispatch' (fun l e => ?_) (fun d e => ?_))).thrown h2)
      (fun _ _ _ => (Calm.bind (calm_modify _ _) (fun _ _ _ => Act.calm_pure _ _)).thrown)
    · have hl := (h2.tame.layerFromKey k).get b hb
      rw [e] at hl
      exact (Act.calm_of (Layer.res_removeNodeT n l) (Layer.removeNode_nt hl n)).strong
    · have hl := (h2.tame.layerFromKey k).get b hb
      rw [e] at hl
      exact DynLayer.removeNodeT_strong hl n

/-! ## Merging two nodes -/

theorem strong_takeInterT (s t : NodeId) {c : EdgeContainer} (h : c.Nice F) : (takeInterT s t).Calm c := by
  rw [Act.calm_iff, res_takeInterT]
  intro e he
  cases hq : (c.find s t).2 with
  | none => rw [hq] at he; cases he
  | some x =>
    rw [hq] at he
    have hc : (c.find s t).1.contains s t = true := by
      rw [EdgeContainer.contains_find]
      unfold EdgeContainer.find EdgeContainer.findKey at hq
      split at hq
      · cases hq
      · rename_i y hy; simp [EdgeContainer.contains, OMap.contains, hy]
    obtain ⟨c', hr⟩ := (h.find s t).remove_ok hc
    cases hx : x.info with
    | none => simp [hx] at he
    | some a => simp [hx, hr] at he

theorem Inv.rewireInterlayerEdgeT (h : g.Inv A N F) {f t u : NodeId} {k ku : LayerKey} (hf : g.lookup.find? f = some k)
    (ht : g.lookup.find? t = some k) (hu : g.lookup.find? u = some ku) (hne : k ≠ ku) : (rewireInterlayerEdgeT f t u).Thrown (Inv A N F) g := by
  unfold Graph.rewireInterlayerEdgeT
  split
  · exact Act.thrown_pure _ _
  refine Thrown.ofRead h (fun a ha => Thrown.ofRead h (fun r hr => ?_))
  rw [hf] at ha; cases ha
  have hk : ∃ b, g.hasEdgeKeys t u = .ok (b, k, ku) := by
    simp only [hasEdgeKeys, ht, hu, if_neg hne]
    split <;> exact ⟨_, rfl⟩
  obtain ⟨b, hk⟩ := hk
  rw [hk] at hr
  cases hr
  simp only
  split
  · exact h.removeInterlayerEdgeT hf hu hne
  refine Thrown.bind ((strong_removeAncestryT f u k ku g).thrown h) (fun _ g1 e1 => ?_)
  obtain ⟨h1, l1⟩ := h.removedAncestry hf hu hne (ok_of_unit (res_removeAncestryT f u k ku g) e1)
  refine Thrown.bind ((strong_addAncestryT t u k ku g1).thrown h1) (fun _ g2 e2 => ?_)
  have h2 := h1.addedAncestry ((l1 t).trans ht) ((l1 u).trans hu) (ok_of_unit (res_addAncestryT t u k ku g1) e2)
  refine Thrown.bind ?_ (fun o g3 e3 => ?_)
  · unfold onInter
    split
    · exact (Calm.within (by simp) (fun c hc => by cases hc; exact strong_takeInterT f u h2.tame.dynInter)).thrown
    · exact (Calm.within (by simp) (fun c hc => by cases hc; exact strong_takeInterT f u h2.tame.inter)).thrown
  · cases o with
    | none => exact Act.thrown_pure _ _
    | some a => exact (calm_modify _ _).thrown

theorem Inv.rewireAllT (h : g.Inv A N F) (hF : F) {k : LayerKey} {f t : NodeId} {x : Node} (hf : g.lookup.find? f = some k) (ht : g.lookup.find? t = some k)
    (hft : f ≠ t) (hx : g.view.node k f = some x) (L : List NodeId) (hL : (∀ t ∈ L, x.children.contains t = true) ∨ (∀ t ∈ L, x.parents.contains t = true)) :
    (Act.each (fun u => Graph.rewireInterlayerEdgeT f t u) L).Thrown (Inv A N F) g ∧
    ∀ g' u, Act.each (fun u => Graph.rewireInterlayerEdgeT f t u) L g = .ok u g' → g'.Inv A N F ∧ Near g k f x g' := by
  have hfold := fold_unit (f := fun u => Graph.rewireInterlayerEdgeT f t u) (k := fun g u => g.rewireInterlayerEdge f t u) (fun u g => res_rewireInterlayerEdgeT f t u g)
  have key : ∀ L, ((∀ t ∈ L, x.children.contains t = true) ∨ (∀ t ∈ L, x.parents.contains t = true)) → ∀ g',
      foldRes (fun g u => g.rewireInterlayerEdge f t u) g L = .ok g' → g'.Inv A N F ∧ Near g k f x g' := by
    intro L hL g' e
    have hN : Near g k f x g' := by
      rcases hL with hL | hL
      · exact ((rewireAll_sat h.mv (h.tame.viewFull hF) hf ht hft L Node.children (.inl ⟨rfl, hL⟩) hx).got e).1
      · exact ((rewireAll_sat h.mv (h.tame.viewFull hF) hf ht hft L Node.parents (.inr ⟨rfl, hL⟩) hx).got e).1
    exact ⟨⟨hN.mv, (Keeps.fold (P := Tame A N F) (fun g u hg => hg.rewireInterlayerEdge f t u) L h.tame).get _ e⟩, hN⟩
  refine ⟨Thrown.each (fun pre u post g' hpre e => ?_), fun g' u e => ?_⟩
  · rw [hfold] at e
    have hpre' : ∀ u ∈ pre, u ∈ L := fun u hu => by rw [hpre]; exact List.mem_append_left _ hu
    have hu : u ∈ L := by rw [hpre]; simp
    obtain ⟨hI, hN⟩ := key pre (hL.imp (fun h u hu => h u (hpre' u hu)) (fun h u hu => h u (hpre' u hu))) g' e
    have hk : ∃ k', g.lookup.find? u = some k' ∧ k ≠ k' := by
      rcases hL with hL | hL
      · obtain ⟨k', y, e1, -, e3⟩ := h.mv.child k f x u hx (hL u hu)
        exact ⟨k', (h.mv.key u k').2 (by simp [e1]), by rintro rfl; exact lt_irrefl_layer k e3⟩
      · obtain ⟨k', y, e1, -, e3⟩ := h.mv.par k f x u hx (hL u hu)
        exact ⟨k', (h.mv.key u k').2 (by simp [e1]), by rintro rfl; exact lt_irrefl_layer k e3⟩
    obtain ⟨k', hk', hne⟩ := hk
    exact hI.rewireInterlayerEdgeT ((hN.look f).trans hf) ((hN.look t).trans ht) ((hN.look u).trans hk') hne
  · have e := of_res e
    rw [Act.res_each, hfold] at e
    obtain ⟨g1, e1, e⟩ := bind_eq_ok e
    cases e
    exact key L hL _ e1

theorem Inv.mergeNodesT (h : g.Inv A N F) (hF : F) (f t : NodeId) : (mergeNodesT f t).Thrown (Inv A N F) g := by
  unfold Graph.mergeNodesT
  refine Thrown.ofGet ?_
  cases hf : g.lookup.find? f with
  | none => exact Act.thrown_pure _ _
  | some k =>
    cases ht : g.lookup.find? t with
    | none => exact Act.thrown_pure _ _
    | some k' =>
      simp only
      split
      · exact Act.thrown_pure _ _
      rename_i hft
      split
      · exact Act.thrown_pure _ _
      rename_i hkk
      have hkk : k = k' := Decidable.of_not_not hkk
      subst hkk
      refine Thrown.ofRead h (fun x hx => ?_)
      -- the record read from the static layer is the one the graph stores
      have rd : ∀ {g1 : Graph} {x : Node}, g1.Inv A N F → g1.lookup.find? f = some k → g1.staticNode k.layer f = .ok x → g1.view.node k f = some x := by
        intro g1 x h1 hf1 hx
        unfold staticNode at hx
        obtain ⟨l, hl, hx⟩ := bind_eq_ok hx
        cases e : g1.layers.find? k.layer with
        | none => rw [e] at hl; cases hl
        | some l' =>
          rw [e] at hl; cases hl
          cases e' : l.nodes.find? f with
          | none => rw [e'] at hx; cases hx
          | some y =>
            rw [e'] at hx; cases hx
            have hv : g1.view.node (.static k.layer) f = some x := by
              rw [view_node_of_layerAt? (b := .static l) (by simp [layerAt?, e])]; exact e'
            have := (h1.mv.key f (.static k.layer)).2 (by simp [hv])
            have h2 : g1.view.lookup f = some k := hf1
            rw [h2] at this
            rw [Option.some.inj this]
            exact hv
      have d1 := h.rewireAllT hF hf ht hft (rd h hf hx) x.parents.keys (.inr (fun t ht => OMap.mem_keys.1 ht))
      refine Thrown.bind d1.1 (fun u g1 e1 => ?_)
      obtain ⟨h1, N1⟩ := d1.2 g1 u e1
      have hf1 := (N1.look f).trans hf
      have ht1 := (N1.look t).trans ht
      refine Thrown.ofRead h1 (fun y hy => ?_)
      have d2 := h1.rewireAllT hF hf1 ht1 hft (rd h1 hf1 hy) y.children.keys (.inl (fun t ht => OMap.mem_keys.1 ht))
      refine Thrown.bind d2.1 (fun u g2 e2 => ?_)
      obtain ⟨h2, N2⟩ := d2.2 g2 u e2
      have hc : (onStatic k.layer (Layer.mergeNodesT f t)).Calm g2 := by
        refine Calm.within (Res.deref_ne_throw _) (fun l hl => ?_)
        have hT := (h2.tame.derefStat k.layer).get l hl
        exact Act.calm_of (Layer.res_mergeNodesT f t l) (Layer.mergeNodes_nt hT f t)
      exact Thrown.bind hc.thrown (fun _ _ _ => (Calm.bind (calm_modify _ _) (fun _ _ _ => Act.calm_pure _ _)).thrown)

theorem Inv.ansT {m : Act Graph Bool} (h : m.Thrown (Inv A N F) g) : (ansT m).Thrown (Inv A N F) g :=
  Thrown.bind h (fun _ _ _ => Act.thrown_pure _ _)

end Graph
end Verif
