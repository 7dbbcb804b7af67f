import Verif.Lemmas.Merge7
/-! # The phases of `mergeGraph` -/

namespace Verif

theorem Graph.mem_dynEntries {o : Graph} {l : LayerId} {p : Prefix} {d : DynLayer} :
    ((l, p), d) ∈ o.dynEntries ↔ o.dynLayer? l p = some d := by
  unfold Graph.dynEntries Graph.dynLayer?
  simp only [List.mem_flatMap, List.mem_map, Option.bind_eq_some_iff]
  constructor
  · rintro ⟨⟨l', m⟩, h1, ⟨p', d'⟩, h2, h3⟩
    simp only [Prod.mk.injEq] at h3
    obtain ⟨⟨rfl, rfl⟩, rfl⟩ := h3
    exact ⟨m, OMap.mem_toList.1 h1, OMap.mem_toList.1 h2⟩
  · rintro ⟨m, h1, h2⟩
    exact ⟨(l, m), OMap.mem_toList.2 h1, (p, d), OMap.mem_toList.2 h2, rfl⟩

theorem Graph.dynEntries_nodup (o : Graph) : (o.dynEntries.map Prod.fst).Nodup := by
  unfold Graph.dynEntries
  rw [List.map_flatMap]
  have hk : ∀ {β : Type} (m : OMap LayerId β), m.toList.Pairwise (fun a b => a.1 ≠ b.1) := fun m => by
    have := m.keys_nodup
    unfold OMap.keys at this
    exact List.pairwise_map.1 this
  refine nodup_flatMap ?_ ?_
  · intro e _
    have := e.2.keys_nodup
    unfold OMap.keys at this
    rw [List.map_map]
    refine List.pairwise_map.2 ?_
    refine (List.pairwise_map.1 this).imp ?_
    intro a b hab h
    exact hab (by simpa using congrArg Prod.snd h)
  · refine (hk o.dyns).imp ?_
    intro a b hab x hx hx'
    simp only [List.map_map, List.mem_map, Function.comp_apply] at hx hx'
    obtain ⟨u, -, rfl⟩ := hx
    obtain ⟨v, -, h⟩ := hx'
    exact hab (congrArg Prod.fst h).symm

section
variable {P : MergePar} {g g' : Graph} {σ σ0 τ : Spec}

theorem dynEvs_from {o : Graph} (ho : R o τ) (hto : τ.Tops) {l : LayerId} {p : Prefix} {d : DynLayer} (hd : o.dynLayer? l p = some d)
    (hall : ∀ i, i < (τ.dynInfo l p).top → τ.key? (p.makeId i) = some (.dyn l p)) {ev : MergeEv} (he : ev ∈ dynEvs ((l, p), d)) :
    ev.From τ ∧ (∀ s t a, ev ≠ .inter s t a) ∧ (ev = .create l p ∨ (∃ n t a, ev = .dynNode l p n t a) ∨ ∃ s t a, ev = .edge (.dyn l p) s t s t a) := by
  obtain ⟨hlen, hsmall, hslots⟩ := ho.dyn_slots hto hd hall
  rcases List.mem_cons.1 he with rfl | he
  · exact ⟨trivial, nofun, .inl rfl⟩
  · rcases List.mem_append.1 he with he | he
    · obtain ⟨j, y, t, a, h1, h2, h3, rfl⟩ := dynNodeEvs_node he
      obtain ⟨x, hx, hxk, e⟩ := hslots j _ h1
      injection e with e
      subst e
      rw [Nat.zero_add]
      refine ⟨⟨x, hx, hxk, h2, ?_⟩, nofun, .inr (.inl ⟨_, _, _, rfl⟩)⟩
      have : some x.attrs = some a := h3
      injection this
    · obtain ⟨q, e, a, -, -, rfl⟩ := edgeEvs_mem.1 he
      exact ⟨trivial, nofun, .inr (.inr ⟨_, _, _, rfl⟩)⟩

theorem Untouched.run {evs : List MergeEv} {l l' : LayerId} {p p' : Prefix} (hne : (l', p') ≠ (l, p)) (hu : Untouched σ0 σ l p)
    (hh : ∀ n k k', σ0.key? n = some k → τ.key? n = some k' → k = k')
    (h : MInv P σ0 τ g σ) (hd : Did P g σ evs g')
    (hs : ∀ ev ∈ evs, ev.From τ ∧ (ev = .create l' p' ∨ (∃ n t a, ev = .dynNode l' p' n t a) ∨ ∃ s t a, ev = .edge (.dyn l' p') s t s t a)) :
    Untouched σ0 (σ.merged P evs) l p := by
  have h' := h.run hd (fun e he => (hs e he).1)
  constructor
  · rw [← hu.info]
    refine hd.induct (fun _ σ' => σ'.dynInfo l p = σ.dynInfo l p) rfl ?_
    intro g1 σ1 e g2 he hq hdo hf
    rw [← hq]
    unfold Spec.dynInfo
    rw [plan_dyn e hf]
    rcases (hs e he).2 with rfl | ⟨n, t, a, rfl⟩ | ⟨s, t, a, rfl⟩
    · dsimp only
      split
      · rfl
      · rw [OMap.find?_insert, if_neg hne]
    · dsimp only
      split
      · rw [OMap.find?_insert, if_neg hne]
      · rfl
    · rfl
  · intro n i hi
    rw [← hu.nodes n i hi]
    by_cases ht : ∃ ev ∈ evs, ev.node? = some n
    · obtain ⟨ev, he, hn⟩ := ht
      obtain ⟨hfr, hsh⟩ := hs ev he
      have hk : τ.key? n = some (.dyn l' p') := by
        rcases hsh with rfl | ⟨m, t, a, rfl⟩ | ⟨s, t, a, rfl⟩
        · cases hn
        · cases hn
          obtain ⟨x, hx, hxk, -⟩ := hfr
          rw [Spec.key?_eq hx, hxk]
        · cases hn
      have hcon : ∀ {g σ}, MInv P σ0 τ g σ → σ.nodes.find? n ≠ some i := by
        intro g σ hm hx
        have := hm.home hh (Spec.key?_eq hx) hk
        rw [hi] at this
        injection this with e1 e2
        exact hne (by rw [e1, e2])
      exact ⟨fun hx => absurd hx (hcon h'), fun hx => absurd hx (hcon h)⟩
    · rw [merged_nodes hd.fits, foldl_other]
      intro e he hn
      exact ht ⟨e, he, hn⟩

/-- The loop over the dynamic layers of the other graph. -/
theorem MInv.dynPhase {o : Graph} (ho : R o τ) (hwτ : SWF τ) (hto : τ.Tops)
    (hh : ∀ n k k', σ0.key? n = some k → τ.key? n = some k' → k = k')
    (ht : ∀ l p, o.hasDynLayer l p = true → Traj σ0 τ l p)
    (hP : ∀ l p, P.delta l p = deltaAt P.F σ0 τ p (σ0.dynInfo l p).top)
    (h : MInv P σ0 τ g σ0) :
    ∃ g', foldRes (Graph.mergeDyn P.F P.cfg) g o.dynEntries = .ok g' ∧ Did P g σ0 (o.dynEntries.flatMap dynEvs) g' ∧
      MInv P σ0 τ g' (σ0.merged P (o.dynEntries.flatMap dynEvs)) ∧ MCross σ0 (σ0.merged P (o.dynEntries.flatMap dynEvs)) := by
  have key := Did.foldList (P := P) (f := Graph.mergeDyn P.F P.cfg) (emb := fun g : Graph => g) (ev := dynEvs) (σ := σ0) (s := g)
    (fun g σ xs => MInv P σ0 τ g σ ∧ MCross σ0 σ ∧ (xs.map Prod.fst).Nodup ∧ ∀ e ∈ xs, Untouched σ0 σ e.1.1 e.1.2)
    (fun g σ xs h => ⟨h.1.r, h.1.w⟩) o.dynEntries ?_ ⟨h, fun a b he => .inl he, o.dynEntries_nodup, fun e _ => ⟨rfl, fun _ _ _ => .rfl⟩⟩
  · obtain ⟨g', h1, h2, h3, h4, -⟩ := key
    exact ⟨g', h1, h2, h3, h4⟩
  · rintro g σ ⟨⟨l, p⟩, d⟩ ys hx ⟨hm, hc, hnd, hu⟩
    have hd := Graph.mem_dynEntries.1 hx
    have htr := ht l p (by simp [Graph.hasDynLayer, hd])
    obtain ⟨g1, e1, did1, m1⟩ := hm.mergeDyn ho hwτ hto hh hd htr (hP l p) (hu _ List.mem_cons_self)
    have hfr : ∀ ev ∈ dynEvs ((l, p), d), _ := fun ev he => dynEvs_from ho hto hd htr.other he
    refine ⟨g1, e1, did1, m1, hc.run did1 (fun e he => (hfr e he).2.1), ?_, ?_⟩
    · rw [List.map_cons] at hnd; exact (List.nodup_cons.1 hnd).2
    · rintro ⟨⟨l2, p2⟩, d2⟩ he
      refine (hu _ (List.mem_cons_of_mem _ he)).run (l' := l) (p' := p) ?_ hh hm did1 (fun ev hev => ⟨(hfr ev hev).1, (hfr ev hev).2.2⟩)
      intro e
      rw [List.map_cons] at hnd
      exact (List.nodup_cons.1 hnd).1 (List.mem_map.2 ⟨_, he, e.symm⟩)

end
end Verif
