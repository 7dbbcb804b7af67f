import Verif.Lemmas.Merge9
/-! # The whole of `mergeGraph` -/

namespace Verif

/-- All iterations of `mergeGraph`. -/
def mergeEvs (σ0 : Spec) (cfg : MergeConfig) (o : Graph) : List MergeEv :=
  o.dynEntries.flatMap dynEvs ++ (o.layers.toList.flatMap (staticEvs? σ0 cfg) ++ (interEvs cfg o.inter.edges ++ interEvs cfg o.dynInter.edges))

/-- What the iterations depend on. -/
noncomputable def mergePar (F : FloatOps) (cfg : MergeConfig) (g : Graph) (σ0 τ : Spec) : MergePar :=
  open Classical in ⟨F, cfg, fun l n => decide (g.isMerged (.static l) n), fun l p => deltaAt F σ0 τ p (σ0.dynInfo l p).top⟩

section
variable {F : FloatOps} {cfg : MergeConfig} {g o : Graph} {σ0 τ : Spec}

/-- The whole of `mergeGraph`. -/
theorem R.mergeGraph (h0 : R g σ0) (hw0 : SWF σ0) (ho : R o τ) (hwτ : SWF τ) (hto : τ.Tops)
    (hh : ∀ n k k', σ0.key? n = some k → τ.key? n = some k' → k = k')
    (ht : ∀ l p, o.hasDynLayer l p = true → Traj σ0 τ l p) (hrm : Removable σ0 τ o)
    (hmap : cfg.enforceParent = true →
      ∀ n k k', τ.key? n = some k → (σ0.key? (cfg.getMergedId n) = some k' ∨ τ.key? (cfg.getMergedId n) = some k') → k' = k) :
    ∃ g' ol, Graph.mergeGraph F g o cfg = .ok (g', { o with layers := ol }, true) ∧
      Did (mergePar F cfg g σ0 τ) g σ0 (mergeEvs σ0 cfg o) g' ∧
      MInv (mergePar F cfg g σ0 τ) σ0 τ g' (σ0.merged (mergePar F cfg g σ0 τ) (mergeEvs σ0 cfg o)) ∧
      ∀ l, ol.find? l = if σ0.layerIds.contains l then (o.layers.find? l).map (Layer.reported cfg.clearRemoved) else o.layers.find? l := by
  let P := mergePar F cfg g σ0 τ
  have hinv : MInv P σ0 τ g σ0 := by
    refine ⟨h0, hw0, rfl, fun n k h => .inl h, fun n k h _ => h, ?_, ?_⟩
    · intro l n ha
      have : g.isMerged (.static l) n := by simpa [P, mergePar] using ha
      exact h0.merged_not_live this
    · intro l n
      simp [P, mergePar]
  obtain ⟨g1, e1, d1, m1, c1⟩ := hinv.dynPhase ho hwτ hto hh ht (fun l p => rfl)
  obtain ⟨g2, ol, e2, d2, m2, hol⟩ := m1.staticPhase ho hwτ hw0 hh hrm c1
  obtain ⟨g3, e3, d3, m3⟩ := m2.interPhase ho hwτ false hmap
  obtain ⟨g4, e4, d4, m4⟩ := m3.interPhase ho hwτ true hmap
  refine ⟨g4, ol, ?_, ?_, ?_, hol⟩
  · unfold Graph.mergeGraph
    rw [show foldRes (Graph.mergeDyn F cfg) g o.dynEntries = .ok g1 from e1]
    simp only [Res.bind_ok]
    rw [show foldRes (Graph.mergeStatic cfg) (g1, o.layers) o.layers.toList = .ok (g2, ol) from e2]
    simp only [Res.bind_ok]
    rw [show foldRes (Graph.mergeInter cfg) g2 o.inter.edges.toList = .ok g3 from e3]
    simp only [Res.bind_ok]
    rw [show foldRes (Graph.mergeInter cfg) g3 o.dynInter.edges.toList = .ok g4 from e4]
    rfl
  · refine d1.trans (d2.trans (d3.trans ?_))
    exact d4
  · show MInv P σ0 τ g4 (σ0.merged P (mergeEvs σ0 cfg o))
    unfold mergeEvs
    simp only [Spec.merged_append]
    exact m4

end
end Verif
