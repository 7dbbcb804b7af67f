import Verif.Lemmas.Basic3
import Verif.Spec.Intact
/-!
# C67: catching exceptions and going on, whatever throws

C58 is about calls that write after their last lookup. Here every call is allowed, also those that can throw half-way (`removeEdge`,
`removeNode`, `insertParentEdge`, `mergeNodes`, the stale sweep), and the program goes on with the graph as the throwing call left it.
-/

namespace Verif
open AnyHistory

namespace Caught

/-- The invariants after a history in which every exception is caught. -/
theorem inv_of_careful {ids : List LayerId} {ops : List Op} (h : CarefulCaught ids ops) {g0 : Graph} (hc : Graph.create ids = .ok g0) :
    ∃ g outs, g0.runCatching ops = some (g, outs) ∧ outs.length = ops.length ∧
      g.Inv (fun l p => ∃ op ∈ ops, op.appendsTo = some (l, p)) ops.length (True ∧ ∀ s t, .addOrUpdateEdge s t none ∉ ops) := by
  have hg : g0 = Graph.clear { layerIds := ids } := by
    unfold Graph.create at hc
    split at hc <;> cases hc
    rfl
  have h0 : Graph.Tame (fun l p => ∃ op ∈ ops, op.appendsTo = some (l, p)) 0 True ({ layerIds := ids } : Graph) := by
    refine ⟨?_, ?_, ?_, ?_⟩
    · intro l x hx; simp at hx
    · intro l p d hd; simp [Graph.dynLayer?] at hd
    · exact .empty
    · exact .empty
  have hI : g0.Inv (fun l p => ∃ op ∈ ops, op.appendsTo = some (l, p)) 0 True := by
    rw [hg]; exact ⟨Rd.mv_clear { layerIds := ids }, h0.clear ids⟩
  have := hI.runCatching ops (by simpa using h.few) ?_ ?_ ?_ ?_
  · rw [Nat.zero_add] at this; exact this
  · intro l p t a k hm; exact ⟨_, hm, rfl⟩
  · rintro l n t a hm ⟨op, h1, h2⟩; exact h.unmixed op h1 _ hm _ h2 rfl
  · rintro l n a t hm ⟨op, h1, h2⟩; exact h.unmixed op h1 _ hm _ h2 rfl
  · intro pre f t post e
    have hg : ops[pre.length]? = some (.mergeNodes f t) := by rw [e]; simp
    have htake : ops.take pre.length = pre := by rw [e]; simp
    refine ⟨⟨trivial, fun s t hm => ?_⟩, ?_⟩
    · have := h.attrs _ _ _ hg _ (by rw [htake]; exact hm)
      cases this
    · intro g' outs hr l p hne h1 h2
      rcases h.merges _ _ _ hg g0 g' outs hc (by rw [htake]; exact hr) with he | he
      · exact (hne he).elim
      · have := he l p h1 h2
        simpa [Graph.hasLayer, OMap.contains] using this
end Caught

/-- **C67 (basic guarantee).** A program makes any calls that are careful (`CarefulCaught`: no trajectory is both appended to and
back-filled, no merge after a null edge attribute or within a trajectory that has no static layer), catches every exception and goes on.
It never runs into undefined behaviour; every call is answered, with a value or an exception; the graph it ends with is intact. -/
theorem C67_basic_guarantee {ids : List LayerId} {ops : List Op} (h : CarefulCaught ids ops) {g0 : Graph} (hc : Graph.create ids = .ok g0) :
    ∃ g outs, g0.runCatching ops = some (g, outs) ∧ outs.length = ops.length ∧ g.Intact := by
  obtain ⟨g, outs, e, hl, hI⟩ := Caught.inv_of_careful h hc
  exact ⟨g, outs, e, hl, intact hI.mv hI.tame⟩

namespace Caught

/-- A careful history, computably. -/
def check (ids : List LayerId) (ops : List Op) : Bool :=
  decide (ops.length ≤ 2 ^ 32) &&
  ops.all (fun a => ops.all (fun b => a.appendsTo.isNone || decide (b.fillsIn ≠ a.appendsTo))) &&
  (List.range ops.length).all (fun i => match ops[i]? with
    | some (.mergeNodes f t) => (ops.take i).all (fun op => !op.nullsEdge) && match Graph.create ids with
      | .ok g0 => (match g0.runCatching (ops.take i) with
        | some (g, _) => decide (f = t) || (match g.getLayerForNode f with
          | some (.dyn l p) => decide (g.getLayerForNode t ≠ some (.dyn l p)) || g.hasLayer l
          | _ => true)
        | none => true)
      | _ => true
    | _ => true)

theorem check_sound {ids : List LayerId} {ops : List Op} (h : check ids ops = true) : CarefulCaught ids ops := by
  simp only [check, Bool.and_eq_true, decide_eq_true_eq, List.all_eq_true, List.mem_range] at h
  obtain ⟨⟨h1, h2⟩, h3⟩ := h
  have lt : ∀ {i : Nat} {op : Op}, ops[i]? = some op → i < ops.length := by
    intro i op e; obtain ⟨h, -⟩ := List.getElem?_eq_some_iff.1 e; exact h
  refine ⟨h1, ?_, ?_, ?_⟩
  · intro a ha b hb k hk he
    have := h2 a ha b hb
    rw [hk, he] at this
    simp at this
  · intro i f t e op hop
    have := h3 i (lt e)
    simp only [e, Bool.and_eq_true, List.all_eq_true] at this
    simpa using this.1 op hop
  · intro i f t e g0 g outs hc he
    have := h3 i (lt e)
    simp only [e, Bool.and_eq_true, hc, he] at this
    have := this.2
    simp only [Bool.or_eq_true, decide_eq_true_eq] at this
    rcases this with h | h
    · exact .inl h
    · refine .inr (fun l p hf ht => ?_)
      rw [hf] at h
      simp only [Bool.or_eq_true, decide_eq_true_eq] at h
      rcases h with h | h
      · exact (h ht).elim
      · exact h

/-- The history of C58's finding, in which the sweep throws after it has removed an edge, and more calls after that: another sweep, which
throws again, a merge and a removal. -/
def torn : List Op := Through.torn ++ [.sweep, .sweep, .emplaceNode 2 12 Sample.at0, .insertEdge 10 12 none, .mergeNodes 10 11, .removeNode 11, .findEdge 77 78]

example : CarefulCaught [2, 3] torn := check_sound (by decide +kernel)
/-- The exceptions are at the two sweeps and the last call. -/
example : (match Graph.create [2, 3] with
    | .ok g => (g.runCatching torn).map (fun r => r.2.map (fun a => match a with | .ok _ => true | .error _ => false))
    | _ => none) = some [true, true, true, true, true, true, true, true, true, false, false, true, true, true, true, false] := by decide +kernel
end Caught

/-- **C67 is not vacuous, and says more than C51.** Every call that ends by an exception ends a history of C51; here the same calls go on. -/
theorem C67_after_the_torn_sweep : ∃ g outs g0, Graph.create [2, 3] = .ok g0 ∧ g0.runCatching Caught.torn = some (g, outs) ∧ g.Intact ∧
    g.hasNode 12 = true ∧ g.hasNode 10 = false ∧ Graph.exec [2, 3] Caught.torn = .throw .outOfRange := by
  have hex : (match Graph.exec [2, 3] Caught.torn with | .throw .outOfRange => true | _ => false) = true := by decide +kernel
  have hex' : Graph.exec [2, 3] Caught.torn = .throw .outOfRange := by
    revert hex; split <;> simp_all
  cases hc : Graph.create [2, 3] with
  | throw e => exact absurd hc (by simp [Graph.create])
  | ub => exact absurd hc (by simp [Graph.create])
  | ok g0 =>
    obtain ⟨g, outs, e, -, hI⟩ := C67_basic_guarantee (Caught.check_sound (by decide +kernel : Caught.check [2, 3] Caught.torn = true)) hc
    have hv : (match Graph.create [2, 3] with
      | .ok g0 => (match g0.runCatching Caught.torn with | some r => r.1.hasNode 12 && !r.1.hasNode 10 | none => false)
      | _ => false) = true := by decide +kernel
    rw [hc] at hv
    simp only [e, Bool.and_eq_true, Bool.not_eq_true'] at hv
    exact ⟨g, outs, g0, rfl, e, hI, hv.1, hv.2, hex'⟩

end Verif
