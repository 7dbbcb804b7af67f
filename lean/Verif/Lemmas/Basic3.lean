import Verif.Lemmas.Basic2
import Verif.Props.Through
/-!
# What a call leaves behind, whether it returns or throws
-/

namespace Verif
open Res (Sat Keeps NoThrow)
open Act (Thrown Strong Calm)

/-- Not undefined behaviour, and the state left behind satisfies `P`. -/
def Thru.Leaves {S α : Type} (P : S → Prop) : Thru S α → Prop
  | .ok _ s => P s
  | .throw _ s => P s
  | .ub => False

theorem Thru.Leaves.mono {S α : Type} {P Q : S → Prop} {t : Thru S α} (h : t.Leaves P) (hPQ : ∀ s, P s → Q s) : t.Leaves Q := by
  cases t with
  | ok a s => exact hPQ s h
  | throw e s => exact hPQ s h
  | ub => exact h

theorem Act.leaves_of {S α : Type} {P : S → Prop} {m : Act S α} {s : S} (h : m.Thrown P s) (h' : Sat (fun r => P r.1) (m.res s)) : (m s).Leaves P := by
  unfold Act.res at h'
  cases hm : m s with
  | ok a s' => rw [hm] at h'; exact h'
  | throw e s' => exact h _ _ hm
  | ub => rw [hm] at h'; exact h'

namespace Graph
variable {A : LayerId → Prefix → Prop} {F : Prop} {N : Nat} {g : Graph}

theorem Inv.stepT_thrown (h : g.Inv A N F) (op : Op) (hF : ∀ f t, op = .mergeNodes f t → F) : (stepT op).Thrown (Inv A N F) g := by
  by_cases hw : Through.writesLast op = true
  · exact (Through.strong_of_writesLast hw).thrown h
  · cases op <;> first | (exfalso; exact hw rfl) | skip
    · exact Inv.ansT (h.insertParentEdgeT _ _ _)
    · exact Inv.ansT (h.removeNodeT _)
    · exact Inv.ansT (h.removeEdgeT _ _)
    · exact Inv.ansT (h.mergeNodesT (hF _ _ rfl) _ _)
    · exact Thrown.bind h.removeAllStaleEdgesT (fun _ _ _ => Act.thrown_pure _ _)

/-- One call, whether it returns or throws. -/
theorem Inv.stepT (h : g.Inv A N F) (hN : N < 2 ^ 32) (op : Op)
    (happ : ∀ l p t a k, op = .emplaceDyn l p t a k → A l p) (hprev : ∀ l n t a, op = .emplacePrev l n t a → ¬ A l (Prefix.fromId n))
    (hadd : ∀ l n a t, op = .addOrUpdateNode l n a (some t) → ¬ A l (Prefix.fromId n))
    (hm : ∀ f t, op = .mergeNodes f t → F ∧ ∀ l p, f ≠ t → g.lookup.find? f = some (.dyn l p) → g.lookup.find? t = some (.dyn l p) →
      (g.layers.find? l).isSome = true) :
    (stepT op g).Leaves (Inv A (N + 1) (F ∧ ∀ s t, op ≠ .addOrUpdateEdge s t none)) := by
  refine Act.leaves_of ?_ ?_
  · exact (h.stepT_thrown op (fun f t e => (hm f t e).1)).mono (fun g h => (h.mono (Nat.le_succ _)).weaken (fun h => h.1))
  · rw [res_stepT]
    have := safe_step h.mv h.tame hN op happ hprev hadd hm
    revert this
    cases g.step op with
    | ok r => exact fun h => ⟨h.1, h.2⟩
    | throw e => exact fun h => h
    | ub => exact fun h => h

/-- A history in which every exception is caught. -/
theorem Inv.runCatching (ops : List Op) (h : g.Inv A N F) (hN : N + ops.length ≤ 2 ^ 32)
    (happ : ∀ l p t a k, .emplaceDyn l p t a k ∈ ops → A l p) (hprev : ∀ l n t a, .emplacePrev l n t a ∈ ops → ¬ A l (Prefix.fromId n))
    (hadd : ∀ l n a t, .addOrUpdateNode l n a (some t) ∈ ops → ¬ A l (Prefix.fromId n))
    (hm : ∀ pre f t post, ops = pre ++ .mergeNodes f t :: post → (F ∧ ∀ s t, .addOrUpdateEdge s t none ∉ pre) ∧
      ∀ g' outs, g.runCatching pre = some (g', outs) → ∀ l p, f ≠ t → g'.lookup.find? f = some (.dyn l p) → g'.lookup.find? t = some (.dyn l p) →
      (g'.layers.find? l).isSome = true) :
    ∃ g' outs, g.runCatching ops = some (g', outs) ∧ outs.length = ops.length ∧ g'.Inv A (N + ops.length) (F ∧ ∀ s t, .addOrUpdateEdge s t none ∉ ops) := by
  induction ops generalizing g N F with
  | nil => exact ⟨g, [], rfl, rfl, h.weaken (fun h => h.1)⟩
  | cons op ops ih =>
    have hlen : N + 1 + ops.length = N + (op :: ops).length := by simp only [List.length_cons]; omega
    have hs := h.stepT (by simp only [List.length_cons] at hN; omega) op (fun l p t a k e => happ l p t a k (e ▸ List.mem_cons_self))
        (fun l n t a e => hprev l n t a (e ▸ List.mem_cons_self)) (fun l n a t e => hadd l n a t (e ▸ List.mem_cons_self)) (fun f t e => by
          obtain ⟨m1, m2⟩ := hm [] f t ops (by rw [e]; rfl)
          exact ⟨m1.1, m2 g [] rfl⟩)
    -- the rest of the history from the state the call left
    have rest : ∀ (g1 : Graph) (a : Except Exc Out), g1.Inv A (N + 1) (F ∧ ∀ s t, op ≠ .addOrUpdateEdge s t none) →
        (∀ ops', g.runCatching (op :: ops') = (g1.runCatching ops').map (fun r => (r.1, a :: r.2))) →
        ∃ g' outs, g.runCatching (op :: ops) = some (g', outs) ∧ outs.length = (op :: ops).length ∧
          g'.Inv A (N + (op :: ops).length) (F ∧ ∀ s t, .addOrUpdateEdge s t none ∉ op :: ops) := by
      intro g1 a h1 hrun
      obtain ⟨g', outs, e, hl, hI⟩ := ih h1 (by omega) (fun l p t a k e => happ l p t a k (List.mem_cons_of_mem _ e))
        (fun l n t a e => hprev l n t a (List.mem_cons_of_mem _ e)) (fun l n a t e => hadd l n a t (List.mem_cons_of_mem _ e)) (fun pre f t post e => by
          obtain ⟨m1, m2⟩ := hm (op :: pre) f t post (by rw [e]; rfl)
          refine ⟨⟨⟨m1.1, fun s t e => m1.2 s t (e ▸ List.mem_cons_self)⟩, fun s t e => m1.2 s t (List.mem_cons_of_mem _ e)⟩, ?_⟩
          intro g' outs hr
          exact m2 g' (a :: outs) (by rw [hrun, hr]; rfl))
      refine ⟨g', a :: outs, by rw [hrun, e]; rfl, by simp [hl], ?_⟩
      rw [← hlen]
      exact hI.weaken (fun hF => ⟨⟨hF.1, fun s t e => hF.2 s t (e ▸ List.mem_cons_self)⟩, fun s t e => hF.2 s t (List.mem_cons_of_mem _ e)⟩)
    cases hq : Graph.stepT op g with
    | ok a g1 =>
      rw [hq] at hs
      exact rest g1 (.ok a) hs (fun ops' => by simp only [Graph.runCatching, hq])
    | throw e g1 =>
      rw [hq] at hs
      exact rest g1 (.error e) hs (fun ops' => by simp only [Graph.runCatching, hq])
    | ub => rw [hq] at hs; exact hs.elim

end Graph
end Verif
