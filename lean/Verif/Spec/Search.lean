import Verif.Model.Types
/-! # Specification of graph searches: walks and hop distance -/

namespace Verif

/-- A walk of `k` hops from `a` to `b`. -/
inductive Walk (adj : NodeId → NodeId → Prop) : Nat → NodeId → NodeId → Prop
  | nil (a : NodeId) : Walk adj 0 a a
  | snoc {k : Nat} {a b c : NodeId} : Walk adj k a b → adj b c → Walk adj (k + 1) a c

/-- `n` can be reached from one of the roots. -/
def Reach (adj : NodeId → NodeId → Prop) (roots : List NodeId) (n : NodeId) : Prop := ∃ r ∈ roots, ∃ k, Walk adj k r n

/-- `n` can be reached from one of the roots in at most `k` hops. -/
def Within (adj : NodeId → NodeId → Prop) (roots : List NodeId) (k : Nat) (n : NodeId) : Prop := ∃ r ∈ roots, ∃ j, j ≤ k ∧ Walk adj j r n

/-- The list comes in order of increasing distance from the roots: nothing within `k` hops comes after something that is not. -/
def ByDistance (adj : NodeId → NodeId → Prop) (roots : List NodeId) (l : List NodeId) : Prop :=
  l.Pairwise (fun a b => ∀ k, Within adj roots k b → Within adj roots k a)

end Verif
