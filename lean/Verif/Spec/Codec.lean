import Verif.Model.Codec
/-!
# Specification for the binary format: what the C++ types guarantee and what a file keeps
-/

namespace Verif

/-- Reading what was written returns the same value, wherever in a buffer it stands, whatever follows it, and stops right behind it. -/
def RoundTrips {α : Type} (write : α → Wr) (read : Rd α) : Prop :=
  ∀ (a : α) (bs pre post : List UInt8) (E : Env), write a = .ok bs → E.buf = pre ++ bs ++ post →
    read E pre.length = .ok (a, pre.length + bs.length)

/-- Writing succeeds for every value. -/
def Writes {α : Type} (write : α → Wr) : Prop := ∀ a, ∃ bs, write a = .ok bs

/-- The values of a type written so that the first byte never announces an empty optional. -/
def NeverNil {α : Type} (write : α → Wr) : Prop := ∀ a bs, write a = .ok bs → ∃ b rest, bs = b :: rest ∧ b ≠ Pack.nil

/-- Eigen's class invariant for a matrix with `r x c` coefficients. -/
def Matrix.Sized {α : Type} (m : Matrix α) (r c : Int) : Prop :=
  m.rows = r ∧ m.cols = c ∧ 0 ≤ r ∧ r < 2 ^ 63 ∧ 0 ≤ c ∧ c < 2 ^ 63 ∧ (m.data.length : Int) = r * c

/-- What the C++ types of the members guarantee (`Eigen::Matrix3f`, `Eigen::MatrixXd`). -/
def SemanticAttrs.Typed (s : SemanticAttrs) : Prop :=
  s.bbox.rot.Sized 3 3 ∧ ∃ r c, s.feature.Sized r c
/-- `Eigen::Matrix2d` -/
def Place2dAttrs.Typed (p : Place2dAttrs) : Prop := p.compress.Sized 2 2 ∧ p.expand.Sized 2 2
/-- `Eigen::Matrix<uint32_t, Eigen::Dynamic, 1>`, `Eigen::VectorXf` -/
def AgentAttrs.Typed (a : AgentAttrs) : Prop := (∃ r, a.dbowIds.Sized r 1) ∧ (∃ r, a.dbowValues.Sized r 1)

/-- The members have the sizes that their C++ types prescribe. Every C++ object does. -/
def NodeAttrs.Typed : NodeAttrs → Prop
  | .base _ => True
  | .semantic _ s => s.Typed
  | .object _ s _ => s.Typed
  | .room _ s _ => s.Typed
  | .place _ s _ => s.Typed
  | .place2d _ s p => s.Typed ∧ p.Typed
  | .agent _ a => a.Typed
  | .khronos _ s _ _ => s.Typed

/-- What a file keeps of an attribute object: everything, except that `KhronosObjectAttributes` lose what they inherit from
`ObjectNodeAttributes`, and `Place2dNodeAttributes` three members that are never written. -/
def NodeAttrs.kept : NodeAttrs → NodeAttrs
  | .place2d b s p => .place2d b s { p with pclMin := 0, pclMax := 0, needFinishMerge := false }
  | .khronos b s _ k => .khronos b s {} k
  | a => a

end Verif
