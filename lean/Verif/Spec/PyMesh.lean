import Verif.Model.PyMesh
import Verif.Spec.Color
/-! # What the arrays should hold -/

namespace Verif

/-- The number a finite double stands for. -/
def F64.real (d : F64) : ℚ := (if d.negative then -1 else 1) * ((d.magVal : ℚ) / (2 ^ 1074 : Nat))

/-- The position in a column of six entries. -/
def PyMesh.position (c : List F64) : V3f := ⟨(c.getD 0 0).toFloat, (c.getD 1 0).toFloat, (c.getD 2 0).toFloat⟩

/-- The opaque colour with the red, green and blue of the last three entries of a column. -/
def PyMesh.ColorOf (c : List F64) (x : Color) : Prop :=
  (c.getD 3 0).toByte = .ok x.r ∧ (c.getD 4 0).toByte = .ok x.g ∧ (c.getD 5 0).toByte = .ok x.b ∧ x.a = 255

/-- The same colour, not transparent. -/
def Color.opaque (c : Color) : Color := { c with a := 255 }

end Verif
