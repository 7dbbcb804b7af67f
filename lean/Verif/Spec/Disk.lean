import Verif.Model.Disk
import Verif.Props.Text
/-! # Specification of files -/

namespace Verif

/-- `q` is the file, in JSON or not, that is meant by the path `p` when saving: `p` itself if it has one of the known extensions, `p` with
`.sparkdsg` appended if it has none. -/
inductive Target (p : Str) : Str → Bool → Prop
  | json : HasExt p (str ".json") ∨ HasExt p (str ".bson") → Target p p true
  | binary : HasExt p (str ".sparkdsg") → Target p p false
  | appended : (∀ e, ¬ HasExt p e) → Target p (p ++ str ".sparkdsg") false

/-- What the one library prints, the other parses: for every tree that is the text of some tree. -/
def JsonLib.ReadBy (w r : JsonLib) : Prop := ∀ j j' : Json, j.text = .ok j' → r.parse (w.print j') = some j'

/-- No proper beginning of the text of an object is parsed. -/
def JsonLib.Complete (w r : JsonLib) : Prop :=
  ∀ (j : Json) fs, j.text = .ok (.obj fs) → ∀ k, k < (w.print (.obj fs)).length → r.parse ((w.print (.obj fs)).take k) = none

/-- The last thing in the file of a graph: a flag, and the mesh if there is one to be written. -/
def Graph.meshBytes (g : Graph) (includeMesh : Bool) : Wr :=
  match (if includeMesh then g.mesh else none) with
  | none => Wr.bool false
  | some m => Wr.seq (Wr.bool true) (Wr.mesh m)

end Verif
