import Verif.Spec.Api
/-!
# Programs that catch exceptions

`Op.ok` (Spec/Api.lean) excludes some calls because they throw. A program may make them anyway and catch the
exception. `Op.throws` lists the calls that do throw; `Op.mild` is a history in which every call is either not a
misuse or one of these; `Op.heard` is the history without them, and `Op.weave` puts the exceptions back between
the answers. This file does not import the model of the code.
-/

namespace Verif

/-- The call throws `std::out_of_range`: `setEdgeAttributes` and `findEdge` with an unknown node, and a merge of
two different nodes of one trajectory when there is a static layer with the trajectory's layer id. -/
def Op.throws (σ : Spec) : Op → Bool
  | .setEdgeAttrs s t _ | .findEdge s t => !(σ.nodes.contains s && σ.nodes.contains t)
  | .mergeNodes f t =>
    match σ.key? f with
    | some (.dyn l p) => decide (f ≠ t) && decide (σ.key? t = some (.dyn l p)) && σ.layerIds.contains l
    | _ => false
  | _ => false

/-- Every call is either well-behaved or throws, where the calls that throw are taken to change nothing. -/
def Op.mild (σ : Spec) : List Op → Bool
  | [] => true
  | op :: ops => if op.throws σ then Op.mild σ ops else op.ok σ && Op.mild (σ.step op).1 ops

/-- The history without the calls that throw. -/
def Op.heard (σ : Spec) : List Op → List Op
  | [] => []
  | op :: ops => if op.throws σ then Op.heard σ ops else op :: Op.heard (σ.step op).1 ops

/-- The answers of the calls that do not throw, with an exception at each call that does. -/
def Op.weave {ε : Type} (e : ε) (σ : Spec) : List Op → List Out → List (Except ε Out)
  | [], _ => []
  | op :: ops, outs =>
    if op.throws σ then .error e :: Op.weave e σ ops outs
    else match outs with
      | [] => []
      | o :: outs => .ok o :: Op.weave e (σ.step op).1 ops outs

end Verif
