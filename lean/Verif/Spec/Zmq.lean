import Verif.Model.Zmq
import Verif.Spec.GraphIO
/-! # Schedules of `ZmqGraph`, and what is sent to it -/

namespace Verif
namespace Zmq

/-- `m` is what a sender (registries `W`, `V`) sends for the graph `g`, which can be represented in a message and which the receiving
program `P` understands. -/
structure Good (P : Prog) (W : Registry NodeClass) (V : Registry EdgeClass) (incl : Bool) (g : Graph) (m : Msg) : Prop where
  reached : ∃ ids ops, Reached ids ops g
  layers : g.layerIds ≠ []
  storable : g.Storable
  understood : g.Understood W P.R V P.Q
  written : g.write W V incl = .ok m.bytes

/-- A sequence of sent graphs: between two messages no node changes its layer or stamp (unless the layer ids change), no stamp is reused,
and no edge joins two layers of the same layer id. -/
def Feed (P : Prog) (W : Registry NodeClass) (V : Registry EdgeClass) (incl : Bool) : Option Graph → List (Graph × Msg) → Prop
  | _, [] => True
  | prev, (g, m) :: L => Good P W V incl g m ∧ (∀ p ∈ prev, p.layerIds = g.layerIds → p.Accepts g) ∧ Feed P W V incl (some g) L

/-- The messages that arrive in a schedule. -/
def arrived (evs : List Ev) : List Msg := evs.filterMap (fun e => match e with | .arrive m => some m | _ => none)
/-- The number of messages processed in a schedule. -/
def processed (evs : List Ev) : Nat := evs.countP (fun e => match e with | .apply => true | _ => false)
/-- After the schedule, the receive thread is processing a message. -/
def working (evs : List Ev) : Bool := evs.foldl (fun b e => match e with | .arrive _ => true | .apply => false | _ => b) false
/-- After the schedule, a call of `graph()` is in progress. -/
def copying (evs : List Ev) : Bool := evs.foldl (fun b e => match e with | .graphBegin => true | .graphEnd => false | _ => b) false
/-- At some moment of the schedule a call of `graph()` and the processing of a message overlap. -/
def Overlap (evs : List Ev) : Prop := ∃ a b, evs = a ++ b ∧ working a = true ∧ copying a = true

/-- The step is a publication. -/
def Ev.isPublish : Ev → Bool
  | .publish => true
  | _ => false
/-- The step starts a call of `graph()`. -/
def Ev.isGraph : Ev → Bool
  | .graphBegin => true
  | _ => false
/-- The step ends the processing of a message. -/
def Ev.isApply : Ev → Bool
  | .apply => true
  | _ => false

/-- Something was published and no call of `graph()` has started since. -/
def Pending (evs : List Ev) : Prop := ∃ a b, evs = a ++ .publish :: b ∧ ∀ e ∈ b, e.isGraph = false
/-- A message was processed and no call of `graph()` has started since. -/
def Unseen (evs : List Ev) : Prop := ∃ a b, evs = a ++ .apply :: b ∧ ∀ e ∈ b, e.isGraph = false

end Zmq
end Verif
