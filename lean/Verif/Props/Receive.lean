import Verif.Lemmas.Receive2
import Verif.Spec.Receive
import Verif.Props.Caught
import Verif.Props.Safety
/-!
# C68: bad messages

A program applies messages to its graph (`updateGraph(graph, buffer)`), makes calls in between, catches every exception and goes on with
the graph as it was left. The messages are arbitrary bytes.
-/

namespace Verif
open AnyHistory

variable {P : Prog} {ids : List LayerId} {ops : List Op} {g0 g g' : Graph} {outs : List (Except Exc Out)}

/-- **C68.** After any careful history (C67), a program applies arbitrary messages and makes calls, neither appending to trajectories nor
merging nodes, and catches every exception. It never runs into undefined behaviour, and whenever it is still running (no assertion of the
library for matrices has ended it), its graph is intact. -/
theorem C68_bad_messages (hP : P.Guarded) (h : CarefulCaught ids ops) (hc : Graph.create ids = .ok g0) (hr : g0.runCatching ops = some (g, outs))
    (v : Version) (es : List Event) (he : ∀ op, .call op ∈ es → (∀ l p t a k, op ≠ .emplaceDyn l p t a k) ∧ ∀ f t, op ≠ .mergeNodes f t) :
    g.serve P v es ≠ .corrupt ∧ ∀ g', g.serve P v es = .up g' → g'.Intact := by
  obtain ⟨g1, o1, e1, -, hI⟩ := Caught.inv_of_careful h hc
  rw [hr] at e1
  cases e1
  have := hI.sound.serve (P := P) hP.wraps hP.vectors v es (fun op hop => by
    obtain ⟨h1, h2⟩ := he op hop
    cases op <;> first | rfl | (exfalso; exact h1 _ _ _ _ _ rfl) | (exfalso; exact h2 _ _ rfl))
  constructor
  · intro e; rw [e] at this; exact this
  · intro g' e; rw [e] at this; exact intact this.mv this.tame

/-- **C68, what the statement-level model is.** On a message that is read to its end it gives the graph that the model of C22–C26 gives, and
it throws and faults where that model does. -/
theorem C68_same_reader (R : Registry NodeClass) (Q : Registry EdgeClass) (order : List NodeId → List NodeId) (E : Env) (p : Nat) (g : Graph) :
    (match Upd.updateGraphFrom R Q order E p g with | .ok x g' => Res.ok (g', x.2) | .throw e _ => .throw e | .ub => .ub)
      = Rd.updateGraphFrom R Q order g E p := by
  rw [← Upd.res_updateGraphFrom]
  unfold Act.res
  cases Upd.updateGraphFrom R Q order E p g <;> rfl

namespace Receive
open Sample

/-- What a sender with the given classes sends for a graph. -/
def sent (W : Registry NodeClass) (V : Registry EdgeClass) (g : Graph) : Message :=
  match g.write W V true with
  | .ok bs => if h : bs.length < 2 ^ 63 then ⟨bs, h⟩ else ⟨[], by decide⟩
  | _ => ⟨[], by decide⟩

/-- Edge attributes that only the sender knows. -/
def otherEdges : Registry EdgeClass where
  entries := [(Str.lit "OtherEdgeAttributes", .base)]
  nodup := by decide +kernel

/-- A graph that is sent … -/
def sentOps : List Op := [.emplaceNode 2 1 at0, .emplaceNode 2 2 at0, .emplaceNode 2 3 at0, .emplaceNode 3 9 at0, .insertEdge 1 2 none, .insertEdge 9 1 none]
/-- … and one with a trajectory. -/
def sentDyn : List Op := [.emplaceDyn 2 pa 5 at0 true, .emplaceDyn 2 pa 6 at0 true]

/-- How a program is doing: 0 is up, 1 is down, 2 is corrupt. -/
def endsIn : Running → Nat
  | .up _ => 0
  | .down => 1
  | .corrupt => 2
/-- It is up, and has the nodes. -/
def hasNodes (r : Running) (L : List NodeId) : Bool := match r with | .up g => L.all g.hasNode | _ => false

/-- A receiver with other nodes, of which the first would be removed by a complete message. -/
def start : List Op := [.emplaceNode 2 50 at0, .emplaceNode 3 9 at0, .insertEdge 50 9 none]
/-- Noise, a message cut within its nodes, calls (the first throws), one cut within its edges. -/
def line : List Event := [.message ⟨[0xdd, 1, 2], by decide⟩, .message ((sent stdNodes stdEdges (after [2, 3] sentOps)).cut 400), .call (.findEdge 50 51),
  .call (.insertEdge 50 1 none), .message ((sent stdNodes stdEdges (after [2, 3] sentOps)).cut 550)]

example : Safety.checked.Guarded ∧ CarefulCaught [2, 3] start ∧ (∃ g0 g outs, Graph.create [2, 3] = .ok g0 ∧ g0.runCatching start = some (g, outs)) ∧
    ∀ op, .call op ∈ line → (∀ l p t a k, op ≠ .emplaceDyn l p t a k) ∧ ∀ f t, op ≠ .mergeNodes f t := by
  refine ⟨⟨rfl, .inl rfl⟩, Caught.check_sound (by decide +kernel), ?_, ?_⟩
  · cases hc : Graph.create [2, 3] with
    | throw e => exact absurd hc (by simp [Graph.create])
    | ub => exact absurd hc (by simp [Graph.create])
    | ok g0 =>
      obtain ⟨g, outs, e, -⟩ := C67_basic_guarantee (Caught.check_sound (by decide +kernel : Caught.check [2, 3] start = true)) hc
      exact ⟨g0, g, outs, rfl, e⟩
  · intro op hop
    simp only [line, List.mem_cons, Event.call.injEq, reduceCtorEq, false_or, List.not_mem_nil, or_false] at hop
    rcases hop with rfl | rfl <;> exact ⟨by intros; simp, by intros; simp⟩

/-- How a program that starts with the nodes of `start` is doing. -/
def served (es : List Event) : Running := (after [2, 3] start).serve Safety.checked ⟨1, 0, 4⟩ es

/-- The messages have effects: the first one that is cut adds nodes, and removes none; the second one has removed a node and lost an edge
(there are one of the message's two, none of the receiver's). -/
example : hasNodes (served (line.take 2)) [1, 2, 9, 50] = true ∧ hasNodes (served (line.take 2)) [3] = false ∧
    hasNodes (served line) [1, 2, 3, 9] = true ∧ hasNodes (served line) [50] = false ∧
    (match served line with | .up g => g.numEdges | _ => 0) = 1 := by decide +kernel
end Receive

open Receive Sample in
/-- **C68, why merging is excluded.** The receiver does not know the class of an edge's attributes. The first message gives it default
attributes, the same message again a null pointer; merging an end of the edge dereferences it. -/
theorem C68_unknown_edge_then_merge : ∃ (m : Message) (f t : NodeId), endsIn (served [.message m, .call (.mergeNodes f t)]) = 0 ∧
    endsIn (served [.message m, .message m]) = 0 ∧ endsIn (served [.message m, .message m, .call (.mergeNodes f t)]) = 2 :=
  ⟨sent stdNodes otherEdges (after [2, 3] sentOps), 1, 3, by decide +kernel, by decide +kernel, by decide +kernel⟩

open Receive Sample in
/-- **C68, why appending is excluded.** A trajectory that was received cannot be continued: appending is refused. After a message without the
trajectory it succeeds, and the next removal of the new node dereferences a null pointer. -/
theorem C68_received_trajectory_then_append : ∃ (m m' : Message) (op : Op) (n : NodeId),
    (match served [.message m, .call op], served [.message m] with | .up g, .up g' => decide (g.numNodes true = g'.numNodes true) | _, _ => false) = true ∧
    hasNodes (served [.message m, .message m', .call op]) [n] = true ∧
    endsIn (served [.message m, .message m', .call op, .call (.removeNode n)]) = 2 :=
  ⟨sent stdNodes stdEdges (after [2, 3] sentDyn), sent stdNodes stdEdges (after [2, 3] []), .emplaceDyn 2 pa 8 at0 true, a 0, by decide +kernel, by decide +kernel, by decide +kernel⟩
end Verif
