import Verif.Model.Clone
/-! # `ZmqGraph` and `ZmqReceiver` (src/zmq_interface.cpp)

Two threads share the object: the receive thread (`receiveLoop`) and the users of `hasChange()` / `graph()`. The model is a transition
system: an event is one indivisible step of one of the threads, and every interleaving is a schedule. Critical sections under the mutex are
one step, except `graph()`, which holds the lock for the time it takes to copy the graph and is therefore two steps (begin, end). Processing
a message is two steps as well (arrive, apply): in between, the receive thread writes to its graph, without the lock.

Not modelled: sockets and message loss (the sequence of arriving messages is arbitrary), `should_shutdown_` (zmq_interface.cpp:218 never
initialises it; in C++17 its value is indeterminate, so the loop may stop before it starts), and the process-wide loaded header
(the model assumes that no thread loads a file written by another version meanwhile). -/

namespace Verif

/-- A message: a byte buffer. -/
structure Msg where
  bytes : List UInt8
  small : bytes.length < 2 ^ 63

namespace Zmq

/-- Where the receive thread is (zmq_interface.cpp:204-215, and 158-168 for `recv(…, true)`). -/
inductive Pc
  /-- at the top of the loop, polling -/
  | idle
  /-- in zmq_interface.cpp:125-144, applying a message to the receiver's graph -/
  | busy (m : Msg)
  /-- in zmq_interface.cpp:164-166, polling for more messages -/
  | more
  /-- zmq_interface.cpp:211, about to lock the mutex -/
  | publish

/-- zmq_interface.cpp:172-225 and 150: the members of `ZmqGraph::Detail` and the receiver's `graph`. Once `graph_` is set it points to the same
object as the receiver's graph (zmq_interface.cpp:213 copies the shared pointer), so one object and a flag represent both. -/
structure State where
  pc : Pc := .idle
  hasChange : Bool := false
  /-- the receiver's graph (zmq_interface.cpp:150) -/
  obj : Option Graph := none
  /-- `graph_` is not null -/
  published : Bool := false
  /-- a call of `graph()` holds the mutex and copies the graph -/
  cloning : Bool := false

/-- One step of one thread. -/
inductive Ev
  /-- receive thread: a poll at the top of the loop times out -/
  | timeout
  /-- receive thread: a poll returns a message -/
  | arrive (m : Msg)
  /-- receive thread: the message has been processed -/
  | apply
  /-- receive thread: the poll for more messages times out -/
  | drained
  /-- receive thread: lock, set the flag and the graph, unlock -/
  | publish
  /-- a user thread: `hasChange()` -/
  | hasChange
  /-- a user thread: `graph()` takes the lock and clears the flag -/
  | graphBegin
  /-- a user thread: `graph()` has copied the graph and returns -/
  | graphEnd

/-- What a user thread is told in a step. -/
inductive Ans
  | none
  | change (b : Bool)
  | graph (g : Option Graph)

/-- zmq_interface.cpp:139-144: the first message creates the receiver's graph, later ones update it in place. -/
def read (P : Prog) (obj : Option Graph) (m : Msg) : Res Graph :=
  match obj with
  | none => Rd.readGraph P.R P.Q P.order (P.env m.bytes m.small FileHeader.current.version) 0 >>= fun r => .ok r.1
  | some g => Rd.updateGraphFrom P.R P.Q P.order g (P.env m.bytes m.small FileHeader.current.version) 0 >>= fun r => .ok r.1

/-- The receive thread has no handler: an exception ends the program. -/
def uncaught {α : Type} : Res α → Res α
  | .throw _ => .throw .abort
  | r => r

/-- One step. `none`: the step is not possible in this state (the thread is elsewhere, or blocked on the mutex). Writing the published graph
while a user copies it is a data race: undefined. -/
def step (P : Prog) (s : State) : Ev → Option (Res (State × Ans))
  | .timeout => match s.pc with
    | .idle => some (.ok (s, .none))
    | _ => none
  | .arrive m => match s.pc with
    | .idle | .more => some (if s.cloning && s.published then .ub else .ok ({ s with pc := .busy m }, .none))
    | _ => none
  | .apply => match s.pc with
    | .busy m => some (uncaught (read P s.obj m) >>= fun g => .ok ({ s with pc := .more, obj := some g }, .none))
    | _ => none
  | .drained => match s.pc with
    | .more => some (.ok ({ s with pc := .publish }, .none))
    | _ => none
  | .publish => match s.pc, s.cloning with
    | .publish, false => some (.ok ({ s with pc := .idle, hasChange := true, published := s.obj.isSome }, .none))
    | _, _ => none
  | .hasChange => match s.cloning with
    | false => some (.ok (s, .change s.hasChange))
    | true => none
  | .graphBegin => match s.cloning with
    | true => none
    | false => match s.pc, s.published with
      | .busy _, true => some .ub
      | _, _ => some (.ok ({ s with hasChange := false, cloning := true }, .none))
  | .graphEnd => match s.cloning with
    | false => none
    | true => match s.published, s.obj with
      | true, some g => some (g.clone >>= fun h => .ok ({ s with cloning := false }, .graph (some h)))
      | _, _ => some (.ok ({ s with cloning := false }, .graph none))

/-- Run a schedule; `none` if some step of it is not possible. -/
def run (P : Prog) (s : State) : List Ev → Option (Res (State × List Ans))
  | [] => some (.ok (s, []))
  | e :: es => match step P s e with
    | none => none
    | some (.ok r) => match run P r.1 es with
      | some (.ok r') => some (.ok (r'.1, r.2 :: r'.2))
      | x => x
    | some (.throw x) => some (.throw x)
    | some .ub => some .ub

end Zmq
end Verif
