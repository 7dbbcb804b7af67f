import Verif.Lemmas.Zmq
/-! # C45: `ZmqGraph` under every schedule -/

namespace Verif

section
open Zmq
variable {P : Prog} {W : Registry NodeClass} {V : Registry EdgeClass} {incl : Bool} {L : List (Graph × Msg)} {evs : List Ev}

/-- **C45, safety.** In every schedule of the receive thread and the users, as long as no call of `graph()` overlaps the processing of a
message, nothing goes wrong: no exception, nothing undefined. (With an overlap something does: `C45_race`.) -/
theorem C45_safe_without_overlap (ho : ∀ l, (P.order l).Perm l) (hL : Feed P W V incl none L) (harr : arrived evs <+: L.map Prod.snd)
    (hov : ¬ Overlap evs) {r : Res (State × List Ans)} (hrun : run P {} evs = some r) : ∃ s answers, r = .ok (s, answers) := by
  generalize hn : evs.length = n
  induction n generalizing evs r with
  | zero =>
    have : evs = [] := List.length_eq_zero_iff.1 hn
    subst this
    cases hrun
    exact ⟨_, _, rfl⟩
  | succ n ih =>
    rcases List.eq_nil_or_concat evs with rfl | ⟨as, e, rfl⟩
    · cases hn
    · rw [List.concat_eq_append] at *
      have hpre : arrived as <+: L.map Prod.snd := by
        rw [arrived_append] at harr
        exact (List.prefix_append _ _).trans harr
      rw [run_append] at hrun
      cases hr : run P {} as with
      | none => rw [hr] at hrun; cases hrun
      | some q =>
        obtain ⟨s1, y, rfl⟩ := ih hpre (fun ⟨a, b, h1, h2⟩ => hov ⟨a, b ++ [e], by rw [h1]; simp, h2⟩) hr (by simpa using hn)
        rw [hr] at hrun
        simp only [run] at hrun
        cases hs : step P s1 e with
        | none => rw [hs] at hrun; cases hrun
        | some q =>
          rcases (Inv.run ho hL hpre hr).step ho hL harr hs with ⟨s', x, rfl, _⟩ | ⟨_, h3, h4⟩
          · rw [hs] at hrun
            cases hrun
            exact ⟨_, _, rfl⟩
          · exact absurd ⟨_, [], by simp, h3, h4⟩ hov

/-- **C45, hasChange.** A call of `hasChange()` answers true exactly if something was published since the last call of `graph()` began. -/
theorem C45_has_change (ho : ∀ l, (P.order l).Perm l) (hL : Feed P W V incl none L) {a b : List Ev}
    (harr : arrived (a ++ .hasChange :: b) <+: L.map Prod.snd) {s : State} {answers : List Ans}
    (hrun : run P {} (a ++ .hasChange :: b) = some (.ok (s, answers))) :
    ∃ x, answers[a.length]? = some (.change x) ∧ (x = true ↔ Pending a) := by
  rw [show a ++ Ev.hasChange :: b = (a ++ [Ev.hasChange]) ++ b by simp] at hrun harr
  rw [run_append] at hrun
  cases hr : run P {} (a ++ [.hasChange]) with
  | none => rw [hr] at hrun; cases hrun
  | some q =>
    cases q with
    | throw e => rw [hr] at hrun; cases hrun
    | ub => rw [hr] at hrun; cases hrun
    | ok q =>
      rw [hr] at hrun
      simp only at hrun
      cases hr2 : run P q.1 b with
      | none => rw [hr2] at hrun; cases hrun
      | some q2 =>
        cases q2 with
        | throw e => rw [hr2] at hrun; cases hrun
        | ub => rw [hr2] at hrun; cases hrun
        | ok q2 =>
          rw [hr2] at hrun
          simp only [Option.some.injEq, Res.ok.injEq, Prod.mk.injEq] at hrun
          obtain ⟨s1, y, z, h1, h2, h3, h4⟩ := run_snoc hr
          have hpre : arrived a <+: L.map Prod.snd := by
            rw [arrived_append, arrived_append, List.append_assoc] at harr
            exact (List.prefix_append _ _).trans harr
          have hi := Inv.run ho hL hpre h1
          refine ⟨s1.hasChange, ?_, hi.change⟩
          have hz : z = .change s1.hasChange := by
            unfold step at h2
            cases hc : s1.cloning with
            | true => simp [hc] at h2
            | false => simp only [hc, Option.some.injEq, Res.ok.injEq, Prod.mk.injEq] at h2; exact h2.2.symm
          rw [← hrun.2, h3, hz, List.append_assoc, List.getElem?_append_right (by omega)]
          simp [h4]

/-- **C45, graph.** A call of `graph()` returns null exactly if nothing was published before; otherwise it returns a graph that mirrors the
one sent with the last message processed so far (nodes, edges, attributes as the format keeps them, adjacency; and its mesh, if meshes are
sent and it has one), and that is a graph in its own right. -/
theorem C45_graph (ho : ∀ l, (P.order l).Perm l) (hL : Feed P W V incl none L) {a b : List Ev}
    (harr : arrived (a ++ .graphEnd :: b) <+: L.map Prod.snd) {s : State} {answers : List Ans}
    (hrun : run P {} (a ++ .graphEnd :: b) = some (.ok (s, answers))) :
    (a.any Ev.isPublish = false ∧ answers[a.length]? = some (.graph none)) ∨
    (a.any Ev.isPublish = true ∧ ∃ h g m, answers[a.length]? = some (.graph (some h)) ∧ 0 < processed a ∧ L[processed a - 1]? = some (g, m) ∧
      (∃ ids ops, Reached ids ops h) ∧ h.Mirrors g ∧ (incl = true → ∀ m, g.mesh = some m → h.mesh = some m)) := by
  rw [show a ++ Ev.graphEnd :: b = (a ++ [Ev.graphEnd]) ++ b by simp] at hrun harr
  rw [run_append] at hrun
  cases hr : run P {} (a ++ [.graphEnd]) with
  | none => rw [hr] at hrun; cases hrun
  | some q =>
    cases q with
    | throw e => rw [hr] at hrun; cases hrun
    | ub => rw [hr] at hrun; cases hrun
    | ok q =>
      rw [hr] at hrun
      simp only at hrun
      cases hr2 : run P q.1 b with
      | none => rw [hr2] at hrun; cases hrun
      | some q2 =>
        cases q2 with
        | throw e => rw [hr2] at hrun; cases hrun
        | ub => rw [hr2] at hrun; cases hrun
        | ok q2 =>
          rw [hr2] at hrun
          simp only [Option.some.injEq, Res.ok.injEq, Prod.mk.injEq] at hrun
          obtain ⟨s1, y, z, h1, h2, h3, h4⟩ := run_snoc hr
          have hpre : arrived a <+: L.map Prod.snd := by
            rw [arrived_append, arrived_append, List.append_assoc] at harr
            exact (List.prefix_append _ _).trans harr
          have hi := Inv.run ho hL hpre h1
          have hz : answers[a.length]? = some z := by
            rw [← hrun.2, h3, List.append_assoc, List.getElem?_append_right (by omega)]
            simp [h4]
          have hcl : s1.cloning = true := by
            cases hc : s1.cloning with
            | true => rfl
            | false => simp [step, hc] at h2
          cases hp : s1.published with
          | false =>
            left
            rw [← hi.published, hz]
            simp only [step, hcl, hp, Option.some.injEq, Res.ok.injEq, Prod.mk.injEq] at h2
            exact ⟨hp, by rw [← h2.2]⟩
          | true =>
            right
            have hpos := hi.pubObj hp
            obtain ⟨k, hk⟩ := Nat.exists_eq_succ_of_ne_zero (Nat.pos_iff_ne_zero.1 hpos)
            have hkl : k < L.length := by have := hi.bound; omega
            obtain ⟨h, ho', hh⟩ := hi.held k L[k].1 L[k].2 hk (by simp [List.getElem?_eq_getElem hkl])
            obtain ⟨c, hc, hcc⟩ := hh.clone
            simp only [step, hcl, hp, ho', hc, Res.bind_ok, Option.some.injEq, Res.ok.injEq, Prod.mk.injEq] at h2
            refine ⟨by rw [← hi.published]; exact hp, c, L[k].1, L[k].2, by rw [hz, ← h2.2], hpos, ?_, hcc.reached, hcc.mirrors, hcc.mesh⟩
            rw [hk]
            simp [List.getElem?_eq_getElem hkl]

/-- **C45, no update is lost.** When the receive thread is back at the top of its loop and `hasChange()` would answer false, no message has been
processed since the last call of `graph()` began: what that call returned is still the latest state. -/
theorem C45_no_lost_update (ho : ∀ l, (P.order l).Perm l) (hL : Feed P W V incl none L) (harr : arrived evs <+: L.map Prod.snd)
    {s : State} {answers : List Ans} (hrun : run P {} evs = some (.ok (s, answers))) (hidle : s.pc = .idle) (hp : ¬ Pending evs) : ¬ Unseen evs := by
  have hi := Inv.run ho hL harr hrun
  intro hu
  exact hp (hi.change.1 (hi.unseen hidle hu))

end

/-! ## The hypotheses can be met -/

namespace ZmqSample
open Zmq Sample

/-- a program with the standard classes -/
def prog : Prog := { R := stdNodes, Q := stdEdges, order := id }
/-- a message for a graph -/
def msg (g : Graph) : Msg :=
  match g.write stdNodes stdEdges true with
  | .ok bs => if h : bs.length < 2 ^ 63 then ⟨bs, h⟩ else ⟨[], by decide⟩
  | _ => ⟨[], by decide⟩

/-- two graphs that are sent one after the other -/
def ops1 : List Op := [.emplaceNode 2 10 at0, .emplaceNode 3 20 at1, .insertParentEdge 20 10 none]
def ops2 : List Op := [.emplaceNode 2 10 at1, .emplaceNode 2 11 at0, .insertEdge 10 11 none]
def g1 : Graph := after [2, 3] ops1
def g2 : Graph := after [2, 3] ops2

theorem reached1 : Reached [2, 3] ops1 g1 := after_reached (by decide) (by decide +kernel)
theorem reached2 : Reached [2, 3] ops2 g2 := after_reached (by decide) (by decide +kernel)

theorem good {ops : List Op} (hr : Reached [2, 3] ops (after [2, 3] ops)) (hne : (after [2, 3] ops).layerIds ≠ [])
    (h1 : ∀ e ∈ ((Spec.init [2, 3]).after ops).nodes.toList, (e.2.key.dynamic = false → e.2.stamp = none) ∧ e.2.key.layer ∈ (after [2, 3] ops).layerIds ∧
      (e.2.attrs = at0 ∨ e.2.attrs = at1))
    (h2 : (after [2, 3] ops).dynList = [])
    (h3 : (match (after [2, 3] ops).write stdNodes stdEdges true with | .ok bs => decide (bs = (msg (after [2, 3] ops)).bytes) | _ => false) = true) :
    Good prog stdNodes stdEdges true (after [2, 3] ops) (msg (after [2, 3] ops)) := by
  refine ⟨⟨_, _, hr⟩, hne, ⟨?_, ?_, by rw [h2]; simp, ?_⟩, ⟨stdNodes_once, by unfold Registry.Once; decide +kernel, by decide, by decide, ?_, ?_⟩, ?_⟩
  · exact forall_nodes (P := fun _ i => i.key.dynamic = false → i.stamp = none) hr (fun e he => (h1 e he).1)
  · exact forall_nodes (P := fun _ i => i.key.layer ∈ (after [2, 3] ops).layerIds) hr (fun e he => (h1 e he).2.1)
  · refine forall_nodes (P := fun _ i => i.attrs.Typed) hr (fun e he => ?_)
    rcases (h1 e he).2.2 with h | h <;> rw [h] <;> trivial
  · refine forall_nodes (P := fun _ i => ∃ name, (name, i.attrs.cls) ∈ stdNodes.entries ∧ prog.R.find? name = some i.attrs.cls) hr (fun e he => ?_)
    rcases (h1 e he).2.2 with h | h <;> rw [h] <;> exact ⟨Str.lit "NodeAttributes", by decide +kernel, by decide +kernel⟩
  · exact ⟨Str.lit "EdgeAttributes", by decide +kernel, by decide +kernel⟩
  · cases hw : (after [2, 3] ops).write stdNodes stdEdges true with
    | ok bs => rw [hw] at h3; simp only [decide_eq_true_eq] at h3; rw [h3]
    | throw e => rw [hw] at h3; cases h3
    | ub => rw [hw] at h3; cases h3

/-- what is sent -/
def feed : List (Graph × Msg) := [(g1, msg g1), (g2, msg g2)]

theorem feed_ok : Feed prog stdNodes stdEdges true none feed := by
  refine ⟨good reached1 (by decide +kernel) (by decide +kernel) (by decide +kernel) (by decide +kernel), by simp,
    good reached2 (by decide +kernel) (by decide +kernel) (by decide +kernel) (by decide +kernel), ?_, trivial⟩
  intro p hp _
  cases hp
  refine ⟨?_, ?_, ?_⟩
  · intro n i j hi hj
    refine forall_nodes (P := fun n i => ∀ j ∈ g1.nodeObs n, j.key = i.key ∧ j.stamp = i.stamp) reached2 ?_ n i hi j hj
    decide +kernel
  · intro n m i j hi hj hd
    have : i.key.dynamic = false := forall_nodes (P := fun _ i => i.key.dynamic = false) reached2 (by decide +kernel) n i hi
    rw [hd] at this; cases this
  · intro n m kn km h1 h2 h3
    rw [reached1.rep.1.hasEdge reached1.rep.2] at h1
    rw [reached1.rep.1.getLayerForNode] at h2 h3
    have h4 := Res.ok.inj h1
    have key : ∀ e ∈ ((Spec.init [2, 3]).after ops1).edges.toList, ∀ k1 ∈ ((Spec.init [2, 3]).after ops1).key? e.1.k1,
        ∀ k2 ∈ ((Spec.init [2, 3]).after ops1).key? e.1.k2, k1.layer = k2.layer → k1 = k2 := by decide +kernel
    obtain ⟨e, he⟩ := OMap.contains_eq_true.1 (show ((Spec.init [2, 3]).after ops1).edges.contains (EdgeKey.of n m) = true from h4)
    have := key _ (OMap.mem_toList.2 he)
    intro hl
    rcases EdgeKey.of_eq n m with ⟨h5, _⟩ | ⟨h5, _⟩ <;> rw [h5] at this
    · exact (this kn h2 km h3 hl.symm).symm
    · exact this km h3 kn h2 hl

/-- A schedule with two messages, and calls of both methods in between. -/
def sched : List Ev :=
  [.hasChange, .graphBegin, .timeout, .graphEnd, .arrive (msg g1), .hasChange, .apply, .drained, .publish, .hasChange, .graphBegin, .timeout, .graphEnd, .hasChange,
   .arrive (msg g2), .apply, .graphBegin, .drained, .graphEnd, .publish, .hasChange]

/-- what the users are told, in short -/
def Ans.short : Ans → Option (Option Nat)
  | .none => none
  | .change b => some (some b.toNat)
  | .graph none => some none
  | .graph (some g) => some (some (g.lookup.size + 10))
/-- the answers of a schedule, in short -/
def told (evs : List Ev) : Option (List (Option Nat)) :=
  match run prog {} evs with
  | some (.ok r) => some (r.2.filterMap Ans.short)
  | _ => none
/-- the outcome of a schedule: possible, and undefined or terminated -/
def fault (evs : List Ev) : Option (Option Exc) :=
  match run prog {} evs with
  | some .ub => some none
  | some (.throw e) => some (some e)
  | _ => none

theorem sched_told : told sched = some [some 0, none, some 0, some 1, some 12, some 0, some 12, some 1] := by decide +kernel

example : Feed prog stdNodes stdEdges true none feed ∧ arrived sched <+: feed.map Prod.snd ∧ (∀ l, (prog.order l).Perm l) ∧
    (∃ s answers, run prog {} sched = some (.ok (s, answers)) ∧ s.pc = .idle) := by
  refine ⟨feed_ok, ⟨[], rfl⟩, fun l => .refl _, ?_⟩
  have : (match run prog {} sched with | some (.ok r) => r.1.pc.isIdle | _ => false) = true := by decide +kernel
  cases h : run prog {} sched with
  | none => rw [h] at this; cases this
  | some q =>
    cases q with
    | throw e => rw [h] at this; cases this
    | ub => rw [h] at this; cases this
    | ok r =>
      refine ⟨r.1, r.2, rfl, ?_⟩
      rw [h] at this
      simp only at this
      cases hp : r.1.pc with
      | idle => rfl
      | busy m => rw [hp] at this; cases this
      | more => rw [hp] at this; cases this
      | publish => rw [hp] at this; cases this

/-- and the schedule has no overlap -/
example : ¬ Overlap sched := by
  rintro ⟨a, b, h1, h2, h3⟩
  have : ∀ n, n ≤ 21 → (working (sched.take n) && copying (sched.take n)) = false := by
    intro n hn
    have : n ∈ List.range 22 := List.mem_range.2 (by omega)
    have key : ∀ n ∈ List.range 22, (working (sched.take n) && copying (sched.take n)) = false := by decide +kernel
    exact key n this
  have hl : a.length ≤ 21 := by
    have := congrArg List.length h1
    rw [show sched.length = 21 from rfl, List.length_append] at this
    omega
  have ha : sched.take a.length = a := by rw [h1]; simp
  have := this a.length hl
  rw [ha, h2, h3] at this
  cases this

/-! ## What goes wrong -/

/-- The second message is applied in place to the graph that `graph()` copies, outside of the lock: a data race. -/
theorem C45_race : ∃ evs, arrived evs <+: feed.map Prod.snd ∧ run prog {} evs = some .ub := by
  refine ⟨[.arrive (msg g1), .apply, .drained, .publish, .arrive (msg g2), .graphBegin], ⟨[], rfl⟩, ?_⟩
  have : fault [.arrive (msg g1), .apply, .drained, .publish, .arrive (msg g2), .graphBegin] = some none := by decide +kernel
  unfold fault at this
  cases h : run prog {} [.arrive (msg g1), .apply, .drained, .publish, .arrive (msg g2), .graphBegin] with
  | none => rw [h] at this; cases this
  | some q =>
    cases q with
    | throw e => rw [h] at this; cases this
    | ub => rfl
    | ok r => rw [h] at this; cases this

/-- An update may be handed out and then be announced again: it is in the graph before it is published. In the schedule above the last two
calls of `graph()` already see the second message; `hasChange()` answers true once more afterwards, without another message. -/
theorem C45_announced_twice : ∃ a b : List Ev, told (a ++ b) = some [some 12, some 1] ∧ a = [.arrive (msg g1), .apply, .drained, .publish, .arrive (msg g2), .apply] ∧
    b = [.graphBegin, .graphEnd, .drained, .publish, .hasChange] :=
  ⟨_, _, by decide +kernel, rfl, rfl⟩

/-- A message that is not a graph ends the program: the receive thread has no handler. -/
theorem C45_bad_message_terminates : ∃ m, fault [.arrive m, .apply] = some (some .abort) :=
  ⟨⟨[0x00], by decide⟩, by decide +kernel⟩

end ZmqSample
end Verif
