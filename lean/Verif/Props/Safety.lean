import Verif.Lemmas.Mem4
import Verif.Props.GraphIO
/-!
# C22: reading arbitrary bytes is memory safe

The readers of the model report an access outside the buffer, a null or dangling pointer and a loop that does not end as `Res.ub`.
-/

namespace Verif
open Rd

/-- The call ended properly: it returned, and then with a position between the one it was called at and the end of the buffer, or it threw. -/
def Behaves {α : Type} (E : Env) (p : Nat) : Res (α × Nat) → Prop
  | .ok (_, p') => p ≤ p' ∧ p' ≤ E.buf.length
  | .throw _ => True
  | .ub => False

theorem Rd.Safe.behaves {α : Type} {E : Env} {d : Nat} {r : Rd α} (h : Safe E d r) (p : Nat) (hp : p ≤ E.buf.length) : Behaves E p (r E p) := by
  have := h p hp
  cases e : r E p with
  | ok x => rw [e] at this; exact ⟨by have := this.1; omega, this.2⟩
  | throw x => trivial
  | ub => rw [e] at this; exact this

/-- The build does not run into the two defects below: signed overflow wraps, and either Eigen's assertions are on or nobody registered a
class that holds column vectors. -/
structure Prog.Guarded (P : Prog) : Prop where
  wraps : P.isoOverflow = false
  vectors : P.eigenChecks = true ∨ ∀ e ∈ P.R.entries, e.2 ≠ NodeClass.agent

variable {P : Prog}

/-- C22, reading a graph from a message: whatever the bytes and whatever version they claim to be. -/
theorem C22_read_graph (hP : P.Guarded) (buf : List UInt8) (h : buf.length < 2 ^ 63) (v : Version) (p : Nat) (hp : p ≤ buf.length) :
    Behaves (P.env buf h v) p (readGraph P.R P.Q P.order (P.env buf h v) p) :=
  (SafeP.readGraph (E := P.env buf h v) hP.wraps (R := P.R) hP.vectors P.Q P.order).safe.behaves p hp

/-- One message after the other is applied to the graph. -/
def receive (P : Prog) (v : Version) : Graph → List { b : List UInt8 // b.length < 2 ^ 63 } → Res Graph
  | g, [] => .ok g
  | g, m :: ms => updateGraphFrom P.R P.Q P.order g (P.env m.1 m.2 v) 0 >>= fun r => receive P v r.1 ms

theorem receive_sat (hP : P.Guarded) (v : Version) (ms : List { b : List UInt8 // b.length < 2 ^ 63 }) {g : Graph} (hg : MV g.view) :
    Res.Sat (fun g => MV g.view) (receive P v g ms) := by
  induction ms generalizing g with
  | nil => exact hg
  | cons m ms ih =>
    unfold receive
    have := SafeP.updateGraphFrom (E := P.env m.1 m.2 v) hP.wraps (R := P.R) hP.vectors P.Q P.order hg 0 (Nat.zero_le _)
    cases e : updateGraphFrom P.R P.Q P.order g (P.env m.1 m.2 v) 0 with
    | ok x => rw [e] at this; exact ih this.2.2
    | throw x => trivial
    | ub => rw [e] at this; exact this

/-- C22, updating a graph from messages: any number of arbitrary messages in a row, onto any graph built with the API. -/
theorem C22_update_graph (hP : P.Guarded) {ids : List LayerId} {ops : List Op} {g : Graph} (hg : Reached ids ops g) (v : Version)
    (ms : List { b : List UInt8 // b.length < 2 ^ 63 }) : receive P v g ms ≠ .ub := by
  intro e
  have := receive_sat hP v ms hg.mv
  rw [e] at this
  exact this

/-- C22, loading a file: whatever its contents. -/
theorem C22_load_file (hP : P.Guarded) (file : List UInt8) (h : file.length < 2 ^ 63) : Graph.loadBinary P file h ≠ .ub := by
  unfold Graph.loadBinary
  intro e
  have h1 := Safe.header (E := P.env file h FileHeader.current.version) 0 (Nat.zero_le _)
  cases e1 : FileHeader.read (P.env file h FileHeader.current.version) 0 with
  | ub => rw [e1] at h1; exact h1
  | throw x => rw [e1] at e; cases e
  | ok x =>
    rw [e1] at e
    simp only [Res.bind_ok] at e
    cases e2 : (x.1.getD FileHeader.legacy).checkCompatibility with
    | ub =>
      unfold FileHeader.checkCompatibility at e2
      split at e2
      · cases e2
      · split at e2 <;> cases e2
    | throw y => rw [e2] at e; cases e
    | ok y =>
      rw [e2] at e
      simp only [Res.bind_ok] at e
      have h3 := C22_read_graph hP (file.drop x.2) (by simp; omega) (x.1.getD FileHeader.legacy).version 0 (Nat.zero_le _)
      revert h3 e
      cases Rd.readGraph P.R P.Q P.order (P.env (file.drop x.2) (by simp; omega) (x.1.getD FileHeader.legacy).version) 0 with
      | ok z => intro e; cases e
      | throw z => intro e; cases e
      | ub => intro _ h; exact h

/-- C22, reading a single mesh, header or attribute: mesh, header and edge attributes in every build. -/
theorem C22_read_parts (E : Env) (p : Nat) (hp : p ≤ E.buf.length) :
    Behaves E p (Rd.mesh E p) ∧ Behaves E p (FileHeader.read E p) ∧
    (∀ fac : OMap UInt8 EdgeClass, Behaves E p (Rd.edgeAttrs fac E p)) ∧
    (∀ fac : OMap UInt8 NodeClass, E.isoOverflow = false → (E.eigenChecks = true ∨ ∀ t, fac.find? t ≠ some .agent) →
      Behaves E p (Rd.nodeAttrs fac E p)) :=
  ⟨Safe.mesh.behaves p hp, Safe.header.behaves p hp, fun _ => Safe.edgeAttrs.behaves p hp, fun _ ho hc => (Safe.nodeAttrs ho hc).behaves p hp⟩

/-! ## The hypotheses can be met, and the conclusions are not vacuous -/

namespace Safety
open Sample

/-- A build with assertions, and one without but with fewer classes. -/
def checked : Prog := { R := stdNodes, Q := stdEdges, order := id, eigenChecks := true }
def noAgents : Prog :=
  { R := { entries := stdNodes.entries.filter (fun e => decide (e.2 ≠ .agent)), nodup := by decide +kernel }, Q := stdEdges, order := id }

example : checked.Guarded := ⟨rfl, .inl rfl⟩
example : noAgents.Guarded := ⟨rfl, .inr (by decide +kernel)⟩

/-- A buffer that ends in the middle, one with a forged length and an update cut off after its layer list: all are refused. -/
example : (match Graph.loadBinary checked [0xdd, 9, 0, 0, 0] (by decide) with | .throw _ => true | _ => false) = true ∧
    (match Graph.loadBinary checked [0xdd, 0xff, 0xff, 0xff, 0xff, 1, 2] (by decide) with | .throw _ => true | _ => false) = true ∧
    (match receive checked ⟨1, 0, 4⟩ (after ids ioOps) [⟨[0xdd, 1, 0, 0, 0, 0xcf, 2, 0, 0, 0, 0, 0, 0, 0], by decide⟩] with
      | .throw _ => true | _ => false) = true := by decide +kernel

/-- a file that holds one agent whose list of visual words is announced as `r` rows and `c` columns -/
def evil (r c : Int) : List UInt8 :=
  match (after [2] [.emplaceNode 2 10 (.agent {} { dbowIds := ⟨r, c, []⟩ })]).saveBinary checked false with
  | .ok bs => bs
  | _ => []

/-- The condition on column vectors is needed: with the standard classes and assertions off, a file can make the loader write outside an
allocation. With assertions the process stops. -/
theorem C22_column_vector_overrun : ∃ file h, Graph.loadBinary { checked with eigenChecks := false } file h = .ub ∧
    Graph.loadBinary checked file h = .throw .abort :=
  ⟨evil 5 0, by decide +kernel, by decide +kernel, by decide +kernel⟩

/-- The condition on overflow is needed: under the rules of the language the product of two announced dimensions is undefined. -/
theorem C22_dimension_overflow : ∃ E : Env, E.eigenChecks = true ∧ Rd.matrixDyn Rd.f32 E 0 = .ub :=
  ⟨⟨[0xdd, 2, 0, 0, 0, 0xd3, 0, 0, 0, 0, 1, 0, 0, 0, 0xd3, 0, 0, 0, 0, 1, 0, 0, 0], by decide, ⟨1, 0, 4⟩, true, true, fun a _ => a⟩,
    rfl, by decide +kernel⟩

/-- Exactly when: a matrix header that announces at least two elements and the dimensions `r` and `c` runs into the overflow if and only if
`r * c`, or that plus two, is not a 64-bit signed integer. -/
theorem C22_dimension_overflow_exactly (E : Env) (hiso : E.isoOverflow = true) (n : Nat) (r c : Int) (hn : 2 ≤ n)
    (hr : -2 ^ 63 ≤ r ∧ r < 2 ^ 63) (hc : -2 ^ 63 ≤ c ∧ c < 2 ^ 63) (pre bs post : List UInt8)
    (hw : Wr.seq (Wr.arrLen n) (Wr.seq (Wr.index r) (Wr.index c)) = .ok bs) (hb : E.buf = pre ++ bs ++ post) :
    Rd.dims E pre.length = .ub ↔ (r * c < -2 ^ 63 ∨ 2 ^ 63 ≤ r * c + 2) := by
  obtain ⟨b1, b23, h1, h23, rfl⟩ := Rd.seq_ok hw
  obtain ⟨b2, b3, h2, h3, rfl⟩ := Rd.seq_ok h23
  have e1 := RT.arrLen (E := E) n b1 pre (b2 ++ b3 ++ post) h1 (by simp [hb])
  have e2 := RT.index (E := E) r hr b2 (pre ++ b1) (b3 ++ post) h2 (by simp [hb])
  have e3 := RT.index (E := E) c hc b3 (pre ++ b1 ++ b2) post h3 (by simp [hb])
  simp only [List.length_append] at e1 e2 e3
  unfold Rd.dims
  rw [bind_apply, e1]
  simp only [Res.bind_ok]
  rw [if_neg (by omega), bind_apply, e2]
  simp only [Res.bind_ok]
  rw [bind_apply, e3]
  simp only [Res.bind_ok]
  rw [bind_apply]
  unfold Rd.mulAdd
  by_cases h : r * c < -2 ^ 63 ∨ 2 ^ 63 ≤ r * c + 2
  · rw [if_pos ⟨hiso, by omega⟩]
    exact ⟨fun _ => h, fun _ => rfl⟩
  · rw [if_neg (fun x => h (by omega))]
    simp only [Res.bind_ok]
    constructor
    · intro hx
      split at hx <;> cases hx
    · intro hx; exact absurd hx h

/-- The largest product that is not positive enough to overflow downwards is accepted as a number: the range is the one of the type. -/
example : ∃ bs, Wr.seq (Wr.arrLen 2) (Wr.seq (Wr.index (-2 ^ 62)) (Wr.index 2)) = .ok bs ∧ bs ≠ [] := ⟨_, rfl, by decide⟩

end Safety
end Verif
