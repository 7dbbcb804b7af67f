import Verif.Lemmas.Cut
import Verif.Lemmas.Mirror
/-! # Reading the file of a graph that was cut short -/

namespace Verif
namespace Rd
variable {α β : Type} {E E' : Env}

/-- `readGraph` without its last part, the mesh. -/
def readCore (R : Registry NodeClass) (Q : Registry EdgeClass) (order : List NodeId → List NodeId) : Rd Graph := do
  let ids ← vec u64
  let g ← lift (Graph.create ids)
  updateCore R Q order g

theorem readGraph_eq (R : Registry NodeClass) (Q : Registry EdgeClass) (order : List NodeId → List NodeId) :
    readGraph R Q order = (readCore R Q order >>= meshPart) := by
  unfold readGraph readCore
  simp only [bind_assoc', updateGraph_eq]

theorem Cut.readCore (H : Ext E E') (R : Registry NodeClass) (Q : Registry EdgeClass) (order : List NodeId → List NodeId) :
    Cut E E' 0 (readCore R Q order) := by
  unfold Rd.readCore
  exact ((Cut.vec H (Cut.u64 H)).mono (Nat.zero_le _)).bind0 (d' := 0) (fun ids => (Cut.lift _).bind0 (d' := 0) (fun g => Cut.updateCore H R Q order g))

theorem checkIfTrue_end {p : Nat} (h : p = E.buf.length) : checkIfTrue E p = .ok (false, p) := by
  have hc : currType E p = .throw .domainError := by
    rcases currType_cases p (by omega : p ≤ E.buf.length) with ⟨t, _, hl⟩ | ht
    · omega
    · exact ht
  unfold checkIfTrue
  rw [show (do let t ← currType; checkType t; return t : Rd UInt8) E p = .throw .domainError by rw [bind_apply, hc]; rfl]

theorem checkIfTrue_inside (H : Ext E E') {p : Nat} (hp : p + 1 ≤ E.buf.length) : checkIfTrue E p = checkIfTrue E' p := by
  unfold checkIfTrue
  have h : Cut E E' 0 (do let t ← Rd.currType; Rd.checkType t; return t : Rd UInt8) :=
    Cut.currType' H (fun t => ((Cut.checkType H t).bind0 (d' := 0) (fun _ => Cut.pure t)).mono (by omega))
  have hs := h p (by omega)
  have hn : ∀ e, (do let t ← Rd.currType; Rd.checkType t; return t : Rd UInt8) E p ≠ .throw e := by
    intro e he
    rcases currType_same H p (by omega) with ⟨t, ht, _, _⟩ | ht
    · rw [bind_apply, ht] at he
      simp only [Res.bind_ok] at he
      rw [bind_apply] at he
      unfold checkType at he
      rw [bind_apply, ht] at he
      simp only [Res.bind_ok, ne_eq, not_true_eq_false, if_false] at he
      cases he
    · unfold currType at ht
      rw [bind_apply] at ht
      unfold checkValid at ht
      have := E.small
      rw [if_neg (by rw [Nat.mod_eq_of_lt (by omega)]; omega)] at ht
      simp only [Res.bind_ok] at ht
      unfold peek raw at ht
      rw [if_pos (by omega)] at ht
      cases ht
  revert hs hn
  cases (do let t ← Rd.currType; Rd.checkType t; return t : Rd UInt8) E p with
  | ok x => intro hs _; rw [hs.1]
  | throw e => intro _ hn; exact absurd rfl (hn e)
  | ub => intro hs _; rw [show _ = Res.ub from hs]

end Rd

/-- Everything that `Graph.write` writes before the mesh. -/
def Graph.writeBody (W : Registry NodeClass) (V : Registry EdgeClass) (g : Graph) : Wr :=
  Wr.seq (Wr.vec Wr.u64 g.layerIds) (Wr.seq (Wr.vec Wr.str W.names) (Wr.seq (Wr.vec Wr.str V.names)
    (Wr.seq (Wr.dynArr (Wr.node W) (g.staticNodes.map some)) (Wr.seq (Wr.dynArr (Wr.node W) g.dynSlots) (Wr.dynArr (Wr.edge V) g.allEdges)))))

theorem Graph.write_eq (W : Registry NodeClass) (V : Registry EdgeClass) (g : Graph) (incl : Bool) :
    g.write W V incl = (g.writeBody W V).seq (Rd.meshTail (if incl then g.mesh else none)) := by
  unfold Graph.write Graph.writeBody Rd.meshTail
  simp only [Rd.seq_assoc]
  cases (if incl = true then g.mesh else none) <;> rfl

namespace GraphIO

/-- Reading everything but the mesh. -/
theorem readBody {ids : List LayerId} {ops : List Op} {g : Graph} (hg : Reached ids ops g) (hs : g.Storable) (hne : g.layerIds ≠ [])
    {W R' : Registry NodeClass} {V Q : Registry EdgeClass} (hu : g.Understood W R' V Q)
    {order : List NodeId → List NodeId} (ho : ∀ l, (order l).Perm l) {E : Env} (hv : E.version = FileHeader.current.version) :
    ∃ h ops', Rd.RT E (g.writeBody W V) (Rd.readCore R' Q order) h ∧ Reached g.layerIds ops' h ∧ h.Mirrors g ∧
      (∀ a b, h.edgeObs a b = g.edgeObs a b) ∧ h.mesh = none := by
  obtain ⟨rg, wg⟩ := hg.rep
  obtain ⟨h0, e0, r0⟩ := R.create hne
  have w0 := SWF.empty g.layerIds
  have hempty : ∀ n, h0.nodeObs n = none := fun n => by rw [r0.nodeObs w0]; rfl
  have hacc : h0.Accepts g := by
    constructor
    · intro n i j _ hj; rw [hempty] at hj; cases hj
    · intro n m i j _ hj; rw [hempty] at hj; cases hj
    · intro n m kn km he
      rw [r0.hasEdge w0] at he
      cases he
  obtain ⟨w, h', ops1, outs, m1, ⟨_, wc, e1, e2⟩, m3, m4, m5, m6, m7, m8, _⟩ :=
    GraphIO.mirrorAs rg wg r0 w0 (show h0.layerIds = _ from r0.layerIds) hs hacc hu ho (incl := false) (Fmt.reads_current hv)
  refine ⟨h', ops1, ?_, ⟨hne, m3, outs, ?_⟩, mirrors_current.1 m5, m7 hempty, ?_⟩
  · intro bs pre post hw hb
    have hE : g.writeAs Fmt.current W V false = .ok (bs ++ [Pack.false_]) := by
      rw [Graph.writeAs_current, Graph.write_eq, hw]
      rfl
    rw [m1, e1, ← Rd.seq_assoc] at hE
    obtain ⟨b1, b2, h1, h2, h3⟩ := Rd.seq_ok hE
    cases h2
    have hbs : b1 = bs := by
      have := congrArg List.dropLast h3
      simpa using this.symm
    subst hbs
    have : Rd.RT E ((Wr.vec Wr.u64 g.layerIds).seq wc) (Rd.readCore R' Q order) h' := by
      unfold Rd.readCore
      refine Rd.RT.bind (Rd.RT.vec _ (fun a _ => Rd.RT.u64 a)) ?_
      exact Rd.RT.skip (Rd.lift_ok e0) (e2 rfl)
    exact this b1 pre post h1 hb
  · simp only [Graph.exec, e0, Res.bind_ok, m4]
  · rw [m8, show h0.mesh = none from r0.mesh]; rfl

/-- A message that was cut short. -/
theorem cut {ids : List LayerId} {ops : List Op} {g : Graph} (hg : Reached ids ops g) (hs : g.Storable) (hne : g.layerIds ≠ [])
    {W R' : Registry NodeClass} {V Q : Registry EdgeClass} (hu : g.Understood W R' V Q)
    {order : List NodeId → List NodeId} (ho : ∀ l, (order l).Perm l) {incl : Bool} {bs tail : List UInt8} (hw : g.write W V incl = .ok bs)
    (ht : Rd.meshTail (if incl then g.mesh else none) = .ok tail) {k : Nat} (hk : k < bs.length) {E : Env}
    (hv : E.version = FileHeader.current.version) (hb : E.buf = bs.take k) (hlen : bs.length < 2 ^ 63) :
    (k + tail.length = bs.length → ∃ h ops', Rd.readGraph R' Q order E 0 = .ok (h, k) ∧ Reached g.layerIds ops' h ∧ h.Mirrors g ∧
      (∀ a b, h.edgeObs a b = g.edgeObs a b) ∧ h.mesh = none) ∧
    (k + tail.length ≠ bs.length → ∃ e, Rd.readGraph R' Q order E 0 = .throw e) := by
  rw [Graph.write_eq] at hw
  obtain ⟨b, t, h1, h2, rfl⟩ := Rd.seq_ok hw
  rw [ht] at h2
  cases h2
  rw [Rd.readGraph_eq]
  have hkl : E.buf.length = k := by rw [hb, List.length_take]; omega
  constructor
  · intro he
    have hkb : k = b.length := by simp at he; omega
    have hb' : E.buf = [] ++ b ++ [] := by rw [hb, hkb]; simp
    obtain ⟨h, ops', r1, r2⟩ := readBody hg hs hne hu ho (E := E) hv
    refine ⟨h, ops', ?_, r2⟩
    rw [Rd.bind_apply, show Rd.readCore R' Q order E 0 = .ok (h, 0 + b.length) from r1 b [] [] h1 hb']
    simp only [Res.bind_ok]
    unfold Rd.meshPart
    rw [Rd.bind_apply, Rd.checkIfTrue_end (by omega)]
    simp only [Res.bind_ok]
    rw [hkb, Nat.zero_add]
    rfl
  · intro he
    let E' : Env := { E with buf := b ++ tail, small := hlen }
    have H : Rd.Ext E E' := ⟨⟨(b ++ tail).drop k, by rw [hb]; exact (List.take_append_drop k _).symm⟩, rfl, rfl, rfl, rfl⟩
    obtain ⟨h, ops', r1, _⟩ := readBody hg hs hne hu ho (E := E') hv
    have hr : Rd.readCore R' Q order E' 0 = .ok (h, b.length) := by
      have := r1 b [] tail h1 (by simp [E'])
      simpa using this
    have hc := Rd.Cut.readCore H R' Q order 0 (Nat.zero_le _)
    rw [Rd.bind_apply]
    rw [hr] at hc
    cases e : Rd.readCore R' Q order E 0 with
    | throw x => exact ⟨x, rfl⟩
    | ub => rw [e] at hc; cases hc
    | ok x =>
      rw [e] at hc
      obtain ⟨q, hq⟩ := x
      obtain ⟨c1, _, c3⟩ := hc
      cases c1
      simp only [Res.bind_ok]
      have hlt : b.length < k := by
        rcases Nat.lt_or_ge b.length k with h' | h'
        · exact h'
        · simp at he; omega
      unfold Rd.meshPart
      rw [Rd.bind_apply, Rd.checkIfTrue_inside H (by omega)]
      cases hm : (if incl = true then g.mesh else none) with
      | none =>
        rw [hm] at ht
        cases ht
        simp at hk
        omega
      | some m =>
        rw [hm] at ht
        obtain ⟨t1, t2, t3, t4, rfl⟩ := Rd.seq_ok ht
        have hf := Rd.RT.checkIfTrue (E := E') true t1 b t2 t3 (by simp [E'])
        rw [hf]
        simp only [Res.bind_ok, if_true]
        rw [Rd.bind_apply]
        have hmesh := Rd.RT.mesh (E := E') m t2 (b ++ t1) [] t4 (by simp [E'])
        rw [List.length_append] at hmesh
        have ht1 : t1.length = 1 := by cases t3; rfl
        have hc2 := Rd.Cut.mesh H (b.length + t1.length) (by omega)
        rw [hmesh] at hc2
        cases e2 : Rd.mesh E (b.length + t1.length) with
        | throw x => exact ⟨x, rfl⟩
        | ub => rw [e2] at hc2; cases hc2
        | ok y =>
          rw [e2] at hc2
          obtain ⟨y, yp⟩ := y
          obtain ⟨c1, _, c3⟩ := hc2
          cases c1
          simp at hk
          omega

end GraphIO
end Verif
