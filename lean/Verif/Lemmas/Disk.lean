import Verif.Spec.Disk
import Verif.Lemmas.Cut2
import Verif.Props.GraphIO
import Verif.Props.Json
import Verif.Props.Safety
import Verif.Props.JsonSafety
/-! # Lemmas for saving and loading files -/

namespace Verif
variable {p q : Str} {b : Bool}

theorem Target.verify (h : Target p q b) : verifyFileExtension p = .ok (q, if b then .json else .binary) := by
  obtain ⟨h1, h2, h3, _⟩ := C30_file_type p
  cases h with
  | json h => exact h1 h
  | binary h => exact h2 h
  | appended h => exact h3 h

/-- a path that has an extension has a file name -/
theorem Target.again (h : Target p q b) (hf : ¬ NoFilename p) : verifyFileExtension q = .ok (q, if b then .json else .binary) := by
  cases h with
  | json h => exact (Target.json h).verify
  | binary h => exact (Target.binary h).verify
  | appended h =>
    have := (C30_save_load p (fun _ => none) _ (by rw [saveFile, (Target.appended h).verify]; rfl)).2 h hf
    have h2 := this.2
    rw [loadFile, this.1] at h2
    exact h2

theorem Target.unique {q' : Str} {b' : Bool} (h : Target p q b) (h' : Target p q' b') : q = q' ∧ b = b' := by
  have := h.verify.symm.trans h'.verify
  simp only [Res.ok.injEq, Prod.mk.injEq] at this
  refine ⟨this.1, ?_⟩
  have h2 := this.2
  cases b <;> cases b' <;> simp at h2 ⊢

theorem FileSys.put_whole (d : FileSys) (p : Str) (bs : List UInt8) : d.put p bs .whole p = some bs := by
  show (if p = p then some bs else d p) = _
  simp

theorem FileSys.put_cut (d : FileSys) (p : Str) (bs : List UInt8) (k : Nat) : d.put p bs (.cut k) p = some (bs.take k) := by
  show (if p = p then some (bs.take k) else d p) = _
  simp

theorem FileSys.put_other (d : FileSys) {p r : Str} (bs : List UInt8) (f : Fate) (h : r ≠ p) : d.put p bs f r = d r := by
  cases f with
  | unopened => rfl
  | cut k => show (if r = p then _ else d r) = d r; rw [if_neg h]
  | whole => show (if r = p then _ else d r) = d r; rw [if_neg h]

variable {H : Machine} {f : Fate} {d d' : FileSys} {g : Graph} {m : Mesh} {incl : Bool} {r : Res Unit}

/-- A binary save that returned. -/
theorem Graph.saveTo_binary (ht : Target p q false) (h : g.saveTo H f d p incl = (d', .ok ())) :
    ∃ bs, g.saveBinary H.P incl = .ok bs ∧ d' = d.put q bs f := by
  unfold Graph.saveTo at h
  rw [ht.verify] at h
  simp only [Bool.false_eq_true, if_false] at h
  split at h
  · rename_i bs hb
    cases h
    exact ⟨bs, hb, rfl⟩
  · cases h
  · cases h

theorem Graph.saveTo_of_binary (ht : Target p q false) {bs : List UInt8} (hb : g.saveBinary H.P incl = .ok bs) :
    g.saveTo H f d p incl = (d.put q bs f, .ok ()) := by
  unfold Graph.saveTo
  rw [ht.verify]
  simp only [Bool.false_eq_true, if_false, hb]

theorem Mesh.saveTo_of_binary (ht : Target p q false) {bs : List UInt8} (hb : m.saveBinary = .ok bs) :
    m.saveTo H f d p = (d.put q bs f, .ok ()) := by
  unfold Mesh.saveTo
  rw [ht.verify]
  simp only [Bool.false_eq_true, if_false, hb]

theorem Graph.saveTo_json (ht : Target p q true) (h : g.saveTo H f d p incl = (d', .ok ())) :
    ∃ j, g.writeJson H.J.toJArith H.P.R H.P.Q incl = .ok j ∧ d' = d.put q (H.L.print j) f := by
  unfold Graph.saveTo at h
  rw [ht.verify] at h
  simp only [if_true] at h
  split at h
  · rename_i j hj
    cases h
    exact ⟨j, hj, rfl⟩
  · cases h
  · cases h

theorem Mesh.saveTo_binary (ht : Target p q false) (h : m.saveTo H f d p = (d', .ok ())) : ∃ bs, m.saveBinary = .ok bs ∧ d' = d.put q bs f := by
  unfold Mesh.saveTo at h
  rw [ht.verify] at h
  simp only [Bool.false_eq_true, if_false] at h
  split at h
  · rename_i bs hb
    cases h
    exact ⟨bs, hb, rfl⟩
  · cases h
  · cases h

theorem Mesh.saveTo_json (ht : Target p q true) (h : m.saveTo H f d p = (d', .ok ())) :
    ∃ j, (H.J.toJArith.mesh m).text = .ok j ∧ d' = d.put q (H.L.print j) f := by
  unfold Mesh.saveTo at h
  rw [ht.verify] at h
  simp only [if_true] at h
  split at h
  · rename_i j hj
    cases h
    exact ⟨j, hj, rfl⟩
  · cases h
  · cases h

theorem Graph.loadFrom_binary (hv : verifyFileExtension q = .ok (q, .binary)) {bs : List UInt8} (hd : d q = some bs) (hl : bs.length < 2 ^ 63) :
    Graph.loadFrom H d q = Graph.loadBinary H.P bs hl := by
  unfold Graph.loadFrom FileSys.get
  rw [hv]
  simp [hd, hl]

theorem Graph.loadFrom_json (hv : verifyFileExtension q = .ok (q, .json)) {bs : List UInt8} (hd : d q = some bs) :
    Graph.loadFrom H d q = (match H.L.parse bs with | none => .throw .json | some j => H.J.readGraph H.P.R H.P.Q j) := by
  unfold Graph.loadFrom FileSys.get
  rw [hv]
  simp only [hd, Option.isNone_some, Bool.false_eq_true, if_false, Res.bind_ok, Option.getD_some]
  cases H.L.parse bs <;> rfl

theorem Mesh.loadFrom_binary (hv : verifyFileExtension q = .ok (q, .binary)) {bs : List UInt8} (hd : d q = some bs) (hl : bs.length < 2 ^ 63) :
    Mesh.loadFrom H d q = Mesh.loadBinary H.P bs hl := by
  unfold Mesh.loadFrom FileSys.get
  rw [hv]
  simp [hd, hl]

theorem Mesh.loadFrom_json (hv : verifyFileExtension q = .ok (q, .json)) {bs : List UInt8} (hd : d q = some bs) :
    Mesh.loadFrom H d q = (match H.L.parse bs with | none => .throw .json | some j => H.J.meshDoc j) := by
  unfold Mesh.loadFrom FileSys.get
  rw [hv]
  simp only [hd, Option.isNone_some, Bool.false_eq_true, if_false, Res.bind_ok, Option.getD_some]
  cases H.L.parse bs <;> rfl

theorem Json.text_obj {l : List (Str × Json)} {j : Json} (h : (Json.obj l).text = .ok j) : ∃ fs, j = .obj fs := by
  rw [Json.text] at h
  obtain ⟨fs, _, h⟩ := bind_eq_ok h
  cases h
  exact ⟨fs, rfl⟩

theorem Graph.writeJson_text {F : JArith} {R : Registry NodeClass} {Q : Registry EdgeClass} {j : Json} (h : g.writeJson F R Q incl = .ok j) :
    ∃ j0 fs, Json.text j0 = .ok j ∧ j = .obj fs := by
  unfold Graph.writeJson at h
  obtain ⟨_, _, h⟩ := bind_eq_ok h
  obtain ⟨_, _, h⟩ := bind_eq_ok h
  obtain ⟨_, _, h⟩ := bind_eq_ok h
  obtain ⟨fs, hf⟩ := Json.text_obj h
  exact ⟨_, fs, h, hf⟩

/-- The header of a file that was cut short. -/
theorem header_cut {P : Prog} {b1 rest : List UInt8} (hw : FileHeader.current.write = .ok b1) (hlen : (b1 ++ rest).length < 2 ^ 63) {k : Nat}
    (hk : ((b1 ++ rest).take k).length < 2 ^ 63) :
    (b1.length ≤ k → FileHeader.read (P.env ((b1 ++ rest).take k) hk FileHeader.current.version) 0 = .ok (some FileHeader.current, b1.length)) ∧
    (k < b1.length → ∃ e, FileHeader.read (P.env ((b1 ++ rest).take k) hk FileHeader.current.version) 0 = .throw e) := by
  constructor
  · intro h
    refine C29_header_round_trip FileHeader.current b1 (rest.take (k - b1.length)) _ hw ?_
    show (b1 ++ rest).take k = _
    rw [List.take_append, List.take_of_length_le h]
  · intro h
    have hr := C29_header_round_trip FileHeader.current b1 rest (P.env (b1 ++ rest) hlen FileHeader.current.version) hw rfl
    have H : Rd.Ext (P.env ((b1 ++ rest).take k) hk FileHeader.current.version) (P.env (b1 ++ rest) hlen FileHeader.current.version) :=
      ⟨⟨(b1 ++ rest).drop k, (List.take_append_drop k _).symm⟩, rfl, rfl, rfl, rfl⟩
    have hc := Rd.Cut.header H 0 (Nat.zero_le _)
    rw [hr] at hc
    revert hc
    cases FileHeader.read (P.env ((b1 ++ rest).take k) hk FileHeader.current.version) 0 with
    | throw e => intro _; exact ⟨e, rfl⟩
    | ub => intro hc; cases hc
    | ok x =>
      intro hc
      obtain ⟨x, xp⟩ := x
      obtain ⟨c1, _, c3⟩ := hc
      cases c1
      have : (P.env ((b1 ++ rest).take k) hk FileHeader.current.version).buf.length = min k (b1 ++ rest).length := List.length_take
      omega

/-- A graph file that was cut short. -/
theorem Graph.loadBinary_cut {ids : List LayerId} {ops : List Op} (hg : Reached ids ops g) (hs : g.Storable) (hne : g.layerIds ≠ [])
    {P P' : Prog} (hu : g.Understood P.R P'.R P.Q P'.Q) (ho : ∀ l, (P'.order l).Perm l) {file tail : List UInt8}
    (hw : g.saveBinary P incl = .ok file) (ht : g.meshBytes incl = .ok tail) (hlen : file.length < 2 ^ 63) {k : Nat} (hk : k < file.length)
    (hk' : (file.take k).length < 2 ^ 63) :
    (k + tail.length = file.length → ∃ h ops', Graph.loadBinary P' (file.take k) hk' = .ok h ∧ Reached g.layerIds ops' h ∧ h.Mirrors g ∧
      (∀ a b, h.edgeObs a b = g.edgeObs a b) ∧ h.mesh = none) ∧
    (k + tail.length ≠ file.length → ∃ e, Graph.loadBinary P' (file.take k) hk' = .throw e) := by
  obtain ⟨b1, b2, h1, h2, rfl⟩ := Rd.seq_ok hw
  have hb2 : tail.length ≤ b2.length := by
    rw [Graph.write_eq] at h2
    obtain ⟨x, y, _, h4, rfl⟩ := Rd.seq_ok h2
    rw [show Rd.meshTail (if incl then g.mesh else none) = .ok tail from ht] at h4
    cases h4
    simp
  obtain ⟨hh1, hh2⟩ := header_cut (P := P') h1 hlen hk'
  by_cases hc : b1.length ≤ k
  · have hh := hh1 hc
    have hd : ((b1 ++ b2).take k).drop b1.length = b2.take (k - b1.length) := by
      rw [List.take_append, List.take_of_length_le hc]
      simp
    have hl2 : b2.length < 2 ^ 63 := by simp at hlen; omega
    have hk2 : k - b1.length < b2.length := by simp at hk; omega
    have key := GraphIO.cut hg hs hne hu ho h2 ht hk2
      (E := P'.env (((b1 ++ b2).take k).drop b1.length) (by simp at hlen ⊢; omega) FileHeader.current.version) rfl hd hl2
    have e0 : Graph.loadBinary P' ((b1 ++ b2).take k) hk' = (Rd.readGraph P'.R P'.Q P'.order
        (P'.env (((b1 ++ b2).take k).drop b1.length) (by simp at hlen ⊢; omega) FileHeader.current.version) 0 >>= fun g => .ok g.1) := by
      unfold Graph.loadBinary
      rw [hh]
      simp only [Res.bind_ok, Option.getD_some]
      rw [show FileHeader.current.checkCompatibility = .ok () by decide +kernel]
      rfl
    rw [e0]
    have hiff : k - b1.length + tail.length = b2.length ↔ k + tail.length = (b1 ++ b2).length := by simp; omega
    constructor
    · intro h
      obtain ⟨x, ops', r1, r2⟩ := key.1 (hiff.2 h)
      exact ⟨x, ops', by rw [r1]; rfl, r2⟩
    · intro h
      obtain ⟨e, he⟩ := key.2 (fun x => h (hiff.1 x))
      exact ⟨e, by rw [he]; rfl⟩
  · obtain ⟨e, he⟩ := hh2 (by omega)
    constructor
    · intro h; exfalso; simp at h; omega
    · intro _
      exact ⟨e, by unfold Graph.loadBinary; rw [he]; rfl⟩

/-- A mesh file. -/
theorem Mesh.loadBinary_saved {P : Prog} {file : List UInt8} (hw : m.saveBinary = .ok file) (hlen : file.length < 2 ^ 63) :
    Mesh.loadBinary P file hlen = .ok m := by
  obtain ⟨b1, b2, h1, h2, rfl⟩ := Rd.seq_ok hw
  have hd : (b1 ++ b2).drop b1.length = b2 := by simp
  have hh := C29_header_round_trip FileHeader.current b1 b2 (P.env (b1 ++ b2) hlen FileHeader.current.version) h1 rfl
  unfold Mesh.loadBinary
  rw [hh]
  simp only [Res.bind_ok]
  rw [show FileHeader.current.checkCompatibility = .ok () by decide +kernel]
  simp only [Res.bind_ok]
  have := Rd.RT.mesh (E := P.env ((b1 ++ b2).drop b1.length) (by simp at hlen ⊢; omega) FileHeader.current.version) m b2 [] [] h2
    (by rw [show (P.env ((b1 ++ b2).drop b1.length) _ FileHeader.current.version).buf = (b1 ++ b2).drop b1.length from rfl, hd]; simp)
  rw [show Rd.mesh _ 0 = .ok (m, [].length + b2.length) from this]
  rfl

/-- A mesh file that was cut short. -/
theorem Mesh.loadBinary_cut {P : Prog} {file : List UInt8} (hw : m.saveBinary = .ok file) (hlen : file.length < 2 ^ 63) {k : Nat}
    (hk : k < file.length) (hk' : (file.take k).length < 2 ^ 63) : ∃ e, Mesh.loadBinary P (file.take k) hk' = .throw e := by
  obtain ⟨b1, b2, h1, h2, rfl⟩ := Rd.seq_ok hw
  obtain ⟨hh1, hh2⟩ := header_cut (P := P) h1 hlen hk'
  unfold Mesh.loadBinary
  by_cases hc : b1.length ≤ k
  · have hd : ((b1 ++ b2).take k).drop b1.length = b2.take (k - b1.length) := by
      rw [List.take_append, List.take_of_length_le hc]
      simp
    have hl2 : b2.length < 2 ^ 63 := by simp at hlen; omega
    have hk2 : k - b1.length < b2.length := by simp at hk; omega
    rw [hh1 hc]
    simp only [Res.bind_ok]
    rw [show FileHeader.current.checkCompatibility = .ok () by decide +kernel]
    simp only [Res.bind_ok]
    have hm := Rd.RT.mesh (E := P.env b2 hl2 FileHeader.current.version) m b2 [] [] h2 (by simp [Prog.env])
    have H : Rd.Ext (P.env (((b1 ++ b2).take k).drop b1.length) (by simp at hlen ⊢; omega) FileHeader.current.version) (P.env b2 hl2 FileHeader.current.version) :=
      ⟨⟨b2.drop (k - b1.length), by
        show b2 = ((b1 ++ b2).take k).drop b1.length ++ b2.drop (k - b1.length)
        rw [hd, List.take_append_drop]⟩, rfl, rfl, rfl, rfl⟩
    have hcut := Rd.Cut.mesh H 0 (Nat.zero_le _)
    rw [show Rd.mesh (P.env b2 hl2 FileHeader.current.version) 0 = .ok (m, [].length + b2.length) from hm] at hcut
    have hl : (P.env (((b1 ++ b2).take k).drop b1.length) (by simp at hlen ⊢; omega) FileHeader.current.version).buf.length = k - b1.length := by
      show (((b1 ++ b2).take k).drop b1.length).length = _
      rw [hd, List.length_take]; omega
    revert hcut
    cases Rd.mesh (P.env (((b1 ++ b2).take k).drop b1.length) (by simp at hlen ⊢; omega) FileHeader.current.version) 0 with
    | throw e => intro _; exact ⟨e, rfl⟩
    | ub => intro h; cases h
    | ok x =>
      intro h
      obtain ⟨x, xp⟩ := x
      obtain ⟨c1, _, c3⟩ := h
      cases c1
      rw [hl] at c3
      simp at c3
      omega
  · obtain ⟨e, he⟩ := hh2 (by omega)
    exact ⟨e, by rw [he]; rfl⟩

end Verif
