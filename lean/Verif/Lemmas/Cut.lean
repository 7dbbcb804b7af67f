import Verif.Lemmas.Codec
import Verif.Lemmas.GraphIO
/-! # Reading a buffer that was cut short -/

namespace Verif
namespace Rd
variable {α β : Type} {E E' : Env}

/-- `E` is `E'` with a buffer that was cut short. -/
structure Ext (E E' : Env) : Prop where
  buf : ∃ post, E'.buf = E.buf ++ post
  version : E'.version = E.version
  isoOverflow : E'.isoOverflow = E.isoOverflow
  eigenChecks : E'.eigenChecks = E.eigenChecks
  fsub : E'.fsub = E.fsub

theorem Ext.len (H : Ext E E') : E.buf.length ≤ E'.buf.length := by
  obtain ⟨p, hp⟩ := H.buf
  rw [hp]; simp

/-- The outcome on the short buffer: an exception (a failed assertion only if it fails on the whole, too), or the outcome on the whole. -/
def Same (E : Env) (q : Nat) : Res (α × Nat) → Res (α × Nat) → Prop
  | .ok (a, p'), r => r = .ok (a, p') ∧ q ≤ p' ∧ p' ≤ E.buf.length
  | .throw e, r => e = .abort → r = .throw .abort
  | .ub, r => r = .ub

/-- From every position inside the short buffer, the reader throws, or does what it does on the whole. -/
def Cut (E E' : Env) (d : Nat) (r : Rd α) : Prop :=
  ∀ p, p ≤ E.buf.length → Same E (p + d) (r E p) (r E' p)

theorem Same.mono {q q' : Nat} {a b : Res (α × Nat)} (h : Same E q a b) (hq : q' ≤ q) : Same E q' a b := by
  cases a with
  | ok x => exact ⟨h.1, by have := h.2.1; omega, h.2.2⟩
  | throw e => exact h
  | ub => exact h

theorem Cut.mono {d d' : Nat} {r : Rd α} (h : Cut E E' d r) (hd : d' ≤ d) : Cut E E' d' r :=
  fun p hp => (h p hp).mono (by omega)

theorem Cut.pure (a : α) : Cut E E' 0 (Pure.pure a : Rd α) := by
  intro p hp
  rw [pure_apply]
  exact ⟨rfl, Nat.le_refl _, hp⟩

theorem Cut.fail (e : Exc) (d : Nat) : Cut E E' d (Rd.fail e : Rd α) := fun _ _ => by rintro rfl; rfl

theorem Cut.lift (r : Res α) : Cut E E' 0 (Rd.lift r : Rd α) := by
  intro p hp
  unfold Rd.lift
  cases r with
  | ok x => exact ⟨rfl, Nat.le_refl _, hp⟩
  | throw e => rintro rfl; rfl
  | ub => rfl

theorem Same.bind {d d' p : Nat} {r : Rd α} {k : α → Rd β} (h : Same E (p + d) (r E p) (r E' p))
    (h' : ∀ a q, q ≤ E.buf.length → p + d ≤ q → Same E (q + d') (k a E q) (k a E' q)) :
    Same E (p + d + d') ((r >>= k) E p) ((r >>= k) E' p) := by
  rw [bind_apply, bind_apply]
  revert h
  cases e : r E p with
  | ok x =>
    intro h
    rw [h.1]
    exact (h' x.1 x.2 h.2.2 h.2.1).mono (by have := h.2.1; omega)
  | throw e => intro h he; rw [h he]; rfl
  | ub => intro h; rw [show r E' p = .ub from h]; rfl

theorem Cut.bind {d d' : Nat} {r : Rd α} {k : α → Rd β} (h : Cut E E' d r) (h' : ∀ a, Cut E E' d' (k a)) : Cut E E' (d + d') (r >>= k) := by
  intro p hp
  rw [← Nat.add_assoc]
  exact (h p hp).bind (fun a q hq _ => h' a q hq)

/-- Progress does not matter after the first read. -/
theorem Cut.bind0 {d d' : Nat} {r : Rd α} {k : α → Rd β} (h : Cut E E' d r) (h' : ∀ a, Cut E E' d' (k a)) : Cut E E' d (r >>= k) :=
  (h.bind h').mono (by omega)

theorem Cut.env {d : Nat} {k : Env → Rd β} (h : k E' = k E) (h' : Cut E E' d (k E)) : Cut E E' d (Rd.env >>= k) := by
  intro p hp
  rw [bind_apply, bind_apply]
  show Same E _ (k E E p) (k E' E' p)
  rw [h]
  exact h' p hp

theorem Cut.ite {c : Prop} [Decidable c] {d : Nat} {a b : Rd α} (h : c → Cut E E' d a) (h' : ¬ c → Cut E E' d b) :
    Cut E E' d (if c then a else b) := by
  by_cases hc : c
  · simpa [hc] using h hc
  · simpa [hc] using h' hc

theorem Cut.map {d : Nat} {r : Rd α} (f : α → β) (h : Cut E E' d r) : Cut E E' d (r >>= fun x => Pure.pure (f x)) :=
  h.bind0 (fun a => Cut.pure (f a))

theorem raw_same (H : Ext E E') {p k : Nat} (h : p + k ≤ E.buf.length) : raw k E' p = raw k E p := by
  obtain ⟨post, hb⟩ := H.buf
  unfold raw
  rw [if_pos h, if_pos (by rw [hb]; simp; omega)]
  rw [hb, List.drop_append, List.take_append_of_le_length (by simp; omega)]

/-- The pattern "check that there is room, then access memory". -/
theorem Cut.checked (H : Ext E E') (k n : Nat) (hk : n * k < 2 ^ 63) (f : List UInt8 → α) :
    Cut E E' (n * k) (do checkValid k n; let bs ← raw (n * k); Pure.pure (f bs)) := by
  intro p hp
  rw [bind_apply, bind_apply]
  unfold checkValid
  have := E.small
  have := E'.small
  have := H.len
  rw [Nat.mod_eq_of_lt (by omega)]
  split
  · exact fun h => nomatch h
  · rename_i h
    rw [if_neg (by omega)]
    simp only [Res.bind_ok]
    rw [bind_apply, bind_apply, raw_same H (by omega)]
    unfold raw
    rw [if_pos (by omega)]
    exact ⟨rfl, Nat.le_refl _, by show p + n * k ≤ _; omega⟩

theorem currType_same (H : Ext E E') (p : Nat) (hp : p ≤ E.buf.length) :
    (∃ t, currType E p = .ok (t, p) ∧ currType E' p = .ok (t, p) ∧ p + 1 ≤ E.buf.length) ∨ currType E p = .throw .domainError := by
  rcases currType_cases p hp with ⟨t, ht, hl⟩ | ht
  · refine .inl ⟨t, ht, ?_, hl⟩
    rw [← ht]
    have := E.small
    have := E'.small
    have := H.len
    unfold currType
    rw [bind_apply, bind_apply]
    unfold checkValid
    rw [if_neg (by rw [Nat.mod_eq_of_lt (by omega)]; omega), if_neg (by rw [Nat.mod_eq_of_lt (by omega)]; omega)]
    simp only [Res.bind_ok]
    unfold peek
    rw [raw_same H hl]
  · exact .inr ht

/-- A reader that looks at the next byte and then goes on from it. -/
theorem Cut.currType (H : Ext E E') {d : Nat} {k : UInt8 → Rd β} (h : ∀ t p, p + 1 ≤ E.buf.length → Same E (p + d) (k t E p) (k t E' p)) :
    Cut E E' d (Rd.currType >>= k) := by
  intro p hp
  rw [bind_apply, bind_apply]
  rcases currType_same H p hp with ⟨t, ht, ht', hl⟩ | ht
  · rw [ht, ht']; exact h t p hl
  · rw [ht]; exact fun h => nomatch h

theorem Cut.currType' (H : Ext E E') {d : Nat} {k : UInt8 → Rd β} (h : ∀ t, Cut E E' d (k t)) : Cut E E' d (Rd.currType >>= k) :=
  Cut.currType H (fun t p hp => h t p (by omega))

theorem Cut.checkType (H : Ext E E') (t : UInt8) : Cut E E' 1 (checkType t) := by
  unfold Rd.checkType
  refine Cut.currType H (fun r p hp => ?_)
  split
  · exact fun h => nomatch h
  · exact ⟨rfl, Nat.le_refl _, hp⟩

theorem Cut.word (H : Ext E E') (t : UInt8) (k : Nat) (hk : k < 2 ^ 63) : Cut E E' (1 + k) (word t k) := by
  unfold Rd.word
  refine (Cut.checkType H t).bind (fun _ => ?_)
  have := Cut.checked H k 1 (by omega) leNat
  simpa using this

section
variable (H : Ext E E')
include H
theorem Cut.u8 : Cut E E' 2 u8 := (Cut.word H _ 1 (by omega)).map _
theorem Cut.u16 : Cut E E' 3 u16 := (Cut.word H _ 2 (by omega)).map _
theorem Cut.u32 : Cut E E' 5 u32 := (Cut.word H _ 4 (by omega)).map _
theorem Cut.u64 : Cut E E' 9 u64 := (Cut.word H _ 8 (by omega)).map _
theorem Cut.i32 : Cut E E' 5 i32 := (Cut.word H _ 4 (by omega)).map _
theorem Cut.i64 : Cut E E' 9 i64 := (Cut.word H _ 8 (by omega)).map _
theorem Cut.f32 : Cut E E' 5 f32 := (Cut.word H _ 4 (by omega)).map _
theorem Cut.f64 : Cut E E' 9 f64 := (Cut.word H _ 8 (by omega)).map _
theorem Cut.stamp : Cut E E' 9 stamp := Cut.i64 H
theorem Cut.index : Cut E E' 9 index := (Cut.i64 H).map _

theorem Cut.bool : Cut E E' 1 bool := by
  unfold Rd.bool
  refine Cut.currType' H (fun t => ?_)
  refine (Cut.checkType H t).bind0 (d' := 0) (fun _ => ?_)
  exact Cut.ite (fun _ => Cut.pure _) (fun _ => Cut.ite (fun _ => Cut.pure _) (fun _ => Cut.fail _ _))

theorem Cut.arrLen : Cut E E' 5 arrLen := by
  unfold Rd.arrLen
  refine Cut.currType H (fun t p hp => ?_)
  split
  · exact fun h => nomatch h
  · rw [bind_apply, bind_apply]
    simp only [advance, Res.bind_ok]
    have := Cut.checked H 4 1 (by omega) leNat (p + 1) hp
    simp only [Nat.one_mul] at this
    exact this.mono (by omega)

theorem Cut.checkArrLen (n : Nat) : Cut E E' 5 (checkArrLen n) := (Cut.arrLen H).map _

theorem Cut.str : Cut E E' 5 str := by
  intro p hp
  unfold Rd.str
  rw [bind_apply, bind_apply]
  have h1 := Cut.arrLen H p hp
  cases h : Rd.arrLen E p with
  | ok x =>
    rw [h] at h1
    rw [h1.1]
    have hx := arrLen_lt h
    simp only [Res.bind_ok]
    have h2 := h1.2.1
    have h3 : x.2 ≤ E.buf.length := h1.2.2
    have := E.small
    have := E'.small
    have := H.len
    rw [bind_apply, bind_apply]
    unfold checkValid
    rw [Nat.mod_eq_of_lt (by omega)]
    split
    · exact fun h => nomatch h
    · rename_i hc
      rw [if_neg (by omega)]
      simp only [Res.bind_ok]
      rw [raw_same H (by omega)]
      unfold raw
      rw [if_pos (by omega)]
      exact ⟨rfl, by show p + 5 ≤ x.2 + x.1; omega, by show x.2 + x.1 ≤ _; omega⟩
  | throw e => rw [h] at h1; intro he; rw [h1 he]; rfl
  | ub => rw [h] at h1; rw [show Rd.arrLen E' p = .ub from h1]; rfl

theorem Cut.opt {d : Nat} {r : Rd α} (h : Cut E E' d r) (hd : 1 ≤ d) : Cut E E' 1 (opt r) := by
  unfold Rd.opt
  refine Cut.currType' H (fun t => ?_)
  exact Cut.ite (fun _ => (Cut.checkType H _).bind0 (fun _ => Cut.pure _)) (fun _ => (h.mono hd).bind0 (fun _ => Cut.pure _))

omit H in
theorem Cut.times {r : Rd α} (h : Cut E E' 0 r) (n : Nat) : Cut E E' 0 (times r n) := by
  induction n with
  | zero => exact Cut.pure []
  | succ n ih => exact h.bind0 (fun a => ih.bind0 (fun l => Cut.pure _))

theorem Cut.vec {d : Nat} {r : Rd α} (h : Cut E E' d r) : Cut E E' 5 (vec r) :=
  (Cut.arrLen H).bind0 (fun n => Cut.times (h.mono (Nat.zero_le _)) n)
theorem Cut.mapOf {K V : Type} [DecidableEq K] [OKey K] {d d' : Nat} {r : Rd K} {q : Rd V} (h : Cut E E' d r) (h' : Cut E E' d' q) :
    Cut E E' 5 (Rd.map r q) :=
  (Cut.vec H (h.bind0 (d' := d') (fun _ => h'.bind0 (fun _ => Cut.pure _)))).map _

theorem Cut.v3d : Cut E E' 27 v3d := (Cut.f64 H).bind (fun _ => (Cut.f64 H).bind (fun _ => (Cut.f64 H).map _))
theorem Cut.v3f : Cut E E' 15 v3f := (Cut.f32 H).bind (fun _ => (Cut.f32 H).bind (fun _ => (Cut.f32 H).map _))
theorem Cut.quat : Cut E E' 5 quat :=
  (Cut.checkArrLen H 4).bind0 (fun _ => (Cut.f64 H).bind0 (fun _ => (Cut.f64 H).bind0 (fun _ => (Cut.f64 H).bind0 (fun _ => (Cut.f64 H).map _))))

theorem Cut.mulAdd (r c : Int) : Cut E E' 0 (mulAdd r c) := by
  intro p hp
  unfold Rd.mulAdd
  rw [H.isoOverflow]
  split
  · rfl
  · exact ⟨rfl, Nat.le_refl _, hp⟩

theorem Cut.dims : Cut E E' 5 dims := by
  unfold Rd.dims
  refine (Cut.arrLen H).bind0 (d' := 0) (fun n => ?_)
  refine Cut.ite (fun _ => Cut.fail _ _) (fun _ => ?_)
  refine ((Cut.index H).bind0 (d' := 9) (fun r => (Cut.index H).bind0 (d' := 0) (fun c => ?_))).mono (by omega)
  exact (Cut.mulAdd H _ _).bind0 (d' := 0) (fun m => Cut.ite (fun _ => Cut.fail _ _) (fun _ => Cut.pure _))

omit H in
theorem Cut.resizeCheck (r c : Int) : Cut E E' 0 (resizeCheck r c) := by
  unfold Rd.resizeCheck
  exact Cut.ite (fun _ => Cut.fail _ _) (fun _ => Cut.pure _)

theorem Cut.matrixDyn {d : Nat} {q : Rd α} (h : Cut E E' d q) : Cut E E' 5 (matrixDyn q) := by
  unfold Rd.matrixDyn
  refine (Cut.dims H).bind0 (d' := 0) (fun x => ?_)
  refine Cut.env (by simp only [H.eigenChecks]) (Cut.ite (fun _ => Cut.fail _ _) (fun _ => ?_))
  exact (Cut.resizeCheck _ _).bind0 (fun _ => (Cut.times (h.mono (Nat.zero_le _)) _).map _)

theorem Cut.matrixFixed {d : Nat} {q : Rd α} (R C : Nat) (h : Cut E E' d q) : Cut E E' 5 (matrixFixed q R C) := by
  unfold Rd.matrixFixed
  refine (Cut.dims H).bind0 (d' := 0) (fun x => ?_)
  refine Cut.env (by simp only [H.eigenChecks]) (Cut.ite (fun _ => Cut.fail _ _) (fun _ => ?_))
  exact (Cut.times (h.mono (Nat.zero_le _)) _).map _

theorem Cut.columnVec {d : Nat} {q : Rd α} (h : Cut E E' d q) : Cut E E' 5 (columnVec q) := by
  unfold Rd.columnVec
  refine (Cut.dims H).bind0 (d' := 0) (fun x => ?_)
  refine Cut.env (by simp only [H.eigenChecks]) (Cut.ite (fun _ => Cut.fail _ _) (fun hc => ?_))
  exact (Cut.resizeCheck _ _).bind0 (d' := 0) (fun _ => Cut.ite (fun h2 => Cut.lift _) (fun _ => (Cut.times (h.mono (Nat.zero_le _)) _).map _))

/-- Peel off one read after another. -/
macro "cut_step" H:ident : tactic => `(tactic| with_reducible first
  | exact Cut.pure _
  | exact Cut.fail _ _
  | refine Cut.env (by simp only [($H).version, ($H).fsub]) ?_
  | refine Cut.ite (fun _ => ?_) (fun _ => ?_)
  | refine Cut.bind0 (d := 0) (d' := 0) ?_ (fun _ => ?_)
  | assumption
  | exact (Cut.checkArrLen $H _).mono (Nat.zero_le _)
  | exact (Cut.v3f $H).mono (Nat.zero_le _)
  | exact (Cut.v3d $H).mono (Nat.zero_le _)
  | exact (Cut.quat $H).mono (Nat.zero_le _)
  | exact (Cut.bool $H).mono (Nat.zero_le _)
  | exact (Cut.str $H).mono (Nat.zero_le _)
  | exact (Cut.u8 $H).mono (Nat.zero_le _)
  | exact (Cut.u32 $H).mono (Nat.zero_le _)
  | exact (Cut.u64 $H).mono (Nat.zero_le _)
  | exact (Cut.i32 $H).mono (Nat.zero_le _)
  | exact (Cut.f32 $H).mono (Nat.zero_le _)
  | exact (Cut.f64 $H).mono (Nat.zero_le _)
  | exact (Cut.opt $H (Cut.u32 $H) (by omega)).mono (Nat.zero_le _)
  | (refine Cut.mono (Cut.vec $H (d := 0) ?_) (Nat.zero_le _))
  | (refine Cut.mono (Cut.mapOf $H (d := 0) (d' := 0) ?_ ?_) (Nat.zero_le _)))

theorem Cut.color : Cut E E' 0 color := by unfold Rd.color; repeat cut_step H
theorem Cut.face : Cut E E' 0 face := by unfold Rd.face; repeat cut_step H
theorem Cut.nvi : Cut E E' 0 nvi := by unfold Rd.nvi; repeat cut_step H
theorem Cut.mesh : Cut E E' 0 mesh := by
  have h1 := Cut.color H
  have h2 := Cut.face H
  unfold Rd.mesh
  repeat cut_step H
theorem Cut.bbox : Cut E E' 0 bbox := by
  have h1 : Cut E E' 0 (Rd.matrixFixed Rd.f32 3 3) := (Cut.matrixFixed H 3 3 (Cut.f32 H)).mono (Nat.zero_le _)
  unfold Rd.bbox
  repeat cut_step H
theorem Cut.baseAttrs : Cut E E' 0 baseAttrs := by unfold Rd.baseAttrs; repeat cut_step H
theorem Cut.semanticColor : Cut E E' 0 semanticColor := by
  have h1 := Cut.color H
  unfold Rd.semanticColor
  repeat cut_step H
theorem Cut.semanticAttrs : Cut E E' 0 semanticAttrs := by
  have h1 := Cut.semanticColor H
  have h2 := Cut.bbox H
  have h3 : Cut E E' 0 (Rd.matrixDyn Rd.f64) := (Cut.matrixDyn H (Cut.f64 H)).mono (Nat.zero_le _)
  unfold Rd.semanticAttrs
  repeat cut_step H
theorem Cut.objectAttrs : Cut E E' 0 objectAttrs := by unfold Rd.objectAttrs; repeat cut_step H
theorem Cut.placeAttrs : Cut E E' 0 placeAttrs := by
  have h1 := Cut.nvi H
  unfold Rd.placeAttrs
  repeat cut_step H
theorem Cut.place2dAttrs : Cut E E' 0 place2dAttrs := by
  have h1 := Cut.nvi H
  have h2 : Cut E E' 0 (Rd.matrixFixed Rd.f64 2 2) := (Cut.matrixFixed H 2 2 (Cut.f64 H)).mono (Nat.zero_le _)
  unfold Rd.place2dAttrs
  repeat cut_step H
theorem Cut.agentAttrs : Cut E E' 0 agentAttrs := by
  have h1 : Cut E E' 0 (Rd.columnVec Rd.u32) := (Cut.columnVec H (Cut.u32 H)).mono (Nat.zero_le _)
  have h2 : Cut E E' 0 (Rd.columnVec Rd.f32) := (Cut.columnVec H (Cut.f32 H)).mono (Nat.zero_le _)
  unfold Rd.agentAttrs; repeat cut_step H
theorem Cut.khronosAttrs : Cut E E' 0 khronosAttrs := by
  have h1 := Cut.mesh H
  unfold Rd.khronosAttrs
  repeat cut_step H

theorem Cut.fields (c : NodeClass) : Cut E E' 0 (fields c) := by
  have hb := Cut.baseAttrs H
  have hs := Cut.semanticAttrs H
  cases c with
  | base => exact hb.map _
  | semantic => exact hb.bind0 (fun _ => hs.map _)
  | object => exact hb.bind0 (fun _ => hs.bind0 (fun _ => (Cut.objectAttrs H).map _))
  | room => exact hb.bind0 (fun _ => hs.bind0 (fun _ => ((Cut.mapOf H (Cut.str H) (Cut.f64 H)).mono (Nat.zero_le _)).map _))
  | place => exact hb.bind0 (fun _ => hs.bind0 (fun _ => (Cut.placeAttrs H).map _))
  | place2d => exact hb.bind0 (fun _ => hs.bind0 (fun _ => (Cut.place2dAttrs H).map _))
  | agent => exact hb.bind0 (fun _ => (Cut.agentAttrs H).map _)
  | khronos => exact hb.bind0 (fun _ => hs.bind0 (fun _ => (Cut.khronosAttrs H).map _))

theorem Cut.nodeAttrs {fac : OMap UInt8 NodeClass} : Cut E E' 2 (nodeAttrs fac) := by
  unfold Rd.nodeAttrs
  refine (Cut.u8 H).bind0 (d' := 0) (fun t => ?_)
  cases h : fac.find? t with
  | none => exact Cut.pure _
  | some c => exact Cut.map _ (Cut.fields H c)

theorem Cut.edgeAttrs {fac : OMap UInt8 EdgeClass} : Cut E E' 2 (edgeAttrs fac) := by
  unfold Rd.edgeAttrs
  refine (Cut.u8 H).bind0 (d' := 0) (fun t => ?_)
  cases fac.find? t with
  | none => exact Cut.pure _
  | some c => repeat cut_step H

theorem Cut.header : Cut E E' 0 FileHeader.read := by
  unfold FileHeader.read
  refine Cut.currType' H (fun t => ?_)
  repeat cut_step H

theorem Cut.parseNode (fac : OMap UInt8 NodeClass) (s : Graph × OSet NodeId) : Cut E E' 1 (parseNode fac s) := by
  unfold Rd.parseNode
  refine Cut.mono (d := 5) ?_ (by omega)
  refine (Cut.checkArrLen H 4).bind0 (d' := 0) (fun _ => ?_)
  refine ((Cut.u64 H).mono (Nat.zero_le _)).bind0 (d' := 0) (fun l => ?_)
  refine ((Cut.u64 H).mono (Nat.zero_le _)).bind0 (d' := 0) (fun n => ?_)
  refine ((Cut.opt H (Cut.stamp H) (by omega)).mono (Nat.zero_le _)).bind0 (d' := 0) (fun t => ?_)
  refine ((Cut.nodeAttrs H).mono (Nat.zero_le _)).bind0 (d' := 0) (fun a => ?_)
  cases a with
  | none => exact Cut.pure _
  | some a => exact (Cut.lift _).bind0 (d' := 0) (fun r => Cut.pure _)

theorem Cut.parseEdge (fac : OMap UInt8 EdgeClass) (g : Graph) : Cut E E' 1 (parseEdge fac g) := by
  unfold Rd.parseEdge
  refine Cut.mono (d := 5) ?_ (by omega)
  refine (Cut.checkArrLen H 3).bind0 (d' := 0) (fun _ => ?_)
  refine ((Cut.u64 H).mono (Nat.zero_le _)).bind0 (d' := 0) (fun s => ?_)
  refine ((Cut.u64 H).mono (Nat.zero_le _)).bind0 (d' := 0) (fun t => ?_)
  refine ((Cut.edgeAttrs H).mono (Nat.zero_le _)).bind0 (d' := 0) (fun a => ?_)
  exact (Cut.lift _).bind0 (d' := 0) (fun r => Cut.pure _)

theorem Cut.dynEnd : Cut E E' 0 dynEnd := by
  unfold Rd.dynEnd
  refine Cut.currType H (fun t p hp => ?_)
  split
  · exact ⟨rfl, Nat.le_refl _, by omega⟩
  · exact ⟨rfl, by show p + 0 ≤ p + 1; omega, hp⟩

theorem Cut.dynLoop {body : α → Rd α} (hb : ∀ s, Cut E E' 1 (body s)) (n m : Nat) {s : α} {p : Nat} (hp : p ≤ E.buf.length)
    (hn : E.buf.length < p + n) (hm : n ≤ m) : Same E p (dynLoop body n s E p) (dynLoop body m s E' p) := by
  induction n generalizing s p m with
  | zero => omega
  | succ n ih =>
    obtain ⟨m, rfl⟩ : ∃ k, m = k + 1 := ⟨m - 1, by omega⟩
    unfold Rd.dynLoop
    rw [bind_apply, bind_apply]
    have h1 := Cut.dynEnd H p hp
    cases e : Rd.dynEnd E p with
    | throw x => rw [e] at h1; intro he; rw [h1 he]; rfl
    | ub => rw [e] at h1; rw [show Rd.dynEnd E' p = .ub from h1]; rfl
    | ok x =>
      rw [e] at h1
      rw [h1.1]
      show Same E p ((if x.1 = true then _ else _ : Rd α) E x.2) ((if x.1 = true then _ else _ : Rd α) E' x.2)
      have hp2 : x.2 ≤ E.buf.length := h1.2.2
      have hp3 : p ≤ x.2 := h1.2.1
      split
      · exact ⟨rfl, hp3, hp2⟩
      · rw [bind_apply, bind_apply]
        have h2 := hb s x.2 hp2
        cases e2 : body s E x.2 with
        | throw x => rw [e2] at h2; intro he; rw [h2 he]; rfl
        | ub => rw [e2] at h2; rw [show body s E' x.2 = .ub from h2]; rfl
        | ok y =>
          rw [e2] at h2
          rw [h2.1]
          have h4 := h2.2.1
          have h5 : y.2 ≤ E.buf.length := h2.2.2
          exact (ih (s := y.1) (p := y.2) m h5 (by omega) (by omega)).mono (by omega)

theorem Cut.dynArr {body : α → Rd α} (hb : ∀ s, Cut E E' 1 (body s)) (s : α) : Cut E E' 1 (dynArr body s) := by
  unfold Rd.dynArr
  have h1 : Cut E E' 1 dynStart := Cut.checkType H _
  refine h1.bind0 (d' := 0) (fun _ p hp => ?_)
  exact Cut.dynLoop H hb (E.buf.length + 1) (E'.buf.length + 1) hp (by omega) (by have := H.len; omega)

theorem Cut.loadFactory {γ : Type} (R : Registry γ) : Cut E E' 0 (loadFactory R) := by
  unfold Rd.loadFactory
  refine Cut.env (by simp only [H.version]) (Cut.ite (fun _ => Cut.pure _) (fun _ => ?_))
  exact ((Cut.vec H (Cut.str H)).mono (Nat.zero_le _)).map _

theorem Cut.meshLayer : Cut E E' 0 meshLayer := by
  unfold Rd.meshLayer
  exact Cut.env (by simp only [H.version]) (Cut.ite (fun _ => ((Cut.u64 H).mono (Nat.zero_le _)).map _) (fun _ => Cut.pure _))

theorem Cut.updateCore (R : Registry NodeClass) (Q : Registry EdgeClass) (order : List NodeId → List NodeId) (g : Graph) :
    Cut E E' 0 (updateCore R Q order g) := by
  unfold Rd.updateCore
  refine (Cut.meshLayer H).bind0 (d' := 0) (fun _ => ?_)
  refine (Cut.loadFactory H R).bind0 (d' := 0) (fun nf => ?_)
  refine (Cut.loadFactory H Q).bind0 (d' := 0) (fun ef => ?_)
  refine ((Cut.dynArr H (fun s => Cut.parseNode H nf s) _).mono (Nat.zero_le 1)).bind0 (d' := 0) (fun s => ?_)
  refine ((Cut.dynArr H (fun s => Cut.parseNode H nf s) _).mono (Nat.zero_le 1)).bind0 (d' := 0) (fun s => ?_)
  refine (Cut.lift _).bind0 (d' := 0) (fun g => ?_)
  refine ((Cut.dynArr H (fun s => Cut.parseEdge H ef s) _).mono (Nat.zero_le 1)).bind0 (d' := 0) (fun s => ?_)
  exact Cut.lift _
end

end Rd
end Verif
