import Verif.Lemmas.Binary
import Verif.Model.Codec
/-! # Memory safety of the binary readers -/

namespace Verif
namespace Rd
variable {α β : Type} {E : Env}

/-- The outcome is an exception, or a position between `q` and the end of the buffer; not undefined behaviour. -/
def Inside (E : Env) (q : Nat) : Res (α × Nat) → Prop
  | .ok (_, p') => q ≤ p' ∧ p' ≤ E.buf.length
  | .throw _ => True
  | .ub => False

/-- From every position inside the buffer, the reader throws or returns a position inside the buffer, at least `d` further on: it never
touches anything outside the buffer. -/
def Safe (E : Env) (d : Nat) (r : Rd α) : Prop :=
  ∀ p, p ≤ E.buf.length → Inside E (p + d) (r E p)

theorem Safe.mono {d d' : Nat} {r : Rd α} (h : Safe E d r) (hd : d' ≤ d) : Safe E d' r := by
  intro p hp
  have := h p hp
  revert this
  cases r E p with
  | ok x => simp only [Inside]; omega
  | throw e => simp [Inside]
  | ub => simp [Inside]

theorem Safe.pure (a : α) : Safe E 0 (Pure.pure a : Rd α) := by
  intro p hp
  rw [pure_apply]
  exact ⟨Nat.le_refl _, hp⟩

theorem Safe.fail (e : Exc) (d : Nat) : Safe E d (Rd.fail e : Rd α) := fun _ _ => trivial

theorem Safe.bind {d d' : Nat} {r : Rd α} {k : α → Rd β} (h : Safe E d r) (h' : ∀ a, Safe E d' (k a)) : Safe E (d + d') (r >>= k) := by
  intro p hp
  rw [bind_apply]
  have h1 := h p hp
  revert h1
  cases r E p with
  | ok x =>
    simp only [Res.bind_ok]
    intro h1
    have h1 : p + d ≤ x.2 ∧ x.2 ≤ E.buf.length := h1
    have h2 := h' x.1 x.2 h1.2
    revert h2
    cases k x.1 E x.2 with
    | ok y => simp only [Inside]; omega
    | throw e => simp [Inside]
    | ub => simp [Inside]
  | throw e => simp [Inside]
  | ub => simp [Inside]

/-- Progress does not matter after the first read. -/
theorem Safe.bind0 {d d' : Nat} {r : Rd α} {k : α → Rd β} (h : Safe E d r) (h' : ∀ a, Safe E d' (k a)) : Safe E d (r >>= k) :=
  (h.bind h').mono (by omega)

theorem Safe.env {d : Nat} {k : Env → Rd β} (h : Safe E d (k E)) : Safe E d (Rd.env >>= k) := h

theorem Safe.ite {c : Prop} [Decidable c] {d : Nat} {a b : Rd α} (h : c → Safe E d a) (h' : ¬ c → Safe E d b) :
    Safe E d (if c then a else b) := by
  by_cases hc : c
  · simpa [hc] using h hc
  · simpa [hc] using h' hc

theorem Safe.map {d : Nat} {r : Rd α} (f : α → β) (h : Safe E d r) : Safe E d (r >>= fun x => Pure.pure (f x)) :=
  h.bind0 (fun a => Safe.pure (f a))

/-- The pattern "check that there is room, then access memory". -/
theorem Safe.checked (k n : Nat) (hk : n * k < 2 ^ 63) (f : List UInt8 → α) :
    Safe E (n * k) (do checkValid k n; let bs ← raw (n * k); Pure.pure (f bs)) := by
  intro p hp
  rw [bind_apply]
  unfold checkValid
  have := E.small
  rw [Nat.mod_eq_of_lt (by omega)]
  split
  · simp [Inside]
  · rename_i h
    simp only [Res.bind_ok]
    rw [bind_apply]
    unfold raw
    rw [if_pos (by omega)]
    simp only [Res.bind_ok, pure_apply, Inside]
    omega

theorem currType_cases (p : Nat) (hp : p ≤ E.buf.length) :
    (∃ t, currType E p = .ok (t, p) ∧ p + 1 ≤ E.buf.length) ∨ currType E p = .throw .domainError := by
  unfold currType
  rw [bind_apply]
  unfold checkValid
  have := E.small
  rw [Nat.mod_eq_of_lt (by omega)]
  split
  · right; rfl
  · left
    rename_i h
    simp only [Res.bind_ok]
    unfold peek raw
    rw [if_pos (by omega)]
    exact ⟨_, rfl, by omega⟩

/-- A reader that looks at the next byte and then goes on from it. -/
theorem Safe.currType {d : Nat} {k : UInt8 → Rd β} (h : ∀ t p, p + 1 ≤ E.buf.length → Inside E (p + d) (k t E p)) : Safe E d (Rd.currType >>= k) := by
  intro p hp
  rw [bind_apply]
  rcases currType_cases p hp with ⟨t, ht, hl⟩ | ht
  · rw [ht]; exact h t p hl
  · rw [ht]; simp [Inside]

theorem Safe.currType' {d : Nat} {k : UInt8 → Rd β} (h : ∀ t, Safe E d (k t)) : Safe E d (Rd.currType >>= k) :=
  Safe.currType (fun t p hp => h t p (by omega))

theorem Safe.checkType (t : UInt8) : Safe E 1 (checkType t) := by
  unfold Rd.checkType
  refine Safe.currType (fun r p hp => ?_)
  split
  · simp [Rd.fail, Inside]
  · simp only [advance, Inside]; omega

theorem Safe.word (t : UInt8) (k : Nat) (hk : k < 2 ^ 63) : Safe E (1 + k) (word t k) := by
  unfold Rd.word
  refine (Safe.checkType t).bind (fun _ => ?_)
  have := Safe.checked (E := E) k 1 (by omega) leNat
  simpa using this

theorem Safe.u8 : Safe E 2 u8 := (Safe.word _ 1 (by omega)).map _
theorem Safe.u16 : Safe E 3 u16 := (Safe.word _ 2 (by omega)).map _
theorem Safe.u32 : Safe E 5 u32 := (Safe.word _ 4 (by omega)).map _
theorem Safe.u64 : Safe E 9 u64 := (Safe.word _ 8 (by omega)).map _
theorem Safe.i8 : Safe E 2 i8 := (Safe.word _ 1 (by omega)).map _
theorem Safe.i16 : Safe E 3 i16 := (Safe.word _ 2 (by omega)).map _
theorem Safe.i32 : Safe E 5 i32 := (Safe.word _ 4 (by omega)).map _
theorem Safe.i64 : Safe E 9 i64 := (Safe.word _ 8 (by omega)).map _
theorem Safe.f32 : Safe E 5 f32 := (Safe.word _ 4 (by omega)).map _
theorem Safe.f64 : Safe E 9 f64 := (Safe.word _ 8 (by omega)).map _
theorem Safe.stamp : Safe E 9 stamp := Safe.i64
theorem Safe.index : Safe E 9 index := Safe.i64.map _

theorem Safe.bool : Safe E 1 bool := by
  unfold Rd.bool
  refine Safe.currType' (fun t => ?_)
  refine (Safe.checkType t).bind0 (d' := 0) (fun _ => ?_)
  refine Safe.ite (fun _ => Safe.pure _) (fun _ => Safe.ite (fun _ => Safe.pure _) (fun _ => Safe.fail _ _))

theorem arrLen_lt {p : Nat} {x : Nat × Nat} (h : arrLen E p = .ok x) : x.1 < 2 ^ 32 := by
  unfold arrLen at h
  rw [bind_apply] at h
  cases h1 : currType E p with
  | ok y =>
    rw [h1] at h
    simp only [Res.bind_ok] at h
    split at h
    · cases h
    · rw [bind_apply] at h
      simp only [advance, Res.bind_ok] at h
      rw [bind_apply] at h
      cases h2 : checkValid 4 1 E (y.2 + 1) with
      | ok z =>
        rw [h2] at h
        simp only [Res.bind_ok] at h
        rw [bind_apply] at h
        unfold raw at h
        split at h
        · rename_i hl
          simp only [Res.bind_ok, pure_apply, Res.ok.injEq] at h
          subst h
          have := leNat_lt ((E.buf.drop z.2).take 4)
          have hlen : ((E.buf.drop z.2).take 4).length ≤ 4 := by simp; omega
          have : 256 ^ ((E.buf.drop z.2).take 4).length ≤ 256 ^ 4 := Nat.pow_le_pow_right (by omega) hlen
          simp only at *
          omega
        · cases h
      | throw e => rw [h2] at h; cases h
      | ub => rw [h2] at h; cases h
  | throw e => rw [h1] at h; cases h
  | ub => rw [h1] at h; cases h

theorem Safe.arrLen : Safe E 5 arrLen := by
  unfold Rd.arrLen
  refine Safe.currType (fun t p hp => ?_)
  split
  · simp [Rd.fail, Inside]
  · rw [bind_apply]
    simp only [advance, Res.bind_ok]
    have := Safe.checked (E := E) 4 1 (by omega) leNat (p + 1) hp
    revert this
    simp only [Nat.one_mul]
    cases (do checkValid 4 1; let bs ← raw 4; Pure.pure (leNat bs) : Rd Nat) E (p + 1) with
    | ok x => simp only [Inside]; omega
    | throw e => simp [Inside]
    | ub => simp [Inside]

theorem Safe.checkArrLen (n : Nat) : Safe E 5 (checkArrLen n) := Safe.arrLen.map _

theorem Safe.str : Safe E 5 str := by
  intro p hp
  unfold Rd.str
  rw [bind_apply]
  have h1 := Safe.arrLen (E := E) p hp
  cases h : Rd.arrLen E p with
  | ok x =>
    rw [h] at h1
    have h1 : p + 5 ≤ x.2 ∧ x.2 ≤ E.buf.length := h1
    have hx := arrLen_lt h
    simp only [Res.bind_ok] at *
    have := Safe.checked (E := E) 1 x.1 (by omega) id x.2 h1.2
    have e : (do checkValid 1 x.1; let bs ← raw (x.1 * 1); Pure.pure (id bs) : Rd (List UInt8)) E x.2 = (do checkValid 1 x.1; raw x.1 : Rd (List UInt8)) E x.2 := by
      rw [Nat.mul_one, bind_apply, bind_apply]
      cases checkValid 1 x.1 E x.2 with
      | ok y =>
        simp only [Res.bind_ok]
        rw [bind_apply]
        cases raw x.1 E y.2 <;> rfl
      | throw e => rfl
      | ub => rfl
    rw [e] at this
    revert this
    cases (do checkValid 1 x.1; raw x.1 : Rd (List UInt8)) E x.2 with
    | ok y => simp only [Inside]; omega
    | throw e => simp [Inside]
    | ub => simp [Inside]
  | throw e => simp [Inside]
  | ub => rw [h] at h1; exact h1.elim

theorem Safe.opt {d : Nat} {r : Rd α} (h : Safe E d r) (hd : 1 ≤ d) : Safe E 1 (opt r) := by
  unfold Rd.opt
  refine Safe.currType' (fun t => ?_)
  exact Safe.ite (fun _ => (Safe.checkType _).bind0 (fun _ => Safe.pure _)) (fun _ => (h.mono hd).bind0 (fun _ => Safe.pure _))

theorem Safe.times {r : Rd α} (h : Safe E 0 r) (n : Nat) : Safe E 0 (times r n) := by
  induction n with
  | zero => exact Safe.pure []
  | succ n ih =>
    exact h.bind0 (fun a => ih.bind0 (fun l => Safe.pure _))

theorem Safe.vec {d : Nat} {r : Rd α} (h : Safe E d r) : Safe E 5 (vec r) :=
  Safe.arrLen.bind0 (fun n => Safe.times (h.mono (Nat.zero_le _)) n)
theorem Safe.array {d : Nat} {r : Rd α} (n : Nat) (h : Safe E d r) : Safe E 5 (array r n) :=
  (Safe.checkArrLen n).bind0 (fun _ => Safe.times (h.mono (Nat.zero_le _)) n)
theorem Safe.set {K : Type} [DecidableEq K] [OKey K] {d : Nat} {r : Rd K} (h : Safe E d r) : Safe E 5 (set r) := h.vec.map _
theorem Safe.mapOf {K V : Type} [DecidableEq K] [OKey K] {d d' : Nat} {r : Rd K} {q : Rd V} (h : Safe E d r) (h' : Safe E d' q) :
    Safe E 5 (Rd.map r q) :=
  (Safe.vec (h.bind0 (d' := d') (fun _ => h'.bind0 (fun _ => Safe.pure _)))).map _

theorem Safe.v3d : Safe E 27 v3d := Safe.f64.bind (fun _ => Safe.f64.bind (fun _ => Safe.f64.map _))
theorem Safe.v3f : Safe E 15 v3f := Safe.f32.bind (fun _ => Safe.f32.bind (fun _ => Safe.f32.map _))
theorem Safe.quat : Safe E 5 quat :=
  (Safe.checkArrLen 4).bind0 (fun _ => Safe.f64.bind0 (fun _ => Safe.f64.bind0 (fun _ => Safe.f64.bind0 (fun _ => Safe.f64.map _))))

/-- The conditions on the machine under which matrices are read safely. -/
theorem Safe.dims (ho : E.isoOverflow = false) : Safe E 5 dims := by
  unfold Rd.dims
  refine Safe.arrLen.bind0 (d' := 0) (fun n => ?_)
  refine Safe.ite (fun _ => Safe.fail _ _) (fun _ => ?_)
  refine (Safe.index.bind0 (d' := 9) (fun r => Safe.index.bind0 (d' := 0) (fun c => ?_))).mono (by omega)
  refine Safe.bind0 (d := 0) (d' := 0) ?_ (fun m => Safe.ite (fun _ => Safe.fail _ _) (fun _ => Safe.pure _))
  intro p hp
  unfold mulAdd
  simp [ho, hp, Inside]

theorem Safe.resizeCheck (r c : Int) : Safe E 0 (resizeCheck r c) := by
  unfold Rd.resizeCheck
  exact Safe.ite (fun _ => Safe.fail _ _) (fun _ => Safe.pure _)

theorem Safe.matrixDyn {d : Nat} {q : Rd α} (ho : E.isoOverflow = false) (h : Safe E d q) : Safe E 5 (matrixDyn q) := by
  unfold Rd.matrixDyn
  refine (Safe.dims ho).bind0 (d' := 0) (fun x => ?_)
  refine Safe.env (Safe.ite (fun _ => Safe.fail _ _) (fun _ => ?_))
  exact (Safe.resizeCheck _ _).bind0 (fun _ => (Safe.times (h.mono (Nat.zero_le _)) _).map _)

theorem Safe.matrixFixed {d : Nat} {q : Rd α} (R C : Nat) (ho : E.isoOverflow = false) (h : Safe E d q) : Safe E 5 (matrixFixed q R C) := by
  unfold Rd.matrixFixed
  refine (Safe.dims ho).bind0 (d' := 0) (fun x => ?_)
  refine Safe.env (Safe.ite (fun _ => Safe.fail _ _) (fun _ => ?_))
  exact (Safe.times (h.mono (Nat.zero_le _)) _).map _

theorem Safe.columnVec {d : Nat} {q : Rd α} (ho : E.isoOverflow = false) (he : E.eigenChecks = true) (h : Safe E d q) :
    Safe E 5 (columnVec q) := by
  unfold Rd.columnVec
  refine (Safe.dims ho).bind0 (d' := 0) (fun x => ?_)
  refine Safe.env (Safe.ite (fun _ => Safe.fail _ _) (fun hc => ?_))
  refine (Safe.resizeCheck _ _).bind0 (d' := 0) (fun _ => Safe.ite (fun h2 => ?_) (fun _ => ?_))
  · exfalso
    apply hc
    exact ⟨he, Or.inr (by omega)⟩
  · exact (Safe.times (h.mono (Nat.zero_le _)) _).map _

end Rd
end Verif
