import Verif.Model.PyMesh
import Verif.Lemmas.Mesh
import Verif.Lemmas.Ieee
import Verif.Lemmas.SearchSim
/-! # Meshes as arrays -/

namespace Verif

theorem foldRes_collect {α β : Type} (f : α → Res β) (h : α → β) (l : List α) (hf : ∀ a ∈ l, f a = .ok (h a)) (acc : List β) :
    foldRes (fun cs a => do let c ← f a; return cs ++ [c]) acc l = .ok (acc ++ l.map h) := by
  induction l generalizing acc with
  | nil => simp
  | cons a l ih =>
    rw [foldRes_cons, hf a List.mem_cons_self, Res.bind_ok]
    show (Res.ok (acc ++ [h a]) >>= _) = _
    rw [Res.bind_ok, ih (fun b hb => hf b (List.mem_cons_of_mem _ hb))]
    simp

/-- Replacing the entry behind a new prefix. -/
theorem set_prefix {α : Type} (P : Nat → α) (l : List α) {k : Nat} (hk : k < l.length) :
    ((List.range k).map P ++ l.drop k).set k (P k) = (List.range (k + 1)).map P ++ l.drop (k + 1) := by
  have h1 : ((List.range k).map P).length = k := by simp
  rw [List.set_append, if_neg (by rw [h1]; exact Nat.lt_irrefl _), h1, Nat.sub_self, List.range_succ, List.map_append, List.append_assoc,
    List.drop_eq_getElem_cons hk]
  rfl

theorem putAt_ok {α : Type} {l : List α} {i : Nat} (h : i < l.length) (hi : i < 2 ^ 64) (x : α) :
    Mesh.putAt l (UInt64.ofNat i) x = .ok (l.set i x) := by
  unfold Mesh.putAt
  rw [idx_toNat hi, if_pos h]

namespace PyMesh

/-- The loop of `setEigenVertices`, for columns that convert. -/
theorem putVertices {A : PyArray F64} {P : Nat → V3f} {C : Nat → Color} {n : Nat} (hn : n < 2 ^ 64) (m : Mesh)
    (hput : ∀ (m' : Mesh) i, i < n → m'.hasColors = m.hasColors → putVertex A m' i = (do
      let m' ← m'.setPos (UInt64.ofNat i) (P i)
      if m'.hasColors then m'.setColor (UInt64.ofNat i) (C i) else return m'))
    (hp : n = m.points.length) (hc : m.hasColors = true → n = m.colors.length) :
    foldRes (putVertex A) m (List.range n) = .ok
      { m with points := (List.range n).map P, colors := if m.hasColors then (List.range n).map C else m.colors } := by
  have key : ∀ k, k ≤ n → foldRes (putVertex A) m (List.range k) = .ok
      { m with points := (List.range k).map P ++ m.points.drop k
               colors := if m.hasColors then (List.range k).map C ++ m.colors.drop k else m.colors } := by
    intro k
    induction k with
    | zero =>
      intro _
      simp
    | succ k ih =>
      intro hk
      rw [List.range_succ, foldRes_append, ih (by omega), Res.bind_ok, foldRes_cons]
      rw [hput _ k (by omega) (by rfl)]
      simp only [Mesh.setPos]
      rw [putAt_ok (by simp; omega) (by omega), Res.bind_ok, Res.bind_ok]
      rw [set_prefix P m.points (by omega)]
      cases hcol : m.hasColors with
      | false => simp [List.range_succ]
      | true =>
        have hcl := hc hcol
        simp only [if_true, Mesh.setColor]
        rw [putAt_ok (by simp; omega) (by omega), Res.bind_ok, set_prefix C m.colors (by omega)]
        simp [List.range_succ]
  rw [key n (Nat.le_refl _)]
  have h1 : m.points.drop n = [] := List.drop_eq_nil_of_le (by omega)
  rw [h1]
  cases hcol : m.hasColors with
  | false => simp
  | true =>
    have h2 : m.colors.drop n = [] := List.drop_eq_nil_of_le (by rw [hc hcol]; exact Nat.le_refl _)
    simp [h2]

/-- The loop of `setEigenFaces`. -/
theorem putFaces {A : PyArray UInt32} {F : Nat → Face} {n : Nat} (hn : n < 2 ^ 64) (m : Mesh)
    (hput : ∀ (m' : Mesh) i, i < n → putFace A m' i = m'.setFace (UInt64.ofNat i) (F i)) (hp : n = m.faces.length) :
    foldRes (putFace A) m (List.range n) = .ok { m with faces := (List.range n).map F } := by
  have key : ∀ k, k ≤ n → foldRes (putFace A) m (List.range k) = .ok { m with faces := (List.range k).map F ++ m.faces.drop k } := by
    intro k
    induction k with
    | zero => intro _; simp
    | succ k ih =>
      intro hk
      rw [List.range_succ, foldRes_append, ih (by omega), Res.bind_ok, foldRes_cons, hput _ k (by omega)]
      simp only [Mesh.setFace]
      rw [putAt_ok (by simp; omega) (by omega), Res.bind_ok, Res.bind_ok, set_prefix F m.faces (by omega)]
      simp [List.range_succ]
  rw [key n (Nat.le_refl _), List.drop_eq_nil_of_le (by omega)]
  simp

theorem resizeList_length {α : Type} (l : List α) (n : Nat) (v : α) : (resizeList l n v).length = n := by
  unfold resizeList
  simp only [List.length_append, List.length_take, List.length_replicate]
  omega

theorem resizeList_self {α : Type} (l : List α) (v : α) : resizeList l l.length v = l := by
  unfold resizeList
  simp

/-- Widening and narrowing a float that is not NaN. -/
theorem narrow_widen (x : F32) (h : x.isNan = false) : x.toDouble.toFloat = x := by
  cases hf : F32.finite x with
  | true => exact (ieee_exact x hf).2
  | false =>
    have hm : x.toNat % 2 ^ 23 = 0 := by
      unfold F32.isNan at h
      unfold F32.finite at hf
      have e1 : ((x >>> 23) &&& 0xFF == 0xFF) = true := by simpa using hf
      rw [e1, Bool.true_and] at h
      have e2 : x &&& 0x7FFFFF = 0 := by simpa using h
      have e3 := congrArg UInt32.toNat e2
      rw [UInt32.toNat_and, show (0x7FFFFF : UInt32).toNat = 2 ^ 23 - 1 from rfl, Nat.and_two_pow_sub_one_eq_mod] at e3
      exact e3
    have he : x.toNat / 2 ^ 23 % 2 ^ 8 = 255 := by
      have := mt (F32.finite_iff x).2 (by rw [hf]; decide)
      omega
    have hx : x.toNat < 2 ^ 32 := x.toNat_lt
    have : x = 0x7F800000 ∨ x = 0xFF800000 := by
      rw [← UInt32.toNat_inj, ← UInt32.toNat_inj]
      show x.toNat = 2139095040 ∨ x.toNat = 4286578688
      omega
    rcases this with rfl | rfl <;> decide +kernel

end PyMesh
end Verif
