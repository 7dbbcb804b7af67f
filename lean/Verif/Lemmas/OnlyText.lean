import Verif.Spec.OnlyText
import Verif.Lemmas.Json6
/-! # Printing throws exactly for strings that are not text -/

namespace Verif
namespace Json

mutual
/-- all strings and names of fields are UTF-8 -/
def clean : Json → Bool
  | .str s => utf8 s
  | .arr l => cleanAll l
  | .obj fs => cleanFields fs
  | .null => true
  | .bool _ => true
  | .uint _ => true
  | .int _ => true
  | .num _ => true
def cleanAll : List Json → Bool
  | [] => true
  | j :: l => clean j && cleanAll l
def cleanFields : List (Str × Json) → Bool
  | [] => true
  | (k, j) :: fs => utf8 k && clean j && cleanFields fs
end

/-- What printing and parsing gives: a value if everything is text, otherwise an exception. -/
def Prints {α : Type} (b : Bool) (r : Res α) : Prop := (b = true → ∃ a, r = .ok a) ∧ (b = false → r = .throw .json)

mutual
theorem prints (j : Json) : Prints j.clean j.text := by
  match j with
  | .null => exact ⟨fun _ => ⟨_, rfl⟩, fun h => by cases h⟩
  | .bool _ => exact ⟨fun _ => ⟨_, rfl⟩, fun h => by cases h⟩
  | .uint _ => exact ⟨fun _ => ⟨_, rfl⟩, fun h => by cases h⟩
  | .int _ => exact ⟨fun _ => ⟨_, rfl⟩, fun h => by cases h⟩
  | .num _ => exact ⟨fun _ => ⟨_, rfl⟩, fun h => by cases h⟩
  | .str s =>
    refine ⟨fun h => ?_, fun h => ?_⟩ <;> simp only [clean] at h <;> simp [text, h]
  | .arr l =>
    have := printsAll l
    refine ⟨fun h => ?_, fun h => ?_⟩
    · simp only [clean] at h
      obtain ⟨l', hl⟩ := this.1 h
      exact ⟨.arr l', by simp only [text, hl, bind, Res.bind, pure]⟩
    · simp only [clean] at h
      simp only [text, this.2 h, bind, Res.bind]
  | .obj fs =>
    have := printsFields fs
    refine ⟨fun h => ?_, fun h => ?_⟩
    · simp only [clean] at h
      obtain ⟨l', hl⟩ := this.1 h
      exact ⟨.obj l', by simp only [text, hl, bind, Res.bind, pure]⟩
    · simp only [clean] at h
      simp only [text, this.2 h, bind, Res.bind]
theorem printsAll (l : List Json) : Prints (cleanAll l) (textAll l) := by
  match l with
  | [] => exact ⟨fun _ => ⟨_, rfl⟩, fun h => by cases h⟩
  | j :: l =>
    have h1 := prints j
    have h2 := printsAll l
    refine ⟨fun h => ?_, fun h => ?_⟩
    · simp only [cleanAll, Bool.and_eq_true] at h
      obtain ⟨j', hj⟩ := h1.1 h.1
      obtain ⟨l', hl⟩ := h2.1 h.2
      exact ⟨j' :: l', by simp only [textAll, hj, hl, bind, Res.bind, pure]⟩
    · simp only [cleanAll] at h
      cases hc : j.clean with
      | false => simp only [textAll, h1.2 hc, bind, Res.bind]
      | true =>
        obtain ⟨j', hj⟩ := h1.1 hc
        rw [hc, Bool.true_and] at h
        simp only [textAll, hj, h2.2 h, bind, Res.bind]
theorem printsFields (fs : List (Str × Json)) : Prints (cleanFields fs) (textFields fs) := by
  match fs with
  | [] => exact ⟨fun _ => ⟨_, rfl⟩, fun h => by cases h⟩
  | (k, j) :: fs =>
    have h1 := prints j
    have h2 := printsFields fs
    refine ⟨fun h => ?_, fun h => ?_⟩
    · simp only [cleanFields, Bool.and_eq_true] at h
      obtain ⟨j', hj⟩ := h1.1 h.1.2
      obtain ⟨l', hl⟩ := h2.1 h.2
      exact ⟨(k, j') :: l', by simp only [textFields, h.1.1, if_true, hj, hl, bind, Res.bind, pure]⟩
    · simp only [cleanFields] at h
      cases hk : utf8 k with
      | false => simp [textFields, hk]
      | true =>
        rw [hk, Bool.true_and] at h
        cases hc : j.clean with
        | false => simp only [textFields, hk, if_true, h1.2 hc, bind, Res.bind]
        | true =>
          obtain ⟨j', hj⟩ := h1.1 hc
          rw [hc, Bool.true_and] at h
          simp only [textFields, hk, if_true, hj, h2.2 h, bind, Res.bind]
end

mutual
theorem clean_text (j j' : Json) (h : j.text = .ok j') : j'.clean = true := by
  match j with
  | .null => cases h; rfl
  | .bool _ => cases h; rfl
  | .uint _ => cases h; rfl
  | .int n =>
    simp only [text, Res.ok.injEq] at h
    subst h
    split <;> rfl
  | .num d =>
    simp only [text, Res.ok.injEq] at h
    subst h
    split <;> rfl
  | .str s =>
    simp only [text] at h
    split at h
    · rename_i hs; cases h; exact hs
    · cases h
  | .arr l =>
    simp only [text] at h
    obtain ⟨l', h1, h2⟩ := bind_eq_ok h
    cases h2
    exact clean_textAll l l' h1
  | .obj fs =>
    simp only [text] at h
    obtain ⟨l', h1, h2⟩ := bind_eq_ok h
    cases h2
    exact clean_textFields fs l' h1
theorem clean_textAll (l l' : List Json) (h : textAll l = .ok l') : cleanAll l' = true := by
  match l with
  | [] => cases h; rfl
  | j :: l =>
    simp only [textAll] at h
    obtain ⟨j', h1, h⟩ := bind_eq_ok h
    obtain ⟨k', h2, h⟩ := bind_eq_ok h
    cases h
    simp only [cleanAll, clean_text j j' h1, clean_textAll l k' h2, Bool.and_true]
theorem clean_textFields (fs fs' : List (Str × Json)) (h : textFields fs = .ok fs') : cleanFields fs' = true := by
  match fs with
  | [] => cases h; rfl
  | (k, j) :: fs =>
    simp only [textFields] at h
    split at h
    · rename_i hk
      obtain ⟨j', h1, h⟩ := bind_eq_ok h
      obtain ⟨k', h2, h⟩ := bind_eq_ok h
      cases h
      simp only [cleanFields, hk, clean_text j j' h1, clean_textFields fs k' h2, Bool.and_true]
    · cases h
end

theorem cleanAll_eq (l : List Json) : cleanAll l = l.all clean := by
  induction l with
  | nil => rfl
  | cons j l ih => simp [cleanAll, ih]
theorem cleanFields_eq (fs : List (Str × Json)) : cleanFields fs = fs.all (fun e => utf8 e.1 && e.2.clean) := by
  induction fs with
  | nil => rfl
  | cons e fs ih => simp [cleanFields, ih]

theorem clean_arr {l : List Json} (h : ∀ j ∈ l, j.clean = true) : (Json.arr l).clean = true := by
  rw [clean, cleanAll_eq, List.all_eq_true]; exact h
theorem cleanFields_append (a b : List (Str × Json)) : cleanFields (a ++ b) = (cleanFields a && cleanFields b) := by
  simp only [cleanFields_eq, List.all_append]
end Json

open Json
namespace JArith
variable (F : JArith)
theorem clean_vec {α : Type} {w : α → Json} (hw : ∀ a, (w a).clean = true) (l : List α) : (vec w l).clean = true := by
  refine clean_arr fun j hj => ?_
  obtain ⟨a, _, rfl⟩ := List.mem_map.1 hj
  exact hw a
theorem clean_coeffs {α : Type} {w : α → Json} (hw : ∀ a, (w a).clean = true) (m : Matrix α) : (coeffs w m).clean = true := by
  unfold coeffs
  cases m.data with
  | nil => rfl
  | cons a l => exact clean_vec hw (a :: l)
theorem clean_matrixDyn {α : Type} {w : α → Json} (hw : ∀ a, (w a).clean = true) (m : Matrix α) : (matrixDyn w m).clean = true := by
  simp only [matrixDyn, clean, cleanFields, clean_coeffs hw]
  decide +kernel
theorem clean_bbox (b : BBox) : (F.bbox b).clean = true := by
  have h : ∀ t, (bboxType t).clean = true := by
    intro t
    unfold bboxType
    repeat' split
    all_goals (simp only [clean]; decide +kernel)
  simp only [bbox, clean, cleanFields, h, v3f, quatf, float, cleanAll]
  decide +kernel
theorem clean_nvi (x : NearestVertexInfo) : (nvi x).clean = true := by
  have h : (label x.label).clean = true := by cases x.label <;> simp [label, uint32, clean]
  simp only [nvi, clean, cleanFields, h, cleanAll, int32]
  decide +kernel
theorem clean_nonempty {α : Type} {k : Str} {w : α → Json} (hk : utf8 k = true) (hw : ∀ a, (w a).clean = true) (l : List α) :
    cleanFields (nonempty k w l) = true := by
  cases l with
  | nil => rfl
  | cons a l => simp only [nonempty, cleanFields, hk, clean_vec hw, Bool.true_and]
theorem clean_v3f (v : V3f) : (F.v3f v).clean = true := by simp [v3f, float, clean, cleanAll]
theorem clean_v3d (v : V3d) : (v3d v).clean = true := by simp [v3d, clean, cleanAll]
theorem clean_face (f : UInt64 × UInt64 × UInt64) : (face f).clean = true := by simp [face, clean, cleanAll]
theorem clean_quat (q : Quat) : (quat q).clean = true := by
  simp only [quat, clean, cleanFields]; decide +kernel
theorem clean_color (c : Color) : (color c).clean = true := by
  simp only [color, uint8, clean, cleanFields]; decide +kernel
theorem clean_uint (n : UInt64) : (Json.uint n).clean = true := by simp [clean]
theorem clean_num (n : F64) : (Json.num n).clean = true := by simp [clean]
theorem clean_uint32 (n : UInt32) : (uint32 n).clean = true := by simp [uint32, clean]
theorem clean_uint8 (n : UInt8) : (uint8 n).clean = true := by simp [uint8, clean]
theorem clean_float (x : F32) : (F.float x).clean = true := by simp [float, clean]
theorem clean_header : (header FileHeader.current).clean = true := by
  simp only [header, uint8, clean, cleanFields]; decide +kernel

theorem clean_mesh (m : Mesh) : (F.mesh m).clean = true := by
  simp only [mesh, clean, cleanFields_append, Bool.and_eq_true]
  refine ⟨⟨⟨⟨⟨⟨?_, ?_⟩, ?_⟩, ?_⟩, ?_⟩, ?_⟩, ?_⟩
  · simp only [cleanFields, clean_header, clean]; decide +kernel
  · exact clean_nonempty (by decide +kernel) (clean_v3f F) _
  · exact clean_nonempty (by decide +kernel) clean_color _
  · exact clean_nonempty (by decide +kernel) clean_uint _
  · exact clean_nonempty (by decide +kernel) clean_uint _
  · exact clean_nonempty (by decide +kernel) clean_uint32 _
  · exact clean_nonempty (by decide +kernel) clean_face _

theorem clean_map {α : Type} {w : α → Json} (hw : ∀ a, (w a).clean = true) (m : OMap Str α) : (map w m).clean = m.keys.all utf8 := by
  simp only [map, clean, cleanFields_eq, List.all_map, OMap.keys]
  refine List.all_congr rfl (fun e => ?_)
  simp only [Function.comp, hw, Bool.and_true]

theorem clean_base (b : BaseAttrs) : cleanFields (baseAttrs b) = true := by
  simp only [baseAttrs, cleanFields, clean_v3d, clean]; decide +kernel
theorem clean_semantic (s : SemanticAttrs) : cleanFields (F.semanticAttrs s) = utf8 s.name := by
  simp only [semanticAttrs, cleanFields, clean_color, clean_bbox, clean_uint32, clean_matrixDyn clean_num, clean]
  cases utf8 s.name <;> decide +kernel
theorem clean_object (o : ObjectAttrs) : cleanFields (objectAttrs o) = true := by
  simp only [objectAttrs, cleanFields, clean_vec clean_uint, clean_quat, clean]; decide +kernel
theorem clean_place (p : PlaceAttrs) : cleanFields (placeAttrs p) = true := by
  simp only [placeAttrs, cleanFields, clean_vec clean_uint, clean_vec clean_uint8, clean_vec clean_nvi, clean_v3d, clean_uint32, clean_quat, clean]; decide +kernel
theorem clean_place2d (p : Place2dAttrs) : cleanFields (place2dAttrs p) = true := by
  simp only [place2dAttrs, cleanFields, clean_vec clean_uint, clean_vec clean_uint8, clean_vec clean_nvi, clean_vec clean_v3d, clean_v3d, clean_coeffs clean_num, clean]
  decide +kernel
theorem clean_agent (a : AgentAttrs) : cleanFields (F.agentAttrs a) = true := by
  simp only [agentAttrs, cleanFields, clean_coeffs clean_uint32, clean_coeffs (clean_float F), clean_quat, clean]; decide +kernel
theorem clean_khronos (k : KhronosAttrs) : cleanFields (F.khronosAttrs k) = k.details.keys.all utf8 := by
  simp only [khronosAttrs, cleanFields, clean_vec clean_uint, clean_mesh, clean_vec (clean_v3f F), clean_vec (clean_vec (clean_v3f F)),
    clean_map (clean_vec clean_uint), clean]
  cases k.details.keys.all utf8 <;> decide +kernel

theorem clean_nodeAttrs (W : Registry NodeClass) (a : NodeAttrs) :
    (F.nodeAttrs W a).clean = (utf8 (W.nameOf a.cls) && a.strings.all utf8) := by
  have ht : utf8 (Str.lit "type") = true := by decide +kernel
  simp only [nodeAttrs, clean, cleanFields, ht, Bool.true_and]
  congr 1
  cases a with
  | room b s p =>
    simp only [fields, cleanFields_append, clean_base, clean_semantic, NodeAttrs.strings, List.all_cons, Bool.true_and, cleanFields, clean_map clean_num,
      Bool.and_true]
    rw [show utf8 (Str.lit "semantic_class_probabilities") = true by decide +kernel, Bool.true_and]
  | _ => simp only [fields, cleanFields_append, clean_base, clean_semantic, clean_object, clean_place, clean_place2d, clean_agent, clean_khronos,
      NodeAttrs.strings, List.all_cons, List.all_nil, Bool.and_true, Bool.true_and]
theorem clean_edgeAttrs (V : Registry EdgeClass) (a : EdgeAttrs) : (edgeAttrs V a).clean = utf8 (V.nameOf .base) := by
  simp only [edgeAttrs, clean, cleanFields]
  cases utf8 (V.nameOf .base) <;> decide +kernel
end JArith
end Verif
