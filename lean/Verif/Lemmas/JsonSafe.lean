import Verif.Model.Json
import Verif.Lemmas.Mem4
/-! # Reading documents of any origin: no undefined behaviour -/

namespace Verif
open Res (Sat)

/-- not undefined behaviour -/
abbrev Defined {α : Type} (r : Res α) : Prop := Sat (fun _ => True) r

theorem Defined.ne {α : Type} {r : Res α} (h : Defined r) : r ≠ .ub := by rintro rfl; exact h

/-- one step of a reader -/
macro "d_step" : tactic => `(tactic| refine Sat.bind (P := fun _ => True) ?_ (fun _ _ => ?_))

theorem emplaceNode_mv {g : Graph} (h : MV g.view) (l : LayerId) (n : NodeId) (a : Option NodeAttrs) : MV (g.emplaceNode l n a).1.view := by
  unfold Graph.emplaceNode
  split
  · exact h
  rename_i hn
  split
  · exact h
  rename_i x hx
  have hn : g.lookup.find? n = none := by
    simp only [OMap.contains] at hn
    cases e : g.lookup.find? n <;> simp_all
  obtain ⟨e1, e2⟩ := Graph.addStatic_mv h hx hn a
  simp only [e1, if_true]
  exact e2

namespace Defined
variable {α : Type}

theorem at' (j : Json) (k : Str) : Defined (j.at' k) := by
  unfold Json.at'; split <;> trivial
theorem nth (j : Json) (i : Nat) : Defined (j.nth i) := by
  unfold Json.nth
  split
  · split <;> trivial
  · trivial
theorem get {β : Type} {j : Json} {k : Str} {r : Json → Res β} (h : ∀ v, Defined (r v)) : Defined (j.at' k >>= r) :=
  Sat.bind (at' j k) (fun v _ => h v)
theorem item {β : Type} {j : Json} {i : Nat} {r : Json → Res β} (h : ∀ v, Defined (r v)) : Defined (j.nth i >>= r) :=
  Sat.bind (nth j i) (fun v _ => h v)
theorem field {j : Json} {k : Str} {d : α} {r : Json → Res α} (h : ∀ v, Defined (r v)) : Defined (JEnv.field j k d r) := by
  unfold JEnv.field
  split
  · trivial
  · exact h _
theorem all {β : Type} {r : β → Res α} (h : ∀ b, Defined (r b)) (l : List β) : Sat (fun l' => l'.length = l.length) (allRes r l) := by
  induction l with
  | nil => exact rfl
  | cons b l ih =>
    unfold allRes
    refine Sat.bind (h b) (fun _ _ => Sat.bind ih (fun l' hl => ?_))
    exact congrArg (· + 1) hl
theorem vec {r : Json → Res α} (h : ∀ v, Defined (r v)) (j : Json) : Defined (JEnv.vec r j) := by
  unfold JEnv.vec
  split
  · exact (all h _).mono (fun _ _ => trivial)
  · trivial
theorem map {r : Json → Res α} (h : ∀ v, Defined (r v)) (j : Json) : Defined (JEnv.map r j) := by
  unfold JEnv.map
  split
  · exact Sat.fold (P := fun _ => True) (fun m x _ => by
      refine Sat.bind (P := fun _ => True) (h _) (fun _ _ => ?_)
      trivial) _ trivial
  · trivial

theorem bool (j : Json) : Defined (JEnv.bool j) := by unfold JEnv.bool; split <;> trivial
theorem str (j : Json) : Defined (JEnv.str j) := by unfold JEnv.str; split <;> trivial

variable {E : JEnv}
theorem f64 (j : Json) : Defined (E.f64 j) := by unfold JEnv.f64; split <;> trivial
theorem f32 (j : Json) : Defined (E.f32 j) := by unfold JEnv.f32; split <;> trivial

section
variable (ho : E.isoOverflow = false)
include ho
theorem badCast (d : F64) : Defined (E.badCast d) := by unfold JEnv.badCast; rw [ho]; trivial
theorem integral (lo hi : Int) (b : Bool) (j : Json) : Defined (E.integral lo hi b j) := by
  unfold JEnv.integral
  split
  · trivial
  · trivial
  · split
    · split
      · trivial
      · exact badCast ho _
    · exact badCast ho _
  · split <;> trivial
  · trivial
theorem u64 (j : Json) : Defined (E.u64 j) := integral ho _ _ _ j
theorem u32 (j : Json) : Defined (E.u32 j) := Sat.bind (integral ho _ _ _ j) (fun _ _ => trivial)
theorem i32 (j : Json) : Defined (E.i32 j) := Sat.bind (integral ho _ _ _ j) (fun _ _ => trivial)
theorem u8 (j : Json) : Defined (E.u8 j) := Sat.bind (integral ho _ _ _ j) (fun _ _ => trivial)
theorem dim (j : Json) : Defined (E.dim j) := Sat.bind (i32 ho j) (fun _ _ => trivial)
theorem mulInt (a b : Int) : Defined (E.mulInt a b) := by
  unfold JEnv.mulInt
  split
  · trivial
  · rw [ho]; trivial

omit ho in
theorem coeff {r : Json → Res α} {nan : α} (h : ∀ v, Defined (r v)) (j : Json) : Defined (JEnv.coeff r nan j) := by
  unfold JEnv.coeff
  split
  · trivial
  · exact h j

theorem matrix (hc : E.eigenChecks = true) {r : Json → Res α} {nan : α} (h : ∀ v, Defined (r v)) (rows cols : Int) (j : Json) :
    Defined (E.matrix r nan rows cols j) := by
  unfold JEnv.matrix
  refine Sat.bind (mulInt ho _ _) (fun n _ => ?_)
  split
  · trivial
  · split
    · trivial
    · d_step
      · split
        · exact (all (coeff h) _).mono (fun _ _ => trivial)
        all_goals trivial
      · trivial

theorem column (hc : E.eigenChecks = true) {r : Json → Res α} {nan : α} (h : ∀ v, Defined (r v)) (j : Json) : Defined (E.column r nan j) := by
  have : ∀ n : Int, Defined (E.matrix r nan n 1 j) := fun n => matrix ho hc h n 1 j
  rw [JEnv.column]
  exact this _

omit ho in
/-- a matrix with three coefficients -/
theorem matrix3 {r : Json → Res α} {nan : α} (h : ∀ v, Defined (r v)) (j : Json) :
    Sat (fun m => m.data.length = 3) (E.matrix r nan 3 1 j) := by
  unfold JEnv.matrix
  rw [show E.mulInt 3 1 = .ok 3 by unfold JEnv.mulInt; rw [if_pos (by decide)]; rfl]
  simp only [Res.bind_ok]
  split
  · trivial
  · rename_i hs
    rw [if_neg (by decide)]
    have hs : j.size = 3 := by have := Classical.not_not.1 hs; omega
    refine Sat.bind (P := fun l => l.length = 3) ?_ (fun l hl => ?_)
    rotate_left
    · exact hl
    split
    · refine (all (coeff h) _).mono (fun _ h => ?_)
      rw [h]; exact hs
    · cases hs
    · cases hs
    · trivial

omit ho in
theorem v3d (j : Json) : Defined (E.v3d j) := by
  refine Sat.bind (matrix3 f64 j) (fun m hm => ?_)
  obtain ⟨_, _, d⟩ := m
  match d, hm with
  | [x, y, z], _ => trivial
omit ho in
theorem v3f (j : Json) : Defined (E.v3f j) := by
  refine Sat.bind (matrix3 f32 j) (fun m hm => ?_)
  obtain ⟨_, _, d⟩ := m
  match d, hm with
  | [x, y, z], _ => trivial
omit ho
theorem quat (j : Json) : Defined (E.quat j) := by
  unfold JEnv.quat
  iterate 4 (refine Sat.bind (get f64) (fun _ _ => ?_))
  trivial
theorem quatf (j : Json) : Defined (E.quatf j) := by
  unfold JEnv.quatf
  iterate 4 (refine Sat.bind (get f32) (fun _ _ => ?_))
  trivial
include ho

theorem bbox (j : Json) : Defined (E.bbox j) := by
  unfold JEnv.bbox
  refine Sat.bind (at' _ _) (fun t _ => ?_)
  split
  · trivial
  · d_step
    · split
      · refine Sat.bind (get (v3f)) (fun _ _ => Sat.bind (get (v3f)) (fun _ _ => ?_))
        trivial
      · exact get (v3f)
    · refine Sat.bind (get (v3f)) (fun _ _ => Sat.bind (get quatf) (fun _ _ => ?_))
      trivial
theorem nvi (j : Json) : Defined (E.nvi j) := by
  unfold JEnv.nvi
  refine Sat.bind (at' _ _) (fun b _ => ?_)
  iterate 3 (refine Sat.bind (item (i32 ho)) (fun _ _ => ?_))
  refine Sat.bind (at' _ _) (fun b _ => ?_)
  iterate 3 (refine Sat.bind (item f64) (fun _ _ => ?_))
  refine Sat.bind (get (u64 ho)) (fun _ _ => ?_)
  split
  · trivial
  · split
    · trivial
    · exact Sat.bind (u32 ho _) (fun _ _ => trivial)
theorem color (j : Json) : Defined (E.color j) := by
  unfold JEnv.color
  split
  · iterate 3 (refine Sat.bind (item (u8 ho)) (fun _ _ => ?_))
    split
    · exact Sat.bind (item (u8 ho)) (fun _ _ => trivial)
    · trivial
  · iterate 3 (refine Sat.bind (get (u8 ho)) (fun _ _ => ?_))
    split
    · trivial
    · exact Sat.bind (u8 ho _) (fun _ _ => trivial)
theorem face (j : Json) : Defined (E.face j) := by
  unfold JEnv.face
  iterate 3 (refine Sat.bind (item (u64 ho)) (fun _ _ => ?_))
  trivial
theorem mesh (j : Json) : Defined (E.mesh j) := by
  unfold JEnv.mesh
  iterate 4 (refine Sat.bind (get bool) (fun _ _ => ?_))
  refine Sat.bind (field (vec (v3f))) (fun _ _ => ?_)
  refine Sat.bind (field (vec (color ho))) (fun _ _ => ?_)
  refine Sat.bind (field (vec (u64 ho))) (fun _ _ => ?_)
  refine Sat.bind (field (vec (u64 ho))) (fun _ _ => ?_)
  refine Sat.bind (field (vec (u32 ho))) (fun _ _ => ?_)
  exact Sat.bind (field (vec (face ho))) (fun _ _ => trivial)

theorem baseAttrs (j : Json) : Defined (E.baseAttrs j) := by
  unfold JEnv.baseAttrs
  refine Sat.bind (field (v3d)) (fun _ _ => Sat.bind (field (u64 ho)) (fun _ _ => Sat.bind (field bool) (fun _ _ => ?_)))
  split
  · trivial
  · exact Sat.bind (field bool) (fun _ _ => trivial)

theorem objectAttrs (j : Json) : Defined (E.objectAttrs j) := by
  unfold JEnv.objectAttrs
  exact Sat.bind (field (vec (u64 ho))) (fun _ _ => Sat.bind (field bool) (fun _ _ => Sat.bind (field quat) (fun _ _ => trivial)))
theorem placeAttrs (j : Json) : Defined (E.placeAttrs j) := by
  unfold JEnv.placeAttrs
  refine Sat.bind (field f64) (fun _ _ => ?_)
  refine Sat.bind (field (u32 ho)) (fun _ _ => ?_)
  refine Sat.bind (field (vec (nvi ho))) (fun _ _ => ?_)
  refine Sat.bind (field (vec (u64 ho))) (fun _ _ => ?_)
  refine Sat.bind (field (vec (u8 ho))) (fun _ _ => ?_)
  refine Sat.bind (field (vec (u64 ho))) (fun _ _ => ?_)
  refine Sat.bind (field bool) (fun _ _ => ?_)
  refine Sat.bind (field bool) (fun _ _ => ?_)
  refine Sat.bind (field (v3d)) (fun _ _ => ?_)
  refine Sat.bind (field quat) (fun _ _ => ?_)
  refine Sat.bind (field bool) (fun _ _ => ?_)
  exact Sat.bind (field (u64 ho)) (fun _ _ => trivial)
attribute [local irreducible] JEnv.column in
theorem agentAttrs (hc : E.eigenChecks = true) (j : Json) : Defined (E.agentAttrs j) := by
  unfold JEnv.agentAttrs
  refine Sat.bind (field quat) (fun _ _ => ?_)
  refine Sat.bind (field (u64 ho)) (fun _ _ => ?_)
  have h1 : Defined (JEnv.field j (Str.lit "dbow_ids") ⟨0, 1, []⟩ (E.column E.u32 0)) := by
    apply field
    intro v
    exact column (r := E.u32) (nan := 0) ho hc (u32 ho) v
  have h2 : Defined (JEnv.field j (Str.lit "dbow_values") ⟨0, 1, []⟩ (E.column E.f32 F32.nan)) := by
    apply field
    intro v
    exact column (r := E.f32) (nan := F32.nan) ho hc f32 v
  exact Sat.bind h1 (fun _ _ => Sat.bind h2 (fun _ _ => trivial))
theorem place2dAttrs (hc : E.eigenChecks = true) (j : Json) : Defined (E.place2dAttrs j) := by
  unfold JEnv.place2dAttrs
  refine Sat.bind (field (vec (v3d))) (fun _ _ => ?_)
  refine Sat.bind (field (v3d)) (fun _ _ => ?_)
  refine Sat.bind (field (fun v => matrix ho hc f64 _ _ v)) (fun _ _ => ?_)
  refine Sat.bind (field (fun v => matrix ho hc f64 _ _ v)) (fun _ _ => ?_)
  refine Sat.bind (field (vec (u64 ho))) (fun _ _ => ?_)
  refine Sat.bind (field (vec (nvi ho))) (fun _ _ => ?_)
  refine Sat.bind (field (vec (u64 ho))) (fun _ _ => ?_)
  refine Sat.bind (field (vec (u8 ho))) (fun _ _ => ?_)
  refine Sat.bind (field (vec (u64 ho))) (fun _ _ => ?_)
  refine Sat.bind (field bool) (fun _ _ => ?_)
  exact Sat.bind (field bool) (fun _ _ => trivial)
theorem khronosAttrs (j : Json) : Defined (E.khronosAttrs j) := by
  unfold JEnv.khronosAttrs
  refine Sat.bind (field (vec (u64 ho))) (fun _ _ => ?_)
  refine Sat.bind (field (vec (u64 ho))) (fun _ _ => ?_)
  refine Sat.bind (field (mesh ho)) (fun _ _ => ?_)
  refine Sat.bind (field (vec (v3f))) (fun _ _ => ?_)
  refine Sat.bind (field (vec (u64 ho))) (fun _ _ => ?_)
  refine Sat.bind (field (vec (vec (v3f)))) (fun _ _ => ?_)
  exact Sat.bind (field (map (vec (u64 ho)))) (fun _ _ => trivial)

variable (hc : E.eigenChecks = true) (hv : E.version.le ⟨1, 0, 2⟩ = false)
include hc hv
theorem semanticAttrs (j : Json) : Defined (E.semanticAttrs j) := by
  unfold JEnv.semanticAttrs
  refine Sat.bind (field str) (fun _ _ => ?_)
  refine Sat.bind (P := fun _ => True) ?_ (fun _ _ => ?_)
  · unfold JEnv.semanticColor
    rw [hv]
    exact field (color ho)
  refine Sat.bind (field (bbox ho)) (fun _ _ => ?_)
  refine Sat.bind (field (u32 ho)) (fun _ _ => ?_)
  refine Sat.bind (field (fun v => ?_)) (fun _ _ => trivial)
  unfold JEnv.matrixDyn
  refine Sat.bind (at' _ _) (fun _ _ => Sat.bind (dim ho _) (fun _ _ => Sat.bind (at' _ _) (fun _ _ => Sat.bind (dim ho _) (fun _ _ => ?_))))
  exact Sat.bind (at' _ _) (fun _ _ => matrix ho hc f64 _ _ _)

theorem fields (j : Json) (c : NodeClass) : Defined (E.fields j c) := by
  have b := baseAttrs ho j
  have s := semanticAttrs ho hc hv j
  cases c <;> unfold JEnv.fields
  · exact Sat.bind b (fun _ _ => trivial)
  · exact Sat.bind b (fun _ _ => Sat.bind s (fun _ _ => trivial))
  · exact Sat.bind b (fun _ _ => Sat.bind s (fun _ _ => Sat.bind (objectAttrs ho j) (fun _ _ => trivial)))
  · exact Sat.bind b (fun _ _ => Sat.bind s (fun _ _ => Sat.bind (field (map f64)) (fun _ _ => trivial)))
  · exact Sat.bind b (fun _ _ => Sat.bind s (fun _ _ => Sat.bind (placeAttrs ho j) (fun _ _ => trivial)))
  · exact Sat.bind b (fun _ _ => Sat.bind s (fun _ _ => Sat.bind (place2dAttrs ho hc j) (fun _ _ => trivial)))
  · exact Sat.bind b (fun _ _ => Sat.bind (agentAttrs ho hc j) (fun _ _ => trivial))
  · exact Sat.bind b (fun _ _ => Sat.bind s (fun _ _ => Sat.bind (khronosAttrs ho j) (fun _ _ => trivial)))

theorem nodeAttrs (R : Registry NodeClass) (j : Json) : Defined (E.nodeAttrs R j) := by
  unfold JEnv.nodeAttrs
  refine Sat.bind (get str) (fun _ _ => ?_)
  split
  · trivial
  · exact Sat.bind (fields ho hc hv j _) (fun _ _ => trivial)

theorem readNode (R : Registry NodeClass) (g : Graph) (j : Json) (hg : MV g.view) : Sat (fun g => MV g.view) (E.readNode R g j) := by
  unfold JEnv.readNode
  refine Sat.bind (get (u64 ho)) (fun id _ => Sat.bind (get (u64 ho)) (fun layer _ => Sat.bind (get (nodeAttrs ho hc hv R)) (fun a _ => ?_)))
  split
  · trivial
  · split
    · refine Sat.bind (u64 ho _) (fun t _ => Sat.bind (Graph.emplacePrev_sat hg _ _ _ _) (fun r hr => ?_))
      split
      · exact hr
      · trivial
    · split
      · exact emplaceNode_mv hg _ _ _
      · trivial
omit hc hv

omit ho in
theorem edgeAttrs (Q : Registry EdgeClass) (j : Json) : Defined (E.edgeAttrs Q j) := by
  unfold JEnv.edgeAttrs
  refine Sat.bind (get str) (fun _ _ => ?_)
  split
  · trivial
  · exact Sat.bind (field bool) (fun _ _ => Sat.bind (field f64) (fun _ _ => trivial))
theorem readEdge (Q : Registry EdgeClass) (g : Graph) (j : Json) (hg : MV g.view) : Sat (fun g => MV g.view) (E.readEdge Q g j) := by
  unfold JEnv.readEdge
  refine Sat.bind (get (u64 ho)) (fun s _ => Sat.bind (get (u64 ho)) (fun t _ => Sat.bind (get (edgeAttrs Q)) (fun a _ => ?_)))
  refine Sat.bind (Graph.insertEdge_sat hg _ _ _) (fun r hr => ?_)
  split
  · exact hr
  · trivial
theorem header (j : Json) : Defined (E.header j) := by
  unfold JEnv.header
  refine Sat.bind (get str) (fun _ _ => ?_)
  iterate 3 (refine Sat.bind (at' _ _) (fun v _ => Sat.bind (get (u8 ho)) (fun _ _ => ?_)))
  trivial
theorem headerIn (j : Json) (k : Str) : Defined (E.headerIn j k) := by
  unfold JEnv.headerIn
  split
  · trivial
  · exact header ho _
theorem legacyMesh (j : Json) : Defined (E.legacyMesh j) := by
  unfold JEnv.legacyMesh
  d_step
  · split
    · trivial
    · refine (all (fun j => ?_) _).mono (fun _ _ => trivial)
      unfold JEnv.legacyVertex
      iterate 3 (refine Sat.bind (get f32) (fun _ _ => ?_))
      iterate 3 (refine Sat.bind (get (u8 ho)) (fun _ _ => ?_))
      trivial
  · d_step
    · split
      · trivial
      · exact (all (face ho) _).mono (fun _ _ => trivial)
    · trivial
theorem meshDoc (j : Json) : Defined (E.meshDoc j) := by
  unfold JEnv.meshDoc
  refine Sat.bind (headerIn ho _ _) (fun h _ => ?_)
  split
  · exact legacyMesh ho j
  · exact mesh (E := E.under h.version) ho j
end

mutual
theorem text : ∀ j : Json, Defined j.text
  | .null | .bool _ | .uint _ | .int _ | .num _ => by unfold Json.text; trivial
  | .str s => by unfold Json.text; split <;> trivial
  | .arr l => by unfold Json.text; exact Sat.bind (textAll l) (fun _ _ => trivial)
  | .obj fs => by unfold Json.text; exact Sat.bind (textFields fs) (fun _ _ => trivial)
theorem textAll : ∀ l : List Json, Defined (Json.textAll l)
  | [] => by unfold Json.textAll; trivial
  | j :: l => by unfold Json.textAll; exact Sat.bind (text j) (fun _ _ => Sat.bind (textAll l) (fun _ _ => trivial))
theorem textFields : ∀ l : List (Str × Json), Defined (Json.textFields l)
  | [] => by unfold Json.textFields; trivial
  | (k, j) :: l => by
    unfold Json.textFields
    split
    · exact Sat.bind (text j) (fun _ _ => Sat.bind (textFields l) (fun _ _ => trivial))
    · trivial
end

theorem readGraph (ho : E.isoOverflow = false) (hc : E.eigenChecks = true) (R' : Registry NodeClass) (Q : Registry EdgeClass) (j : Json)
    (hv : ∀ h, E.headerIn j JEnv.headerKey = .ok h → h.version.le ⟨1, 0, 2⟩ = false) : Sat (fun g => MV g.view) (E.readGraph R' Q j) := by
  unfold JEnv.readGraph
  cases hh : E.headerIn j JEnv.headerKey with
  | ub => have := headerIn ho j JEnv.headerKey; rw [hh] at this; exact this
  | throw e => trivial
  | ok h =>
    have hv := hv h hh
    simp only [Res.bind_ok]
    refine Sat.bind (get (vec (u64 ho))) (fun ids _ => ?_)
    refine Sat.bind (P := fun g : Graph => MV g.view) ?_ (fun g hg => ?_)
    · by_cases he : ids = []
      · subst he; trivial
      · obtain ⟨g, h1, h2⟩ := Verif.R.create he
        rw [h1]
        exact Verif.R.mv h2 (SWF.empty _) (Spec.tops_empty rfl)
    refine Sat.bind (at' _ _) (fun ns _ => ?_)
    refine Sat.bind (Sat.fold (fun g j hg => readNode (E := E.under h.version) ho hc hv R' g j hg) _ hg) (fun g hg => ?_)
    refine Sat.bind (at' _ _) (fun es _ => ?_)
    refine Sat.bind (Sat.fold (fun g j hg => readEdge (E := E.under h.version) ho Q g j hg) _ hg) (fun g hg => ?_)
    split
    · exact hg
    · refine Sat.bind (text _) (fun m _ => Sat.bind (meshDoc (E := E.under h.version) ho m) (fun m _ => ?_))
      exact Rd.mv_setMesh hg _

end Defined
end Verif
