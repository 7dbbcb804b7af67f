import Verif.Lemmas.Json4
/-! # Round trips of graphs -/

namespace Verif
open Json

theorem idxOf?_mem {l : List Str} {n : Str} (h : n ∈ l) : ∃ i, l.idxOf? n = some i ∧ l[i]? = some n := by
  induction l with
  | nil => cases h
  | cons a l ih =>
    rw [List.idxOf?_cons]
    by_cases ha : a = n
    · subst ha; exact ⟨0, by simp, rfl⟩
    · rcases List.mem_cons.1 h with rfl | h
      · exact absurd rfl ha
      · obtain ⟨i, h1, h2⟩ := ih h
        exact ⟨i + 1, by simp [ha, h1], h2⟩

/-- looking a name up by way of its index -/
theorem Registry.create_eq {γ : Type} {R : Registry γ} (hlen : R.entries.length ≤ 256) {n : Str} {c : γ} (h : R.find? n = some c) :
    R.create n = some c := by
  obtain ⟨e, he, hc⟩ := Option.map_eq_some_iff.1 h
  have hmem := List.mem_of_find?_eq_some he
  have hn : e.1 = n := by simpa using List.find?_some he
  have hin : n ∈ R.names := List.mem_map.2 ⟨e, hmem, hn⟩
  unfold Registry.create
  obtain ⟨i, h1, h2⟩ := idxOf?_mem hin
  rw [h1]
  simp only
  rw [factory_find? R R.names (by simpa [Registry.names] using hlen)]
  have hlt : i < R.names.length := (List.getElem?_eq_some_iff.1 h2).1
  have hl : R.names.length ≤ 256 := by simpa [Registry.names] using hlen
  have : (UInt8.ofNat i).toNat = i := by simp; omega
  rw [this, h2]
  exact h

theorem Registry.nameOf_eq {γ : Type} [DecidableEq γ] {W : Registry γ} (hone : W.Once) {n : Str} {c : γ} (h : (n, c) ∈ W.entries) : W.nameOf c = n := by
  unfold Registry.nameOf
  cases hf : W.entries.find? (fun e => e.2 = c) with
  | none =>
    rw [List.find?_eq_none] at hf
    exact absurd (decide_eq_true rfl) (hf _ h)
  | some e =>
    simp only
    have h1 := List.mem_of_find?_eq_some hf
    have h2 : e.2 = c := by simpa using List.find?_some hf
    have : ∀ l : List (Str × γ), (l.map Prod.snd).Nodup → e ∈ l → (n, c) ∈ l → e = (n, c) := by
      intro l
      induction l with
      | nil => intro _ h; cases h
      | cons x l ih =>
        intro hn ha hb
        simp only [List.map_cons, List.nodup_cons] at hn
        rcases List.mem_cons.1 ha with rfl | ha <;> rcases List.mem_cons.1 hb with hb | hb
        · exact hb.symm
        · exact absurd (List.mem_map.2 ⟨_, hb, h2.symm⟩) hn.1
        · exact absurd (List.mem_map.2 ⟨e, ha, by rw [← hb]; exact h2⟩) hn.1
        · exact ih hn.2 ha hb
    rw [this _ hone h1 h]

theorem Graph.must_ans {h : Graph} {op : Op} {r : Res (Graph × Bool)} (hr : h.step op = Graph.ans r) :
    h.must op = (do
      let x ← r
      if x.2 = true then .ok x.1 else .throw .runtimeError) := by
  unfold Graph.must
  rw [hr]
  cases r with
  | ok x => obtain ⟨g', b⟩ := x; cases b <;> rfl
  | throw x => rfl
  | ub => rfl

theorem obj_text {fs fs' : List (Str × Json)} (ht : textFields fs = .ok fs') : (Json.obj fs).text = .ok (.obj fs') := by
  simp only [Json.text, ht, Res.bind_ok, Res.pure_eq]

namespace JRT
variable (E : JEnv) (hF : E.toJArith.Exact) (hv : E.version = FileHeader.current.version)
include hF hv

theorem fields_tx {a : NodeAttrs} (hty : a.Typed) (h : a.Printable E.toJArith) : Tx (E.toJArith.fields a) := by
  cases a with
  | base b => exact base_tx E b
  | semantic b s => exact .append (base_tx E b) (semantic_tx E hF hv hty h)
  | object b s o => exact .append (.append (base_tx E b) (semantic_tx E hF hv hty h.1)) (object_tx E h.2)
  | room b s p =>
    have rp : JRT (JArith.map Json.num p) (JEnv.map E.f64) p := map (fun e he => ⟨(h.2 e he).1, (f64 E (h.2 e he).2).jrt⟩)
    exact .append (.append (base_tx E b) (semantic_tx E hF hv hty h.1)) (.cons (by decide +kernel) rp.textual .nil)
  | place b s p =>
    obtain ⟨h0, h1, h3, h4⟩ := h
    exact .append (.append (base_tx E b) (semantic_tx E hF hv hty h0)) (place_tx E h1 h3 h4)
  | place2d b s p =>
    obtain ⟨h0, h4⟩ := h
    exact .append (.append (base_tx E b) (semantic_tx E hF hv hty.1 h0)) (place2d_tx E hty.2 h4)
  | agent b a =>
    obtain ⟨h1, h2, h3⟩ := h
    exact .append (base_tx E b) (agent_tx E hty h1 h2 h3)
  | khronos b s o k =>
    obtain ⟨h0, h4⟩ := h
    exact .append (.append (base_tx E b) (semantic_tx E hF hv hty h0)) (khronos_tx E h4)

end JRT
end Verif
