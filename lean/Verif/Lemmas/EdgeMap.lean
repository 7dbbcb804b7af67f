import Verif.Model.LayerApi
/-! # An edge container refines a map with a log -/

namespace Verif

/-- The container stores exactly `m`. -/
structure RContainer (c : EdgeContainer) (m : EMap) : Prop where
  ed : ∀ k, c.edges.find? k = m.edges k
  st : ∀ k, (c.status.find? k).getD .nonexistent = m.status k
  none_ : ∀ k, c.status.find? k ≠ some .nonexistent
  tag : ∀ k, (m.edges k).isSome = true ↔ m.status k = .new ∨ m.status k = .visible
  merged : ∀ k, m.status k ≠ .merged
  info : ∀ k e, m.edges k = some e → e.info.isSome = true

namespace RContainer
variable {c : EdgeContainer} {m : EMap}

theorem create : RContainer {} EMap.empty := ⟨fun _ => rfl, fun _ => rfl, by simp, by simp [EMap.empty], by simp [EMap.empty], by simp [EMap.empty]⟩

theorem insert (h : RContainer c m) (s t : NodeId) (info : Option EdgeAttrs) : RContainer (c.insert s t info) (m.insert s t info) := by
  refine ⟨?_, ?_, ?_, ?_, ?_, ?_⟩ <;> intro k <;>
    simp only [EdgeContainer.insert, EMap.insert, OMap.find?_emplace, OMap.find?_insert]
  · by_cases hk : EdgeKey.of s t = k
    · subst hk
      simp only [if_true]
      rw [h.ed]
    · have : ¬ k = EdgeKey.of s t := fun hh => hk hh.symm
      simp only [hk, this, if_false]; exact h.ed k
  · by_cases hk : EdgeKey.of s t = k
    · subst hk; simp
    · have : ¬ k = EdgeKey.of s t := fun hh => hk hh.symm
      simp only [hk, this, if_false]; exact h.st k
  · by_cases hk : EdgeKey.of s t = k
    · subst hk; simp
    · simp only [hk, if_false]; exact h.none_ k
  · by_cases hk : k = EdgeKey.of s t
    · simp [hk]
    · simp only [hk, if_false]; exact h.tag k
  · by_cases hk : k = EdgeKey.of s t
    · simp [hk]
    · simp only [hk, if_false]; exact h.merged k
  · intro e
    by_cases hk : k = EdgeKey.of s t
    · subst hk
      simp only [if_true, Option.some.injEq]
      cases he : m.edges (EdgeKey.of s t) with
      | none => rintro rfl; rfl
      | some e' => rintro rfl; exact h.info _ _ he
    · simp only [hk, if_false]; exact h.info k e

theorem remove (h : RContainer c m) {s t : NodeId} (ha : m.status (EdgeKey.of s t) ≠ .nonexistent) :
    ∃ c', c.remove s t = .ok c' ∧ RContainer c' (m.remove s t) := by
  rw [← h.st] at ha
  cases hs : c.status.find? (EdgeKey.of s t) with
  | none => rw [hs] at ha; exact absurd rfl ha
  | some v =>
    refine ⟨_, by unfold EdgeContainer.remove; rw [hs]; rfl, ?_⟩
    refine ⟨?_, ?_, ?_, ?_, ?_, ?_⟩ <;> intro k <;> simp only [EMap.remove, OMap.find?_erase, OMap.find?_insert]
    · by_cases hk : EdgeKey.of s t = k
      · subst hk; simp
      · have : ¬ k = EdgeKey.of s t := fun hh => hk hh.symm
        simp only [hk, this, if_false]; exact h.ed k
    · by_cases hk : EdgeKey.of s t = k
      · subst hk; simp
      · have : ¬ k = EdgeKey.of s t := fun hh => hk hh.symm
        simp only [hk, this, if_false]; exact h.st k
    · by_cases hk : EdgeKey.of s t = k
      · subst hk; simp
      · simp only [hk, if_false]; exact h.none_ k
    · by_cases hk : k = EdgeKey.of s t
      · simp [hk]
      · simp only [hk, if_false]; exact h.tag k
    · by_cases hk : k = EdgeKey.of s t
      · simp [hk]
      · simp only [hk, if_false]; exact h.merged k
    · intro e
      by_cases hk : k = EdgeKey.of s t
      · simp [hk]
      · simp only [hk, if_false]; exact h.info k e

theorem findKey (h : RContainer c m) (k : EdgeKey) : RContainer (c.findKey k).1 m ∧ (c.findKey k).2 = m.edges k := by
  unfold EdgeContainer.findKey
  rw [h.ed k]
  cases m.edges k with
  | none => exact ⟨h, rfl⟩
  | some e => exact ⟨⟨h.ed, h.st, h.none_, h.tag, h.merged, h.info⟩, rfl⟩

theorem step (h : RContainer c m) (op : EOp) (ha : m.allowed op = true) : ∃ c', c.step op = .ok c' ∧ RContainer c' (m.step op) := by
  cases op with
  | insert s t info => exact ⟨_, rfl, h.insert s t info⟩
  | remove s t =>
    refine h.remove ?_
    simpa [EMap.allowed] using ha
  | rewire s t s' t' =>
    simp only [EdgeContainer.step, EMap.step]
    obtain ⟨h1, h2⟩ := h.findKey (EdgeKey.of s t)
    unfold EdgeContainer.rewire
    generalize hc : c.findKey (EdgeKey.of s t) = r at h1 h2
    obtain ⟨c1, pv⟩ := r
    simp only at h1 h2
    subst h2
    simp only
    cases he : m.edges (EdgeKey.of s t) with
    | none => rw [he] at hc; rw [hc]; exact ⟨c1, rfl, h1⟩
    | some e =>
      rw [he] at hc; rw [hc]
      obtain ⟨a, hi⟩ := Option.isSome_iff_exists.1 (h.info _ e he)
      have hst : m.status (EdgeKey.of s t) = .new ∨ m.status (EdgeKey.of s t) = .visible := (h.tag _).1 (by rw [he]; rfl)
      have hst' := h1.st (EdgeKey.of s t)
      cases hs : c1.status.find? (EdgeKey.of s t) with
      | none => rw [hs] at hst'; rw [← hst'] at hst; simp at hst
      | some v =>
        obtain ⟨c3, e3, h3⟩ := h1.remove (s := s) (t := t) (by rcases hst with hh | hh <;> rw [hh] <;> simp)
        have : ({ c1 with status := c1.status.insert (EdgeKey.of s t) .merged } : EdgeContainer).remove s t = .ok c3 := by
          rw [← e3]
          unfold EdgeContainer.remove
          simp only [OMap.find?_insert_self, OMap.insert_insert, hs]
          rfl
        refine ⟨c3.insert s' t' (some a), ?_, ?_⟩
        · simp only [hi, Res.deref, Res.at?, Res.bind_ok, this]; rfl
        · simp only [hi]; exact h3.insert s' t' (some a)
  | find s t => exact ⟨_, rfl, (h.findKey _).1⟩
  | setInfo s t info =>
    refine ⟨_, rfl, ?_⟩
    obtain ⟨h1, _⟩ := h.findKey (EdgeKey.of s t)
    change RContainer ((c.findKey (EdgeKey.of s t)).1.setInfo _ _) _
    generalize (c.findKey (EdgeKey.of s t)).1 = c1 at h1
    unfold EdgeContainer.setInfo
    rw [h1.ed]
    cases he : m.edges (EdgeKey.of s t) with
    | none =>
      refine ⟨?_, h1.st, h1.none_, ?_, h1.merged, ?_⟩ <;> intro k <;> simp only [EMap.step]
      · by_cases hk : k = EdgeKey.of s t
        · subst hk; rw [h1.ed, he]; simp
        · simp only [hk, if_false]; exact h1.ed k
      · by_cases hk : k = EdgeKey.of s t
        · subst hk; rw [← h1.tag, he]; simp
        · simp only [hk, if_false]; exact h1.tag k
      · intro e
        by_cases hk : k = EdgeKey.of s t
        · subst hk; rw [he]; simp
        · simp only [hk, if_false]; exact h1.info k e
    | some e0 =>
      refine ⟨?_, h1.st, h1.none_, ?_, h1.merged, ?_⟩ <;> intro k <;> simp only [EMap.step]
      · rw [OMap.find?_insert]
        by_cases hk : EdgeKey.of s t = k
        · subst hk; simp [he]
        · have : ¬ k = EdgeKey.of s t := fun hh => hk hh.symm
          simp only [hk, this, if_false]; exact h1.ed k
      · by_cases hk : k = EdgeKey.of s t
        · subst hk; rw [← h1.tag, he]; simp
        · simp only [hk, if_false]; exact h1.tag k
      · intro e
        by_cases hk : k = EdgeKey.of s t
        · subst hk; rw [he]
          simp only [if_true, Option.map_some, Option.some.injEq]
          rintro rfl; rfl
        · simp only [hk, if_false]; exact h1.info k e
  | reset =>
    exact ⟨_, rfl, ⟨fun _ => rfl, fun _ => rfl, by simp [EdgeContainer.reset], create.tag, create.merged, create.info⟩⟩
  | getNew clear =>
    refine ⟨_, rfl, ?_⟩
    cases clear with
    | false => exact ⟨h.ed, by simpa [EMap.step, EdgeContainer.getNew, EdgeContainer.getRemoved] using h.st, h.none_, by simpa [EMap.step] using h.tag, by simpa [EMap.step] using h.merged, h.info⟩
    | true =>
      refine ⟨h.ed, ?_, ?_, ?_, ?_, h.info⟩ <;> intro k <;>
        simp only [EdgeContainer.getNew, EMap.step, if_true, true_and, OMap.find?_map]
      · rw [← h.st k]
        cases c.status.find? k with
        | none => simp
        | some v => cases v <;> simp
      · have := h.none_ k
        cases hh : c.status.find? k with
        | none => simp
        | some v => rw [hh] at this; cases v <;> simp at *
      · rw [h.tag k]
        cases m.status k <;> simp
      · have := h.merged k
        cases hh : m.status k <;> simp_all
  | getRemoved clear =>
    refine ⟨_, rfl, ?_⟩
    cases clear with
    | false => exact ⟨h.ed, by simpa [EMap.step, EdgeContainer.getNew, EdgeContainer.getRemoved] using h.st, h.none_, by simpa [EMap.step] using h.tag, by simpa [EMap.step] using h.merged, h.info⟩
    | true =>
      refine ⟨h.ed, ?_, ?_, ?_, ?_, h.info⟩ <;> intro k <;>
        simp only [EdgeContainer.getRemoved, EMap.step, if_true, true_and, OMap.find?_filter]
      · rw [← h.st k]
        cases c.status.find? k with
        | none => simp
        | some v => cases v <;> rfl
      · have := h.none_ k
        cases hh : c.status.find? k with
        | none => simp
        | some v => rw [hh] at this; cases v <;> simp at *
      · rw [h.tag k]
        cases m.status k <;> simp
      · have := h.merged k
        cases hh : m.status k <;> simp_all
  | setStale => exact ⟨_, rfl, ⟨h.ed, h.st, h.none_, h.tag, h.merged, h.info⟩⟩

theorem refused (h : RContainer c m) {op : EOp} (ha : m.allowed op = false) : c.step op = .throw .outOfRange := by
  cases op with
  | remove s t =>
    simp only [EMap.allowed, bne_eq_false_iff_eq] at ha
    rw [← h.st] at ha
    have hn := h.none_ (EdgeKey.of s t)
    cases hs : c.status.find? (EdgeKey.of s t) with
    | none => simp only [EdgeContainer.step]; unfold EdgeContainer.remove; rw [hs]; rfl
    | some v => rw [hs] at ha hn; simp at ha; subst ha; exact absurd rfl hn
  | _ => simp [EMap.allowed] at ha

theorem run (ops : List EOp) : ∀ {c : EdgeContainer} {m : EMap}, RContainer c m → ∀ {c'}, c.run ops = .ok c' → RContainer c' (m.run ops) := by
  induction ops with
  | nil => intro c m h c' e; cases e; exact h
  | cons op ops ih =>
    intro c m h c' e
    cases ha : m.allowed op with
    | false => simp only [EdgeContainer.run, h.refused ha] at e; cases e
    | true =>
      obtain ⟨c1, e1, h1⟩ := h.step op ha
      simp only [EdgeContainer.run, e1, Res.bind_ok] at e
      exact ih h1 e

end RContainer
end Verif
