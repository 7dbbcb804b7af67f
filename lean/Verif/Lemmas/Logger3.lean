import Verif.Lemmas.Logger2
/-! # What `logGraph` does to the files -/

namespace Verif
namespace Logger

variable {lg : Logger} {g : Graph}

/-- Does the call write a line for the layer. -/
def writes (lg : Logger) (e : LayerId × Layer) : Bool := lg.names.contains e.1 && !(e.2.nodes.size == 0 && !lg.header)

/-- The layer is not named, or has another file. -/
theorem logLayer_other {d d' : Disk} {e : LayerId × Layer} {p : String} (hp : ∀ name, lg.names.find? e.1 = some name → lg.path name ≠ p)
    (h : lg.logLayer g d e = .ok d') : d'.file p = d.file p ∧ d'.writable = d.writable := by
  unfold logLayer at h
  cases hn : lg.names.find? e.1 with
  | none => rw [hn] at h; cases h; exact ⟨rfl, rfl⟩
  | some name =>
    rw [hn] at h
    simp only at h
    split at h
    · cases h; exact ⟨rfl, rfl⟩
    · obtain ⟨row, -, h⟩ := bind_eq_ok h
      cases h
      unfold Disk.writeStats
      split
      · exact ⟨rfl, rfl⟩
      · have := hp name hn
        simp [Ne.symm this]

theorem logLayers_other {L : List (LayerId × Layer)} {d d' : Disk} {p : String}
    (hp : ∀ e ∈ L, ∀ name, lg.names.find? e.1 = some name → lg.path name ≠ p)
    (h : foldRes (lg.logLayer g) d L = .ok d') : d'.file p = d.file p ∧ d'.writable = d.writable := by
  induction L generalizing d with
  | nil => cases h; exact ⟨rfl, rfl⟩
  | cons e L ih =>
    rw [foldRes_cons] at h
    obtain ⟨d1, h1, h2⟩ := bind_eq_ok h
    have a := logLayer_other (hp e List.mem_cons_self) h1
    have b := ih (fun e' he => hp e' (List.mem_cons_of_mem _ he)) h2
    exact ⟨b.1.trans a.1, b.2.trans a.2⟩

/-- `logGraph` ends well if the numbers of every layer can be computed. -/
theorem logLayers_ok {L : List (LayerId × Layer)} (hL : ∀ e ∈ L, ∃ r, layerRow g e.2 = .ok r) (d : Disk) :
    ∃ d', foldRes (lg.logLayer g) d L = .ok d' := by
  induction L generalizing d with
  | nil => exact ⟨d, rfl⟩
  | cons e L ih =>
    have h1 : ∃ d1, lg.logLayer g d e = .ok d1 := by
      unfold logLayer
      cases lg.names.find? e.1 with
      | none => exact ⟨d, rfl⟩
      | some name =>
        simp only
        split
        · exact ⟨d, rfl⟩
        · obtain ⟨r, hr⟩ := hL e List.mem_cons_self
          exact ⟨_, by rw [hr, Res.bind_ok]; rfl⟩
    obtain ⟨d1, h1⟩ := h1
    obtain ⟨d2, h2⟩ := ih (fun e' he => hL e' (List.mem_cons_of_mem _ he)) d1
    exact ⟨d2, by rw [foldRes_cons, h1, Res.bind_ok, h2]⟩

/-- What one call does to the file of a layer whose name no other layer has. -/
theorem logGraph_file {d d' : Disk} {lg' : Logger} {l : LayerId} {x : Layer} {name : String} {r : LogRow}
    (h : lg.logGraph g d = .ok (lg', d')) (hx : g.layers.find? l = some x) (hname : lg.names.find? l = some name)
    (honly : ∀ l' name', lg.names.find? l' = some name' → lg.path name' = lg.path name → l' = l)
    (hr : layerRow g x = .ok r) (hw : d.writable (lg.path name) = true) :
    d'.file (lg.path name) = (if x.nodes.size = 0 ∧ lg.header = false then d.file (lg.path name)
      else some ((if lg.header then LogRow.headerText else (d.file (lg.path name)).getD "") ++ r.text)) ∧
    d'.writable = d.writable ∧ lg' = { lg with header := false } := by
  unfold logGraph at h
  obtain ⟨d1, h1, h2⟩ := bind_eq_ok h
  cases h2
  have hmem := OMap.mem_toList.2 hx
  obtain ⟨A, B, hAB⟩ := List.append_of_mem hmem
  have hnd := OMap.keys_nodup g.layers
  rw [OMap.keys, hAB, List.map_append, List.map_cons, List.nodup_append] at hnd
  rw [hAB, foldRes_append] at h1
  obtain ⟨da, ha, h1⟩ := bind_eq_ok h1
  rw [foldRes_cons] at h1
  obtain ⟨db, hb, hc⟩ := bind_eq_ok h1
  have ha := logLayers_other (p := lg.path name) (by
    intro e he name' hn' hp
    have := honly _ _ hn' hp
    exact hnd.2.2 e.1 (List.mem_map.2 ⟨e, he, rfl⟩) l (List.mem_cons_self) this) ha
  have hc := logLayers_other (p := lg.path name) (by
    intro e he name' hn' hp
    have := honly _ _ hn' hp
    have h2 := hnd.2.1
    rw [List.nodup_cons] at h2
    exact h2.1 (by rw [← this]; exact List.mem_map.2 ⟨e, he, rfl⟩)) hc
  refine ⟨?_, ?_, rfl⟩
  · rw [hc.1]
    unfold logLayer at hb
    simp only [hname] at hb
    by_cases hz : x.nodes.size = 0 ∧ lg.header = false
    · simp only [hz.1, hz.2, beq_self_eq_true, Bool.not_false, Bool.and_self, if_true] at hb
      cases hb
      rw [if_pos hz]; exact ha.1
    · have hz' : (x.nodes.size == 0 && !lg.header) = false := by
        cases hh : (x.nodes.size == 0 && !lg.header) with
        | false => rfl
        | true => simp at hh; exact absurd hh hz
      rw [hz'] at hb
      simp only [Bool.false_eq_true, if_false, hr, Res.bind_ok] at hb
      cases hb
      rw [if_neg hz]
      unfold Disk.writeStats
      rw [ha.2, hw]
      simp [ha.1]
  · rw [hc.2]
    have : db.writable = da.writable := by
      unfold logLayer at hb
      simp only [hname] at hb
      split at hb
      · cases hb; rfl
      · rw [hr, Res.bind_ok] at hb
        cases hb
        unfold Disk.writeStats
        split <;> rfl
    rw [this, ha.2]

end Logger
end Verif
