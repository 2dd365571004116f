import Verif.Csv.Lemmas
/-! # C38: CSV parsing recovers the fields -/
namespace Verif.Csv.Props
open Verif.Csv Verif.Csv.Spec Verif.Csv.Lemmas

/-- The parser on every written table, exactly: it returns the strings of the
table, unless a terminating 0 byte has to be stored just behind the buffer, and
then it stores it there. -/
theorem parse_render_exact (t : List (List Cell × Bool)) (ht : ∀ r ∈ t, RowOk r.1) :
    parseCsv (render t) = if fits 1024 (t.map (·.1)) then some (t.map fun r => texts r.1) else none := by
  have := parseFrom_table t ht [] (.inl rfl) (List.replicate 1024 0) [] (by rw [List.length_replicate]; decide)
  rw [parseCsv, init]
  simpa only [List.flatMap_nil, List.append_nil, List.map_nil, List.length_replicate] using this

/-- Parsing recovers the table, when no terminating 0 byte falls on one of the
sizes 1024, 2048, 4096, … of the buffer. (The full property has no such condition.) -/
theorem parse_render_partial (t : List (List Cell × Bool)) (ht : ∀ r ∈ t, RowOk r.1)
    (hb : ∀ r ∈ t, ∀ l₁ c l₂, r.1 = l₁ ++ c :: l₂ → ∀ j, need l₁ + c.text.length ≠ 1024 * 2 ^ j) :
    parseCsv (render t) = some (t.map fun r => texts r.1) := by
  rw [parse_render_exact t ht, if_pos]
  refine fits_of 0 _ fun r hr l₁ c l₂ he j => ?_
  obtain ⟨r', hr', rfl⟩ := List.mem_map.mp hr
  exact hb r' hr' l₁ c l₂ he j

/-- In particular when each row needs at most 1024 bytes. -/
theorem parse_render_short_partial (t : List (List Cell × Bool)) (ht : ∀ r ∈ t, RowOk r.1)
    (hb : ∀ r ∈ t, need r.1 ≤ 1024) : parseCsv (render t) = some (t.map fun r => texts r.1) := by
  refine parse_render_partial t ht fun r hr l₁ c l₂ he j => ?_
  have h1 := hb r hr
  rw [he] at h1
  simp only [need, List.map_append, List.sum_append, List.map_cons, List.sum_cons] at h1 ⊢
  have : 0 < 2 ^ j := Nat.pos_of_ne_zero (by simp)
  omega

/-- The last row need not be ended, if its last cell is written without quotes and is not empty. -/
theorem parse_render_unended_partial (t : List (List Cell × Bool)) (ht : ∀ r ∈ t, RowOk r.1) (r : List Cell) (c : Cell)
    (hr : RowOk r) (hc : r.getLast? = some c) (hq : c.quoted = false) (hne : c.text ≠ [])
    (hb : fits 1024 (t.map (·.1) ++ [r]) = true) :
    parseCsv (render t ++ renderCells r) = some ((t.map fun r => texts r.1) ++ [texts r]) := by
  have := parseFrom_table t ht [r] (.inr ⟨r, c, rfl, hr, hc, hq, hne⟩) (List.replicate 1024 0) [] (by rw [List.length_replicate]; decide)
  rw [List.length_replicate, if_pos hb] at this
  rw [parseCsv, init]
  simpa only [List.flatMap_cons, List.flatMap_nil, List.append_nil, List.map_cons, List.map_nil] using this

/-- A cell of 1024 bytes makes the parser write outside its buffer. -/
theorem not_parse_render : ∃ t : List (List Cell × Bool), (∀ r ∈ t, RowOk r.1) ∧ parseCsv (render t) = none := by
  have h : ∀ r ∈ [([(⟨List.replicate 1024 97, false⟩ : Cell)], false)], RowOk r.1 := by
    intro r hr
    rw [List.mem_singleton.mp hr]
    exact rowOk_long 1024
  refine ⟨_, h, ?_⟩
  rw [parse_render_exact _ h, List.map_cons, List.map_nil, fits_long]
  rfl

/-- Texts on which the parser looks behind the end of its input: a quoted cell
at the very end, an open quote, a comma at the very end, a carriage return at the very end. -/
theorem not_parse_total :
    parseCsv [34, 97, 34] = none ∧ parseCsv [34, 97] = none ∧ parseCsv [97, 44] = none ∧ parseCsv [97, 13] = none := by
  decide +kernel

/-- The empty text has no rows. -/
theorem parse_empty : parseCsv [] = some [] := parseFrom_nil _ _

/-! ### Cases that meet the hypotheses -/

/-- `ab,"c""d,"` and, after CR LF, `` (an empty cell). -/
example : RowOk [⟨[97, 98], false⟩, ⟨[99, 34, 100, 44], true⟩] := by
  refine ⟨by simp, ?_⟩
  intro c hc
  simp only [List.mem_cons, List.not_mem_nil, or_false] at hc
  rcases hc with rfl | rfl
  · exact ⟨by decide, fun _ => ⟨by decide, by decide⟩⟩
  · exact ⟨by decide, fun h => absurd h (by decide)⟩

example : render [([⟨[97, 98], false⟩, ⟨[99, 34, 100, 44], true⟩], true), ([⟨[], false⟩], false)] =
    [97, 98, 44, 34, 99, 34, 34, 100, 44, 34, 13, 10, 10] := by decide

example : parseCsv [97, 98, 44, 34, 99, 34, 34, 100, 44, 34, 13, 10, 10] =
    some [[[97, 98], [99, 34, 100, 44]], [[]]] := by decide +kernel

/-- A row of 1500 bytes is in the scope of `parse_render_partial`. -/
example : ∀ l₁ c l₂, [(⟨List.replicate 1500 97, false⟩ : Cell)] = l₁ ++ c :: l₂ → ∀ j, need l₁ + c.text.length ≠ 1024 * 2 ^ j := by
  intro l₁ c l₂ h j
  obtain ⟨rfl, rfl⟩ := split_one h
  rw [List.length_replicate, need, List.map_nil, List.sum_nil]
  cases j with
  | zero => decide
  | succ j =>
    have : 0 < 2 ^ j := Nat.pos_of_ne_zero (by simp)
    rw [Nat.pow_succ]; omega

end Verif.Csv.Props
