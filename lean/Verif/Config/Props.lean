import Verif.Config.Lemmas
/-!
# Properties of configuration files (C18)
-/
namespace Verif.Config.Props
open Verif.Config Verif.Config.Spec Verif.Config.Lemmas

/-- **C18, line format.** A line is accepted with a meaning exactly when the
format gives it that meaning. -/
theorem line_iff (n : Nat) (l : Str) (it : Item) :
    parseLine n l = .ok it ↔ LineIs (visible l) it :=
  ⟨lineIs_of_parseLine, parseLine_of_lineIs⟩

/- `  [net] ` and `k = "a b" `. -/
example : parseLine 1 [32, 91, 110, 101, 116, 93, 32] = .ok (.sectionHead [110, 101, 116]) ∧
    parseLine 1 [107, 32, 61, 32, 34, 97, 32, 98, 34, 32] = .ok (.assign [107] [97, 32, 98]) := by
  decide

/-- **C18, lines.** The lines the loader sees are the lines of the file. -/
theorem lines_iff (s : Str) (ls : List Str) : getLines s = ls ↔ IsLines s ls :=
  ⟨fun h => h ▸ isLines_getLines s, fun h => isLines_unique (isLines_getLines s) h⟩

example : IsLines [97, 10, 10, 98] [[97], [], [98]] ∧ IsLines [97, 10] [[97]] :=
  ⟨(lines_iff _ _).mp (by decide +kernel), (lines_iff _ _).mp (by decide +kernel)⟩

/-- **C18, last assignment wins.** A file whose lines all have a meaning is
loaded, and every section/key then holds the last value assigned to it, and
nothing else (an absent key reads as the empty string). -/
theorem load_last (s : Str) (ls : List Str) (its : List Item) (hl : IsLines s ls)
    (h : List.Forall₂ (fun l it => LineIs (visible l) it) ls its) :
    ∃ d, load s = .ok d ∧
      (∀ sec key, get? d sec key = lastValue sec key (assignments [] its)) ∧
      (∀ sec key, get d sec key = (lastValue sec key (assignments [] its)).getD []) := by
  obtain ⟨d, h1, h2⟩ := initLoop_ok ls its 1 [] [] h
  refine ⟨d, ?_, ?_, ?_⟩
  · rw [load, (lines_iff s ls).mpr hl, h1]
  · intro sec key
    rw [h2]
    simp [get?, AssocMap.find]
  · intro sec key
    rw [get_eq, h2]
    simp [get?, AssocMap.find]

/- `a=1\n;x\n[s]\na=2\na=3`: the global `a` is 1 and `[s] a` is 3. -/
example : (load [97, 61, 49, 10, 59, 120, 10, 91, 115, 93, 10, 97, 61, 50, 10, 97, 61, 51]).map
    (fun d => (get d [] [97], get d [115] [97], get d [115] [98])) = .ok ([49], [51], []) := by
  decide +kernel

/-- **C18, errors.** If some line has no meaning, loading fails with a parse
error that carries the number (from 1) of the first such line. -/
theorem load_error (s : Str) (pre : List Str) (bad : Str) (post : List Str)
    (hl : IsLines s (pre ++ bad :: post)) (hpre : ∀ l ∈ pre, WellFormed l)
    (hbad : ¬ WellFormed bad) :
    ∃ e, load s = .error e ∧ e.lineno = pre.length + 1 := by
  obtain ⟨e, h1, h2, -⟩ := initLoop_bad pre bad post 1 [] [] hpre hbad
  exact ⟨e, by rw [load, (lines_iff s _).mpr hl, h1], by omega⟩

/- `a=1\nnonsense\n`. -/
example : load [97, 61, 49, 10, 110, 111, 10] = .error ⟨2, 2, .equalMissing⟩ := by decide +kernel

/-- **C18, error position.** The position in the error is the length of the
line when a `]` or `=` is missing, and otherwise points at the offending
character: the first non-space after the first `]` of a section line. -/
theorem error_position (n : Nat) (l : Str) (e : ParseError) (h : parseLine n l = .error e) :
    (e.msg = .invalidCharacter ∧ ∃ ws name ws' c rest, Space ws ∧ 93 ∉ name ∧ Space ws' ∧
        ¬ Blank c ∧ visible l = ws ++ [91] ++ name ++ [93] ++ ws' ++ [c] ++ rest ∧
        e.pos = (ws ++ [91] ++ name ++ [93] ++ ws').length) ∨
      (e.msg = .bracketMissing ∧ (∃ ws rest, Space ws ∧ visible l = ws ++ [91] ++ rest) ∧ 93 ∉ visible l ∧ e.pos = l.length) ∨
      (e.msg = .equalMissing ∧ (∃ ws c rest, Space ws ∧ ¬ Blank c ∧ c ≠ 91 ∧ c ≠ 59 ∧ visible l = ws ++ [c] ++ rest) ∧ 61 ∉ visible l ∧
        e.pos = l.length) := by
  unfold parseLine at h
  unfold visible
  generalize l.takeWhile (· ≠ 0) = st at *
  simp only [skipSpaces] at h
  obtain ⟨ws, h1, h2, h3⟩ := split_space st
  cases hp : st.dropWhile isSpace with
  | nil => rw [hp] at h; cases h
  | cons c p =>
    rw [hp] at h h2
    simp only [] at h
    have hws (b : UInt8) (hb : ¬ Blank b) : b ∈ st ↔ b ∈ c :: p := by
      rw [h2, List.mem_append]
      exact ⟨fun h => h.resolve_left fun h => hb (h1 b h), .inr⟩
    split at h
    · cases h
    · next e59 =>
      split at h
      · next e91 =>
        subst e91
        split at h
        · next hs => cases h; exact .inr (.inl ⟨rfl, ⟨ws, p, h1, by simpa using h2⟩, mt (hws 93 (by decide)).1 (strchr_none.mp hs), rfl⟩)
        · next before after hs =>
          obtain ⟨e1, e2⟩ := strchr_some.mp hs
          split at h
          · cases h
          · next q hq =>
            cases h
            left
            obtain ⟨ws', g1, g2, g3⟩ := split_space after
            cases before with
            | nil => simp at e1
            | cons x xs =>
              simp only [List.cons_append, List.cons.injEq] at e1
              obtain ⟨rfl, e1⟩ := e1
              cases hd : after.dropWhile isSpace with
              | nil => exact absurd hd hq
              | cons y ys =>
                rw [hd] at g2 g3
                refine ⟨rfl, ws, xs, ws', y, ys, h1, fun hm => e2 (by simp [hm]), g1, isSpace_false.1 (g3 y rfl), ?_, ?_⟩
                · rw [h2, e1, g2]; simp
                · rw [h2, e1]
                  conv => lhs; rw [g2]
                  simp only [List.length_append, List.length_cons, List.length_nil]
                  omega
      · split at h
        · next hs => cases h; exact .inr (.inr ⟨rfl, ⟨ws, c, p, h1, isSpace_false.1 (h3 c (by rw [hp]; rfl)), ‹_›, ‹_›, by simpa using h2⟩,
            mt (hws 61 (by decide)).1 (strchr_none.mp hs), rfl⟩)
        · cases h

/- `[a] x`. -/
example : parseLine 4 [91, 97, 93, 32, 120] = .error ⟨4, 4, .invalidCharacter⟩ := by decide

/-- **C18, read back what was written.** Writing a document with quoted
values and loading it gives every key the last value written for it, whatever
bytes (other than newline and NUL) the values contain. -/
theorem write_read (d : Doc) (hd : DocOk d) :
    ∃ m, load (render d) = .ok m ∧
      ∀ sec key, get? m sec key = lastValue sec key (docAssignments d) := by
  obtain ⟨m, h1, h2, -⟩ := load_last (render d) (docLines d) (docItems d) (isLines_render d hd)
    (lineIs_doc d hd)
  refine ⟨m, h1, fun sec key => ?_⟩
  rw [h2, assignments_doc]

example : DocOk [([115], [([107], [32, 34, 61, 32])])] := by
  intro s hs
  simp only [List.mem_singleton] at hs
  subst hs
  refine ⟨by simp, fun kv hkv => ?_⟩
  simp only [List.mem_singleton] at hkv
  subst hkv
  refine ⟨⟨⟨?_, ?_⟩, by simp⟩, by simp⟩
  · intro b hb; simp at hb; subst hb; decide
  · intro b hb; simp at hb; subst hb; decide

end Verif.Config.Props
