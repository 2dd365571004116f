import Verif.Serial.Lemmas
/-!
# C20 – C22: serialization
-/
namespace Verif.Serial.Props
open Verif.Serial Verif.Serial.Spec Verif.Serial.Lemmas

/-! ## C20 -/

/-- Whatever is written for a value, reading it back into any object of the
type yields the value and leaves exactly the bytes behind it; the archive
stays good and nothing undefined happens. -/
theorem round_trip (t : Ty) (v old : Val t) (bs tail : List UInt8) (hv : WF t v)
    (hold : Shape t old) (hw : Writes t v bs) :
    read t old (archive (bs ++ tail)) = (v, archive tail) :=
  rt_read t v bs tail old false hv hw hold

/-- Every value can be written. -/
theorem writable (t : Ty) (v : Val t) : ∃ bs, Writes t v bs := exists_writes t v

/-- No two values share a serialized form, not even as a prefix. -/
theorem prefix_free (t : Ty) (v w : Val t) (bs cs tail : List UInt8) (hv : WF t v) (hw : WF t w)
    (h1 : Writes t v bs) (h2 : Writes t w cs) (h : bs ++ tail = cs) : v = w ∧ tail = [] := by
  have e1 := round_trip t v (dflt t) bs tail hv (shape_dflt t) h1
  have e2 := round_trip t w (dflt t) cs [] hw (shape_dflt t) h2
  rw [List.append_nil] at e2
  rw [h, e2] at e1
  have := Prod.mk.inj e1
  refine ⟨this.1.symm, ?_⟩
  have h3 := congrArg Strm.rest this.2
  exact h3.symm

/-- Two values written one after the other are read back one after the
other. -/
theorem sequence_round_trip (t t' : Ty) (v old : Val t) (w old' : Val t') (bs cs tail : List UInt8)
    (hv : WF t v) (hw : WF t' w) (ho : Shape t old) (ho' : Shape t' old')
    (h1 : Writes t v bs) (h2 : Writes t' w cs) :
    let r := read t old (archive (bs ++ cs ++ tail))
    r.1 = v ∧ read t' old' r.2 = (w, archive tail) := by
  rw [List.append_assoc]
  simp only [round_trip t v old bs (cs ++ tail) hv ho h1, round_trip t' w old' cs tail hw ho' h2]
  exact ⟨trivial, trivial⟩

/-- The order used to represent maps and sets is the strict total order the
C++ containers need: their keys are distinct exactly when they are unequal. -/
theorem key_order (t : Ty) : (∀ a, vlt t a a = false) ∧
    (∀ a b c, vlt t a b = true → vlt t b c = true → vlt t a c = true) ∧
    (∀ a b, a ≠ b → vlt t a b = true ∨ vlt t b a = true) := by
  refine ⟨(sto_vlt t).irrefl, (sto_vlt t).trans, ?_⟩
  intro a b hab
  by_contra h
  push Not at h
  exact hab ((sto_vlt t).tri a b (by simpa using h.1) (by simpa using h.2))

/-- The limit on sizes is needed: a vector of 2^32 elements is written as an
empty one. -/
theorem size_truncated_fails (t : Ty) (v : Val (.vec t)) (hv : v.length = 2 ^ 32) :
    Writes (.vec t) v (sizeField 0) ∧ Writes (.vec t) [] (sizeField 0) := by
  have e : v.length % 2 ^ 32 = 0 := by omega
  refine ⟨⟨[], ?_, ?_⟩, [], (List.append_nil _).symm, rfl⟩
  · rw [List.append_nil, sizeField, sizeField, e]
  · rw [e, List.take_zero]; rfl

/-- A nested value: a map from strings to vectors of 16-bit numbers. -/
def sample : Val (.map .str (.vec (.prim 2 false))) := [([97], [1, 0x203]), ([98, 99], [])]

example : WF (.map .str (.vec (.prim 2 false))) sample := by
  simp [WF, sample, vlt, listLt]

example : Writes (.map .str (.vec (.prim 2 false))) sample
    [2, 0, 0, 0, 1, 0, 0, 0, 97, 2, 0, 0, 0, 1, 0, 3, 2, 2, 0, 0, 0, 98, 99, 0, 0, 0, 0] := by
  refine ⟨[1, 0, 0, 0, 97, 2, 0, 0, 0, 1, 0, 3, 2, 2, 0, 0, 0, 98, 99, 0, 0, 0, 0], rfl,
    [1, 0, 0, 0, 97, 2, 0, 0, 0, 1, 0, 3, 2], _, rfl,
    ⟨[1, 0, 0, 0, 97], _, rfl, rfl, [1, 0, 3, 2], rfl, [1, 0], _, rfl, rfl, [3, 2], _, rfl, rfl, rfl⟩,
    [2, 0, 0, 0, 98, 99, 0, 0, 0, 0], _, rfl, ⟨[2, 0, 0, 0, 98, 99], _, rfl, rfl, [], rfl, rfl⟩, rfl⟩

example : read (.map .str (.vec (.prim 2 false))) [([7], [5])] (archive
    [2, 0, 0, 0, 1, 0, 0, 0, 97, 2, 0, 0, 0, 1, 0, 3, 2, 2, 0, 0, 0, 98, 99, 0, 0, 0, 0, 42]) =
    (sample, archive [42]) := by decide +kernel

/-! ## C21 -/

/-- If reading from some bytes succeeds, reading from them with more bytes
behind gives the same value and leaves the additional bytes. -/
theorem success_extends (t : Ty) (old : Val t) (p q : List UInt8)
    (h : (read t old (archive p)).2.good = true) :
    ∃ u, (read t old (archive p)).2 = ⟨(read t old (archive p)).2.rest, true, u⟩ ∧
      read t old (archive (p ++ q)) =
        ((read t old (archive p)).1, ⟨(read t old (archive p)).2.rest ++ q, true, u⟩) := by
  refine ⟨(read t old (archive p)).2.ub, ?_, ?_⟩
  · rw [← h]
  · have := (mono_read t).ext old (archive p) q h
    rw [← h]
    exact this

/-- A strict prefix of a serialized value never reads successfully. -/
theorem truncation_detected (t : Ty) (v old : Val t) (bs p q : List UInt8) (hv : WF t v)
    (hold : Shape t old) (hw : Writes t v bs) (hpq : bs = p ++ q) (hq : q ≠ []) :
    (read t old (archive p)).2.good = false := by
  by_contra hg
  obtain ⟨u, _, e⟩ := success_extends t old p q (by simpa using hg)
  have h0 := round_trip t v old bs [] hv hold hw
  rw [List.append_nil, hpq, e] at h0
  have := congrArg Strm.rest (Prod.mk.inj h0).2
  simp only [archive, List.append_eq_nil_iff] at this
  exact hq this.2

/-- Once failed, an archive stays failed. -/
theorem failure_sticky (t : Ty) (old : Val t) (s : Strm) (h : s.good = false) :
    (read t old s).2.good = false := (mono_read t).bad old s h

/-- For types without `bool` and without sets of arithmetic values, reading
arbitrary bytes does nothing undefined. -/
theorem any_bytes_defined (t : Ty) (ht : Safe t) (old : Val t) (bs : List UInt8) :
    (read t old (archive bs)).2.ub = false := noUb_read t ht old (archive bs)

/-- Reading a serialized value that was cut off does nothing undefined, if no set of arithmetic values occurs in its type; truth
values, of which not every byte is one, may occur. -/
theorem prefix_defined (t : Ty) (ht : NoJunk t) (v old : Val t) (bs p q : List UInt8) (hv : WF t v)
    (hold : Shape t old) (hw : Writes t v bs) (hpq : bs = p ++ q) :
    (read t old (archive p)).2.ub = false := by
  cases e : (read t old (archive p)).2.ub with
  | false => rfl
  | true =>
    have h := (tame_read t ht old).ubExt (archive p) q e
    have h0 := round_trip t v old bs [] hv hold hw
    rw [List.append_nil, hpq] at h0
    have h1 : app (archive p) q = archive (p ++ q) := rfl
    rw [h1, h0] at h
    cases h

example : NoJunk (.map .str (.pair .bool (.vec .bool))) ∧ (read (.vec .bool) [] (archive [2, 0, 0, 0, 1])).2 = ⟨[], false, false⟩ :=
  ⟨⟨trivial, trivial, trivial⟩, by decide +kernel⟩

/-- Whatever the bytes, the object read into is afterwards a proper value of
its type: keys of maps and sets are distinct, arrays have their length. -/
theorem any_bytes_well_formed (t : Ty) (old : Val t) (hold : Shape t old) (bs : List UInt8) :
    WF t (read t old (archive bs)).1 := gives_read t old _ hold

/-- Hence anything read successfully or not can be written and read again. -/
theorem reread (t : Ty) (old old' : Val t) (hold : Shape t old) (hold' : Shape t old')
    (bs cs tail : List UInt8) (h : Writes t (read t old (archive bs)).1 cs) :
    read t old' (archive (cs ++ tail)) = ((read t old (archive bs)).1, archive tail) :=
  round_trip t _ old' cs tail (any_bytes_well_formed t old hold bs) hold' h

/-- The exclusion is needed: a truncated `set<int>` inserts an indeterminate
value. -/
theorem truncated_set_ub : ∃ (bs p q : List UInt8) (v : Val (.set (.prim 4 true))),
    WF (.set (.prim 4 true)) v ∧ Writes (.set (.prim 4 true)) v bs ∧ bs = p ++ q ∧
    (read (.set (.prim 4 true)) [] (archive p)).2.ub = true :=
  ⟨[1, 0, 0, 0, 5, 0, 0, 0], [1, 0, 0, 0, 5], [0, 0, 0], [5], by simp [WF],
    ⟨[5, 0, 0, 0], rfl, [5, 0, 0, 0], [], rfl, rfl, rfl⟩, rfl, by decide +kernel⟩

example : Safe (.map .str (.vec (.pair (.prim 8 true) .str))) := ⟨trivial, trivial, trivial⟩

example : (read (.vec .str) [] (archive [2, 0, 0, 0, 1, 0, 0, 0, 65, 2, 0, 0, 0, 66])).2.good = false := by
  decide +kernel

/-- Malformed archive with a key twice: the first one stays. -/
example : read (.map .bool .bool) [] (archive [2, 0, 0, 0, 1, 0, 1, 1]) = ([(true, false)], archive []) := by
  decide +kernel

/-! ## C22 -/

/-- Any data embedded in an archive is recovered exactly, and reading stops
right behind it. -/
theorem embed_round_trip (data tail : List UInt8) (fuel : Nat) (hf : data.length < fuel) :
    unescape fuel 0 0 [] (archive (escape data ++ tail)) = some (data, archive tail) := by
  obtain ⟨k, rfl⟩ : ∃ k, fuel = (1 + data.length) + k := ⟨fuel - (1 + data.length), by omega⟩
  apply unescape_fuel_mono
  obtain ⟨a, b, e⟩ := unescape_esc data 1 0 0 [] ([0xff, 0x00] ++ tail) false
  have h : escape data ++ tail = esc data ++ ([0xff, 0x00] ++ tail) := by simp [escape, esc]
  rw [archive, h, e]
  simp [unescape, readChar_cons, archive]

/-- No embedded form is a prefix of another: the end marker cannot be
confused with data. -/
theorem embed_prefix_free (d e tail : List UInt8) (h : escape d ++ tail = escape e) :
    d = e ∧ tail = [] := by
  have h1 := embed_round_trip d tail (d.length + e.length + 1) (by omega)
  have h2 := embed_round_trip e [] (d.length + e.length + 1) (by omega)
  rw [List.append_nil, ← h, h1] at h2
  have := Prod.mk.inj (Option.some.inj h2)
  exact ⟨this.1, congrArg Strm.rest this.2⟩

/-- Escaping at most doubles the data and adds two bytes. -/
theorem embed_size (d : List UInt8) : d.length + 2 ≤ (escape d).length ∧
    (escape d).length ≤ 2 * d.length + 2 := by
  have : d.length ≤ (esc d).length ∧ (esc d).length ≤ 2 * d.length := by
    induction d with
    | nil => simp [esc]
    | cons x xs ih =>
      simp only [esc, List.flatMap_cons, List.length_append, List.length_cons] at ih ⊢
      split <;> simp only [List.length_cons, List.length_nil] <;> omega
  simp only [escape, esc, List.length_append, List.length_cons, List.length_nil] at this ⊢
  omega

/-- An embedded stream cut before its end marker is not reported: the reader
never ends. -/
theorem truncated_embed_diverges (d : List UInt8) (fuel : Nat) :
    unescape fuel 0 0 [] (archive (d.flatMap (fun c => if c = 0xff then [0xff, 0xff] else [c]))) =
      none := by
  have key : unescape (fuel + 1 + d.length) 0 0 [] (archive (esc d ++ [])) = none := by
    rw [archive, unescape_esc']
    have hnot : ¬ (d.getLast?.getD 0 = 0xff ∧ (if (0xff : UInt8) ∈ d then (0xff : UInt8) else 0) = 0) := by
      rintro ⟨h1, h2⟩
      cases hd : d.getLast? with
      | none => rw [hd] at h1; cases h1
      | some z =>
        rw [hd] at h1
        simp only [Option.getD_some] at h1
        subst h1
        have : (0xff : UInt8) ∈ d := List.mem_of_getLast? hd
        rw [if_pos this] at h2
        cases h2
    simp only [unescape, readChar_empty]
    by_cases h0 : d.getLast?.getD 0 = 0xff
    · rw [if_pos h0, readChar_bad _ rfl]
      simp only
      rw [if_neg (fun h => hnot ⟨h0, h⟩)]
      exact unescape_bad _ _ _ _ _ rfl (by rw [h0] at hnot ⊢; exact hnot)
    · rw [if_neg h0]
      exact unescape_bad _ _ _ _ _ rfl hnot
  rw [List.append_nil] at key
  cases hr : unescape fuel 0 0 [] (archive (esc d)) with
  | none => exact hr
  | some r =>
    have := unescape_fuel_mono fuel (1 + d.length) 0 0 [] _ r hr
    rw [← Nat.add_assoc, key] at this
    cases this

/-- A stream without `0xff` that is cut in the middle of its end marker is
silently accepted as complete, with the archive in the failed state. -/
theorem cut_marker_accepted : unescape 3 0 0 [] (archive [65, 0xff]) =
    some ([65], ⟨[], false, false⟩) := by decide

example : escape [1, 0xff, 0, 0xff] = [1, 0xff, 0xff, 0, 0xff, 0xff, 0xff, 0] := by decide

example : unescape 9 0 0 [] (archive (escape [1, 0xff, 0, 0xff] ++ [7, 8])) =
    some ([1, 0xff, 0, 0xff], archive [7, 8]) := by decide

end Verif.Serial.Props
