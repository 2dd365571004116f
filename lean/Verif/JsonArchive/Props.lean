import Verif.Json.Props
import Verif.JsonCast.Props
import Verif.JsonArchive.Spec
/-! # C72: JSON archives -/

set_option linter.unusedSectionVars false

namespace Verif.JsonArchive.Props
open Verif.Json Verif.Json.Spec Verif.Json.Lemmas Verif.JsonCast Verif.JsonCast.Spec Verif.JsonArchive Verif.JsonArchive.Spec Verif.Ustring.Spec

variable {F : Type} [Floats F]

/-- For the examples. -/
local instance : Floats Nat := ⟨Int.toNat, id⟩

/-- What is written is a text of the value and a line feed. -/
private theorem put_text (strtod : List Nat → Option F) (showF : F → Str) (pretty escape : Bool) (x : Item F) (h : Printable strtod showF (toJson x.1 x.2)) :
    ∃ t, put showF pretty escape x = bytes (t ++ [10]) ∧ (∀ c ∈ t ++ [10], Scalar c) ∧ Text strtod (toJson x.1 x.2) t := by
  have e : [10] = bytes [10] := by decide
  have key : ∀ s, Prints strtod s (toJson x.1 x.2) → ∃ t, s ++ [10] = bytes (t ++ [10]) ∧ (∀ c ∈ t ++ [10], Scalar c) ∧ Text strtod (toJson x.1 x.2) t := by
    rintro s ⟨t, h1, h2, h3, _⟩
    refine ⟨t, ?_, scal_app h2 (by simp [Scalar]), h3⟩
    rw [h1, bytes_append]
    exact congrArg (bytes t ++ ·) e
  unfold put
  cases pretty with
  | false => exact key _ (print_prints strtod showF escape _ h)
  | true =>
    obtain ⟨t, h1, h2, h3⟩ := key _ (pretty_prints strtod showF escape _ 0 h)
    exact ⟨t, by rw [← h1]; exact List.append_nil _, h2, h3⟩

/-- Reading the next value: it is the one that was written, and what is left is what follows, but for the line feed, which may be gone. -/
private theorem get_text (strtod : List Nat → Option F) (toF : Int → F) (v : Value F) (hn : norm v = v) (w t rest : List Nat) (hw : w = [] ∨ w = [10]) (ht : Text strtod v t)
    (t' : Ty) : ∃ w', (w' = [] ∨ w' = [10]) ∧ get strtod toF t' (w ++ (t ++ 10 :: rest)) = Got.ofCast (fromJson toF t' v) (w' ++ rest) := by
  obtain ⟨s', h1, h2⟩ := parseFrom_text strtod v ⟨none, w ++ (t ++ 10 :: rest)⟩ w t (10 :: rest)
    (by intro c hc; rcases hw with rfl | rfl <;> simp at hc; subst hc; exact .inr (by decide)) ht rfl (by simp [Ends, Digit]) (by simp)
  unfold get
  rw [h1, hn]
  dsimp only
  unfold view at h2
  cases hc : s'.cbuf with
  | none =>
    rw [hc] at h2
    exact ⟨[10], .inr rfl, by rw [show s'.rest = [10] ++ rest from h2]⟩
  | some c =>
    rw [hc] at h2
    exact ⟨[], .inl rfl, by rw [show s'.rest = [] ++ rest from (List.cons.inj h2).2]⟩

private theorem getAll_put (strtod : List Nat → Option F) (toF : Int → F) (showF : F → Str) (pretty escape : Bool) (xs : List (Item F))
    (h : ∀ x ∈ xs, Storable strtod showF x) :
    ∃ text, putAll showF pretty escape xs = bytes text ∧ (∀ c ∈ text, Scalar c) ∧
      ∀ w, w = [] ∨ w = [10] → ∃ w', (w' = [] ∨ w' = [10]) ∧ getAll strtod toF (xs.map (·.1)) (w ++ text) = some (xs, w') := by
  induction xs with
  | nil => exact ⟨[], rfl, by simp, fun w hw => ⟨w, hw, by rw [List.append_nil]; rfl⟩⟩
  | cons x xs ih =>
    obtain ⟨text, i1, i2, i3⟩ := ih (fun x hx => h x (by simp [hx]))
    obtain ⟨hg, hp⟩ := h x (by simp)
    obtain ⟨t, h1, h2, h3⟩ := put_text strtod showF pretty escape x hp
    refine ⟨t ++ [10] ++ text, ?_, scal_app h2 i2, fun w hw => ?_⟩
    · rw [putAll, h1, i1, ← bytes_append]
    · obtain ⟨w₁, hw₁, hget⟩ := get_text strtod toF _ (norm_printable strtod showF _ hp) w t text hw h3 x.1
      obtain ⟨w₂, hw₂, hrest⟩ := i3 w₁ hw₁
      refine ⟨w₂, hw₂, ?_⟩
      rw [show w ++ (t ++ [10] ++ text) = w ++ (t ++ 10 :: text) by simp, List.map_cons, getAll, hget, JsonCast.Props.cast_roundtrip toF x.1 x.2 hg]
      show (getAll strtod toF (xs.map (·.1)) (w₁ ++ text)).map _ = _
      rw [hrest]
      rfl

private theorem get_end (strtod : List Nat → Option F) (toF : Int → F) (t : Ty) (w : List Nat) (hw : w = [] ∨ w = [10]) : get strtod toF t w = .exc .eod := by
  rcases hw with rfl | rfl <;> rfl

/-- **What is put into an archive one after the other comes out in the same order**, with or without pretty printing and escapes, for all types; then the end
of the data is reported. -/
theorem archive_roundtrip (strtod : List Nat → Option F) (toF : Int → F) (showF : F → Str) (bad : List UInt8 → Nat) (pretty escape : Bool) (xs : List (Item F))
    (h : ∀ x ∈ xs, Storable strtod showF x) :
    ∃ rest, getAll strtod toF (xs.map (·.1)) (decodeAll bad (putAll showF pretty escape xs)) = some (xs, rest) ∧ ∀ t, get strtod toF t rest = .exc .eod := by
  obtain ⟨text, h1, h2, h3⟩ := getAll_put strtod toF showF pretty escape xs h
  obtain ⟨w', hw, hg⟩ := h3 [] (.inl rfl)
  exact ⟨w', by rw [h1, decodeAll_bytes bad text h2]; exact hg, fun t => get_end strtod toF t w' hw⟩

/-- **A value that is read as the wrong type is passed over**: `json_bad_cast` is thrown, and what follows can still be read. In general, whatever type is asked for,
the outcome is that of the conversion from the value that was written. -/
theorem wrong_type_passed (strtod : List Nat → Option F) (toF : Int → F) (showF : F → Str) (bad : List UInt8 → Nat) (pretty escape : Bool) (x : Item F)
    (hp : Printable strtod showF (toJson x.1 x.2)) (xs : List (Item F)) (h : ∀ x ∈ xs, Storable strtod showF x) (t : Ty) :
    ∃ rest, (∀ y, fromJson toF t (toJson x.1 x.2) = some y → get strtod toF t (decodeAll bad (putAll showF pretty escape (x :: xs))) = .value y rest) ∧
      (fromJson toF t (toJson x.1 x.2) = none → get strtod toF t (decodeAll bad (putAll showF pretty escape (x :: xs))) = .badCast rest) ∧
      ∃ rest', getAll strtod toF (xs.map (·.1)) rest = some (xs, rest') := by
  obtain ⟨text, h1, h2, h3⟩ := getAll_put strtod toF showF pretty escape xs h
  obtain ⟨s, g1, g2, g3⟩ := put_text strtod showF pretty escape x hp
  obtain ⟨w₁, hw₁, hget⟩ := get_text strtod toF _ (norm_printable strtod showF _ hp) [] s text (.inl rfl) g3 t
  obtain ⟨w₂, _, hrest⟩ := h3 w₁ hw₁
  have e : get strtod toF t (decodeAll bad (putAll showF pretty escape (x :: xs))) = Got.ofCast (fromJson toF t (toJson x.1 x.2)) (w₁ ++ text) := by
    rw [putAll, g1, h1, ← bytes_append, decodeAll_bytes bad _ (scal_app g2 h2), show s ++ [10] ++ text = [] ++ (s ++ 10 :: text) by simp]
    exact hget
  exact ⟨w₁ ++ text, fun y hy => by rw [e, hy]; rfl, fun hn => by rw [e, hn]; rfl, w₂, hrest⟩

/-- A number, a list and a string, without floating point numbers. -/
example : ∀ x ∈ ([⟨.int, (7 : Int)⟩, ⟨.vec .int, [(1 : Int), (2 : Int)]⟩, ⟨.str, ([104, 105] : Str)⟩] : List (Item Nat)), Storable Json.Props.noFloat Json.Props.showHalf x := by
  intro x hx
  simp only [List.mem_cons, List.not_mem_nil, or_false] at hx
  rcases hx with rfl | rfl | rfl
  · exact ⟨by simp [Good], by simp [toJson, Printable, IsInt64]⟩
  · exact ⟨by simp [Good], by simp [toJson, Printable, PrintableL, IsInt64]⟩
  · exact ⟨by simp [Good], by
      simp only [toJson, Printable]
      exact (goodStr_iff _).mpr ⟨[104, 105], by simp [Scalar], by decide⟩⟩

/-- What they look like, and how they are read: the line feed behind the 7 is gone, the others are skipped. -/
example : putAll Json.Props.showHalf false true ([⟨.int, (7 : Int)⟩, ⟨.vec .int, [(1 : Int), (2 : Int)]⟩] : List (Item Nat)) = "7\n[1,2]\n".toUTF8.data.toList ∧
    get Json.Props.noFloat Int.toNat .int [55, 10, 91, 49, 93, 10] = .value (7 : Int) [91, 49, 93, 10] := by
  refine ⟨by decide +kernel, by rfl⟩

/-- Without the line feed this would not be so: reading a number with `operator>>` takes one more character from the stream, and it is lost. Here it is the bracket
that begins the next value. -/
theorem number_takes_more : get Json.Props.noFloat Int.toNat .int [55, 91, 49, 93] = .value (7 : Int) [49, 93] := by
  rfl

end Verif.JsonArchive.Props
