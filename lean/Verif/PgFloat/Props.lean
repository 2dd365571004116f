import Verif.PgFloat.Lemmas
/-!
# C70: floating point columns and arguments of PostgreSQL

A finite `double` is 64 bits and the rational number they stand for. 700 and 701 are the columns of type `real` and `double precision`.
-/
namespace Verif.PgFloat.Props
open Verif.Double Verif.Double.Lemmas Verif.Double.Spec Verif.Postgres Verif.PgFloat Verif.PgFloat.Spec Verif.PgFloat.Lemmas Verif.LexFloat.Lemmas
open Verif.LexFloat.Spec (Begins Nearest)
open Verif.FloatText.Lemmas (dist_eq)

variable (memory : Option Bool) (zone : Calendar.Zone) (mktime : Calendar.Tm → Int)

/-- C70: bits stand for one number with one sign, and a number with its sign has one pattern of bits. -/
theorem one_double {d d' : UInt64} {n n' : Bool} {x x' : Rat} (h : IsDouble d n x) (h' : IsDouble d' n' x') : d = d' ↔ n = n' ∧ x = x' := by
  constructor
  · rintro rfl
    exact double_unique h h'
  · rintro ⟨rfl, rfl⟩
    exact bits_unique h h'

/-- 1.5 -/
example : IsDouble 0x3FF8000000000000 false (3 / 2) :=
  ⟨2 ^ 52 + 2 ^ 51, -52, ⟨0, 1023, 2 ^ 51, by decide, by decide, by decide, by decide, by decide, .inr ⟨by decide, rfl, by decide⟩⟩, by decide +kernel⟩

/-- C70: the text of a floating point column that begins with a number is read as the nearest `double`; if there is none, since the number is too
large, fetching the row fails. -/
theorem column_nearest {t : Nat} (ht : t = 700 ∨ t = 701) {s : Sql.Str} (h0 : 0 ∉ s) {q : Rat} (h : Begins s q) :
    if dist 0 q < (2 : Rat) ^ 1024 - (2 : Rat) ^ 970 then
      ∃ d n y, strToSql (env memory zone mktime) t (some s) = .ok (some (.float d)) ∧ IsDouble d n y ∧ Nearest F64 q y
    else strToSql (env memory zone mktime) t (some s) = .error .badCast := by
  have hd := double_begins h
  rw [bound] at hd
  rw [dist_eq, sub_zero, column memory zone mktime ht h0]
  split at hd
  · rw [if_pos ‹_›]
    obtain ⟨d, h1, h2, h3⟩ := hd
    exact ⟨d, _, _, by rw [h1], h2, h3⟩
  · rw [if_neg ‹_›, hd]

/-- `-2.5` and `1e400`. -/
example : (∃ q, Begins [45, 50, 46, 53] q) ∧ strToSql (env none ⟨fun _ => 0, fun _ => false⟩ (fun _ => 0)) 701 (some [45, 50, 46, 53]) = .ok (some (.float 0xC004000000000000)) ∧
    strToSql (env none ⟨fun _ => 0, fun _ => false⟩ (fun _ => 0)) 700 (some [49, 101, 52, 48, 48]) = .error .badCast := by
  refine ⟨get_back (F := F64) (y := -5 / 2) ?_, ?_, ?_⟩ <;> decide +kernel

/-- C70: the sign is that of the text, also for zero. -/
theorem column_sign {s : Sql.Str} {q : Rat} (h : Begins s q) {d : UInt64} (hd : double s = some d) :
    ∃ y, IsDouble d ((s.dropWhile Lexical.isspace).head? = some 45) y := by
  have hb := double_begins h
  split at hb
  · obtain ⟨d', h1, h2, _⟩ := hb
    rw [hd] at h1
    cases h1
    exact ⟨_, h2⟩
  · rw [hd] at hb
    cases hb

/-- `-0.0` -/
example : double [45, 48, 46, 48] = some 0x8000000000000000 := by decide +kernel

/-- C70: a text that does not begin with a number is refused. -/
theorem column_refused {t : Nat} (ht : t = 700 ∨ t = 701) {s : Sql.Str} (h0 : 0 ∉ s) (h : ∀ q, ¬ Begins s q) :
    strToSql (env memory zone mktime) t (some s) = .error .badCast := by
  rw [column memory zone mktime ht h0]
  have : double s = none := by
    unfold double
    cases hg : LexFloat.floatOfString F64 s with
    | none => rfl
    | some y =>
      obtain ⟨q, hq⟩ := get_back (F := F64) hg
      exact absurd hq (h q)
  rw [this]

/-- C70: `NaN`, `Infinity` and `-Infinity`, which the server sends for such numbers, are refused. Since the row stays the next one, no row after it can
be fetched either, however often one tries. -/
theorem special_blocks {t : Nat} (ht : t = 700 ∨ t = 701) {s : Sql.Str} (hs : s ∈ ["NaN", "Infinity", "-Infinity"].map (·.toUTF8.data.toList))
    {rows rows' : List (List (Option Sql.Str))} (n : Nat) :
    Statement.fetchMany (env memory zone mktime) n ⟨some ⟨some ⟨[t], rows ++ [some s] :: rows'⟩, rows.length⟩⟩ = List.replicate n (.error .badCast) := by
  have hc : strToSql (env memory zone mktime) t (some s) = .error .badCast := by
    have : 0 ∉ s ∧ double s = none := by
      revert s
      decide +kernel
    rw [column memory zone mktime ht this.1, this.2]
  have hf : Result.fetchRow (env memory zone mktime) ⟨some ⟨[t], rows ++ [some s] :: rows'⟩, rows.length⟩ =
      (.error .badCast, ⟨some ⟨[t], rows ++ [some s] :: rows'⟩, rows.length⟩) := by
    unfold Result.fetchRow Result.rowNum
    simp [readRow, hc]
  induction n with
  | zero => rfl
  | succ n ih =>
    rw [Statement.fetchMany, List.replicate_succ]
    have : Statement.fetchRow (env memory zone mktime) ⟨some ⟨some ⟨[t], rows ++ [some s] :: rows'⟩, rows.length⟩⟩ =
        (.error .badCast, ⟨some ⟨some ⟨[t], rows ++ [some s] :: rows'⟩, rows.length⟩⟩) := by
      rw [Statement.fetchRow]
      simp only [hf]
    rw [this]
    exact congrArg _ ih

/-! ## There and back -/

/-- C70: a finite `double` that is given as an argument and shown in a column comes back as the `double` nearest to its rounding to ten digits behind
the point. -/
theorem round_trip {d : UInt64} {n : Bool} {x : Rat} (h : IsDouble d n x) :
    ∃ text q, param zone (some (.float d)) = .ok (some text) ∧ Begins text q ∧ (∃ k : Int, q = k / 10 ^ 10) ∧ dist x q ≤ 1 / 2 / 10 ^ 10 ∧
      ∀ s, Shows s q → ∃ d' n' y, strToSql (env memory zone mktime) 701 (some s) = .ok (some (.float d')) ∧ IsDouble d' n' y ∧ Nearest F64 q y := by
  obtain ⟨k, h1, h2, h3, _⟩ := sent h
  have hsg := sign_le h
  refine ⟨fixed d, _, by simp only [param, sqlToStr, Postgres.Lemmas.cstr_id h3], h1, ⟨if n then -k else k, ?_⟩, ?_, ?_⟩
  · cases n
    · simp
    · simp [neg_div]
  · have h4 := abs_le.1 h2
    rw [dist_eq]
    have e : |x - (if n = true then -1 else 1) * ((k : Rat) / 10 ^ 10)| = |(abs x) - (k : Rat) / 10 ^ 10| := by
      cases n
      · rw [abs_of_nonneg (hsg.2 rfl)]
        simp
      · rw [abs_of_nonpos (hsg.1 rfl), ← abs_neg]
        congr 1
        simp
        ring
    first
      | rw [e]
      | rw [abs_sub_comm, e]
    rw [abs_le]
    have : (k : Rat) = (k : Rat) / 10 ^ 10 * 10 ^ 10 := by field_simp
    rw [this] at h4
    norm_num at h4 ⊢
    constructor <;> linarith
  · rintro s ⟨h0, q', hq', he⟩
    obtain ⟨d', n', g1, g2, g3⟩ := back h h1 hq' he
    exact ⟨d', n', _, by rw [column memory zone mktime (.inr rfl) h0, g1], g2, g3⟩

/-- C70: a number comes back unchanged exactly if it is the rounding of a number with ten digits behind the point. -/
theorem kept {d : UInt64} {n : Bool} {x : Rat} (h : IsDouble d n x) {text : Sql.Str} (ht : param zone (some (.float d)) = .ok (some text)) {q : Rat}
    (hq : Begins text q) {s : Sql.Str} (hs : Shows s q) :
    (∃ d' n', strToSql (env memory zone mktime) 701 (some s) = .ok (some (.float d')) ∧ IsDouble d' n' x) ↔ ∃ k : Int, x = rnd F64 (k / 10 ^ 10) := by
  obtain ⟨_, _, _, h3, _⟩ := sent h
  simp only [param, sqlToStr, Postgres.Lemmas.cstr_id h3, Except.ok.injEq, Option.some.injEq] at ht
  subst ht
  obtain ⟨h0, q', hq', he⟩ := hs
  obtain ⟨d', n', g1, g2, _⟩ := back h hq hq' he
  rw [← kept_iff h hq, column memory zone mktime (.inr rfl) h0, g1]
  constructor
  · rintro ⟨d'', n'', e, hd⟩
    cases e
    exact (double_unique g2 hd).2
  · intro e
    rw [e] at g2
    exact ⟨_, _, rfl, g2⟩

/-- C70: every number from 2^19 on comes back unchanged. -/
theorem large_kept {d : UInt64} {n : Bool} {x : Rat} (h : IsDouble d n x) (hx : 2 ^ 19 ≤ dist 0 x) {text : Sql.Str}
    (ht : param zone (some (.float d)) = .ok (some text)) {q : Rat} (hq : Begins text q) {s : Sql.Str} (hs : Shows s q) :
    ∃ d' n', strToSql (env memory zone mktime) 701 (some s) = .ok (some (.float d')) ∧ IsDouble d' n' x := by
  rw [dist_eq, sub_zero] at hx
  obtain ⟨_, _, _, h3, _⟩ := sent h
  have ht' := ht
  simp only [param, sqlToStr, Postgres.Lemmas.cstr_id h3, Except.ok.injEq, Option.some.injEq] at ht
  subst ht
  exact (kept memory zone mktime h ht' hq hs).2 ((kept_iff h hq).1 (kept_large h hx hq))

/-- C70: the text itself is one by which the server may show the number; so 0.1 comes back, 1/3 does not. -/
theorem echo : param zone (some (.float 0x3FB999999999999A)) = .ok (some "0.1000000000".toUTF8.data.toList) ∧
    double "0.1000000000".toUTF8.data.toList = some 0x3FB999999999999A ∧
    param zone (some (.float 0x3FD5555555555555)) = .ok (some "0.3333333333".toUTF8.data.toList) ∧
    double "0.3333333333".toUTF8.data.toList = some 0x3FD55555554C2BB5 := by
  refine ⟨?_, by decide +kernel, ?_, by decide +kernel⟩
  · exact congrArg (fun s => Except.ok (some s)) (show cstr (fixed 0x3FB999999999999A) = _ by decide +kernel)
  · exact congrArg (fun s => Except.ok (some s)) (show cstr (fixed 0x3FD5555555555555) = _ by decide +kernel)

/-- 0.1 and a million and a third are as the theorems ask; 0.1 is shown by its own text. -/
example : IsDouble 0x3FB999999999999A false (rnd F64 (1 / 10)) ∧ (∃ k : Int, rnd F64 (1 / 10) = rnd F64 (k / 10 ^ 10)) ∧
    (∃ q, Begins "0.1000000000".toUTF8.data.toList q ∧ Shows "0.1000000000".toUTF8.data.toList q) ∧
    IsDouble 0x412E8480AAAAAAAB false (rnd F64 (3000001 / 3)) ∧ 2 ^ 19 ≤ dist 0 (rnd F64 (3000001 / 3)) := by
  refine ⟨⟨0x1999999999999A, -56, ⟨0, 0x3FB, 0x999999999999A, by decide, by decide, by decide, by decide, by decide, .inr ⟨by decide, by decide, by decide⟩⟩,
    by decide +kernel⟩, ⟨10 ^ 9, by decide +kernel⟩, ?_,
    ⟨0x1E8480AAAAAAAB, -33, ⟨0, 0x412, 0xE8480AAAAAAAB, by decide, by decide, by decide, by decide, by decide, .inr ⟨by decide, by decide, by decide⟩⟩,
    by decide +kernel⟩, by decide +kernel⟩
  obtain ⟨q, hq⟩ := get_back (F := F64) (s := "0.1000000000".toUTF8.data.toList) (y := rnd F64 (1 / 10)) (by decide +kernel)
  exact ⟨q, hq, by decide +kernel, q, hq, rfl⟩

end Verif.PgFloat.Props
