import Verif.Postgres.Lemmas
import Verif.Mysql.Spec
/-! Helper lemmas on MySQL. -/

namespace Verif.Mysql.Lemmas
open Verif Verif.Sql Verif.Mysql Verif.Mysql.Spec

theorem bytesOf_length (k n : Nat) : (bytesOf k n).length = k := by
  induction k generalizing n with
  | zero => rfl
  | succ k ih => simp [bytesOf, ih]

theorem natOf_bytesOf (k n : Nat) (h : n < 256 ^ k) : natOf (bytesOf k n) = n := by
  induction k generalizing n with
  | zero => simp at h; subst h; rfl
  | succ k ih =>
    have := ih (n / 256) (by rw [Nat.pow_succ] at h; omega)
    rw [bytesOf, natOf, this, UInt8.toNat_ofNat']
    omega

theorem intOf_bytesOfInt (k : Nat) (n : Int) (hk : 1 ≤ k) (h1 : -(2 ^ (8 * k - 1) : Nat) ≤ n) (h2 : n < (2 ^ (8 * k - 1) : Nat)) : intOf k (bytesOfInt k n) = n := by
  have e : 2 ^ (8 * k) = 2 * 2 ^ (8 * k - 1) := by rw [show 8 * k = 8 * k - 1 + 1 by omega, Nat.pow_succ, Nat.add_sub_cancel]; omega
  have p : 256 ^ k = 2 ^ (8 * k) := by rw [show (256 : Nat) = 2 ^ 8 from rfl, ← Nat.pow_mul]
  unfold intOf bytesOfInt
  have hp : 0 < 2 ^ (8 * k - 1) := Nat.pos_of_ne_zero (by simp)
  rw [natOf_bytesOf]
  · generalize 2 ^ (8 * k - 1) = m at *
    generalize 2 ^ (8 * k) = m' at *
    subst e
    by_cases hn : 0 ≤ n
    · rw [Int.emod_eq_of_lt hn (by omega)]
      split <;> omega
    · have : n % ((2 * m : Nat) : Int) = n + (2 * m : Nat) := by
        rw [← Int.add_emod_right, Int.emod_eq_of_lt (by omega) (by omega)]
      rw [this]
      split <;> omega
  · rw [p]
    generalize 2 ^ (8 * k - 1) = m at *
    generalize 2 ^ (8 * k) = m' at *
    have := Int.emod_lt_of_pos n (show (0 : Int) < m' by omega)
    have := Int.emod_nonneg n (show (m' : Int) ≠ 0 by omega)
    omega

theorem toUnsigned_id {w : Nat} {n : Int} (h1 : 0 ≤ n) (h2 : n < (2 ^ w : Nat)) : ((toUnsigned w n : Nat) : Int) = n := by
  unfold toUnsigned
  rw [Int.emod_eq_of_lt h1 h2]
  omega

theorem toInt_id {n : Nat} (h : n < 2 ^ 31) : toInt n = n := by
  unfold toInt
  rw [if_pos (by omega)]
  omega

/-! ### Rows -/

/-- Between the rows, a buffer has at least its first size, and the length kept is not more. -/
structure Good (c : Col) : Prop where
  room : initBufSize ≤ c.data.length
  length : c.length ≤ c.data.length

theorem good_new (t : Nat) : Good (newCol t) := ⟨by simp [newCol], by simp [newCol]⟩

theorem take_overlay {b d : Str} (h : b.length ≤ d.length) : (b.take d.length ++ d.drop b.length).take b.length = b := by
  rw [List.take_of_length_le h, List.take_left']
  rfl

theorem overlay_length {b d : Str} : (b.take d.length ++ d.drop b.length).length = d.length := by
  simp
  omega

/-- What is in a column when `from_bind` reads it. -/
def final (rc : Bool) (c : Col) (x : Cell) : Col := if rc then grow (fill c x) x else fill c x

theorem fill_bytes {c : Col} {x : Cell} (h1 : x ≠ .null) (h2 : ∀ t, x ≠ .time t) : fill c x =
    { c with null := false, length := (raw c.type x).length, data := (raw c.type x).take c.data.length ++ c.data.drop (raw c.type x).length } := by
  cases x with
  | null => exact absurd rfl h1
  | time t => exact absurd rfl (h2 t)
  | _ => rfl

/-- After a row, a column that is not NULL has all bytes. -/
theorem final_bytes {rc : Bool} {c : Col} {x : Cell} (hg : Good c) (h1 : x ≠ .null) (h2 : ∀ t, x ≠ .time t) (hrc : c.data.length < (raw c.type x).length → rc = true) :
    (final rc c x).null = false ∧ (final rc c x).type = c.type ∧ (final rc c x).length = (raw c.type x).length
      ∧ (final rc c x).data.take (raw c.type x).length = raw c.type x ∧ Good (final rc c x) := by
  have g1 := hg.room
  by_cases hl : c.data.length < (raw c.type x).length
  · unfold final
    rw [hrc hl, if_pos rfl, fill_bytes h1 h2]
    unfold grow
    dsimp only
    rw [overlay_length, if_pos hl, fill_bytes h1 h2]
    dsimp only
    have hle : (raw c.type x).length ≤ ((raw c.type x).take c.data.length ++ c.data.drop (raw c.type x).length
        ++ List.replicate ((raw c.type x).length + 1 - c.data.length) 0).length := by
      rw [List.length_append, overlay_length, List.length_replicate]; omega
    refine ⟨rfl, rfl, rfl, take_overlay hle, ?_, ?_⟩
    · dsimp only
      rw [overlay_length, List.length_append, overlay_length]
      omega
    · dsimp only
      rw [overlay_length]
      exact hle
  · have e : final rc c x = fill c x := by
      unfold final
      cases rc with
      | false => rfl
      | true =>
        rw [if_pos rfl, fill_bytes h1 h2]
        unfold grow
        dsimp only
        rw [overlay_length, if_neg hl]
    rw [e, fill_bytes h1 h2]
    refine ⟨rfl, rfl, rfl, take_overlay (by omega), ?_, ?_⟩
    · dsimp only
      rw [overlay_length]
      exact g1
    · dsimp only
      rw [overlay_length]
      omega

theorem final_null {rc : Bool} {c : Col} (hg : Good c) : (final rc c .null) = { c with null := true } := by
  unfold final
  cases rc with
  | false => rfl
  | true =>
    rw [if_pos rfl]
    unfold fill grow
    dsimp only
    rw [if_neg (by have := hg.length; omega)]

theorem shown_cell {t : Nat} {v : Value} {x : Cell} (h : Shown t v x) : x ≠ .null ∧ ∀ m, x ≠ .time m := by
  cases h <;> exact ⟨(fun e => by cases e), (fun m e => by cases e)⟩

theorem truncated_bytes {c : Col} {x : Cell} (h1 : x ≠ .null) (h2 : ∀ t, x ≠ .time t) : truncated c x = decide (c.data.length < (raw c.type x).length) := by
  cases x with
  | null => exact absurd rfl h1
  | time t => exact absurd rfl (h2 t)
  | _ => rfl

theorem natOf_take {d : Str} {k : Nat} {n : Nat} (h : d.take k = bytesOf k n) (hn : n < 256 ^ k) : natOf (d.take k) = n := by
  rw [h, natOf_bytesOf k n hn]

/-- A column that holds the bytes of a value is read as the value. -/
theorem fromBind_shown (env : Env) {t : Nat} {v : Value} {x : Cell} (h : Shown t v x) {c : Col} (h1 : c.null = false) (h2 : c.type = t)
    (h3 : c.length = (raw t x).length) (h4 : c.data.take (raw t x).length = raw t x) (h5 : c.length ≤ c.data.length) : fromBind env c = .ok (some v) := by
  unfold fromBind
  rw [h1, if_neg Bool.false_ne_true, h2]
  have key : ∀ (k : Nat) (n : Int), (raw t x) = bytesOfInt k n → 1 ≤ k → -(2 ^ (8 * k - 1) : Nat) ≤ n → n < (2 ^ (8 * k - 1) : Nat) → intOf k (c.data.take k) = n := by
    intro k n hr hk a b
    rw [hr, show (bytesOfInt k n).length = k from bytesOf_length _ _] at h4
    rw [h4, intOf_bytesOfInt k n hk a b]
  cases h with
  | tiny a b => rw [if_pos (by decide), key 1 _ rfl (by decide) (by omega) (by omega)]
  | small a b => rw [if_neg (by decide), if_pos (by decide), key 2 _ rfl (by decide) (by omega) (by omega)]
  | int a b => rw [if_neg (by decide), if_neg (by decide), if_pos (by decide), key 4 _ rfl (by decide) (by omega) (by omega)]
  | big a b => rw [if_neg (by decide), if_neg (by decide), if_neg (by decide), if_pos (by decide), key 8 _ rfl (by decide) (by omega) (by omega)]
  | @double d =>
    rw [if_neg (by decide), if_neg (by decide), if_neg (by decide), if_neg (by decide), if_neg (by decide), if_pos (by decide)]
    have : c.data.take 8 = bytesOf 8 d.toNat := by
      rw [show raw 5 (.double d) = bytesOf 8 d.toNat from rfl, bytesOf_length] at h4
      exact h4
    rw [natOf_take this (by have := d.toNat_lt; simpa using this), UInt64.ofNat_toNat]
  | char =>
    rw [if_neg (by decide), if_neg (by decide), if_neg (by decide), if_neg (by decide), if_neg (by decide), if_neg (by decide), if_neg (by decide), if_pos (by decide),
      if_pos h5, h3, h4]
    rfl
  | text =>
    rw [if_neg (by decide), if_neg (by decide), if_neg (by decide), if_neg (by decide), if_neg (by decide), if_neg (by decide), if_neg (by decide), if_pos (by decide),
      if_pos h5, h3, h4]
    rfl

/-- The columns of a row. -/
def Cols (ts : List Nat) (cs : List Col) : Prop := cs.map Col.type = ts ∧ ∀ c ∈ cs, Good c

theorem cols_new (ts : List Nat) : Cols ts (ts.map newCol) := by
  refine ⟨?_, fun c hc => ?_⟩
  · rw [List.map_map]
    exact List.map_id' ts
  · obtain ⟨t, _, rfl⟩ := List.mem_map.1 hc
    exact good_new t

theorem row_read (env : Env) (rc : Bool) {ts : List Nat} {vs : List Ptr} {row : List Cell} (h : ShownRow ts vs row) :
    ∀ cs, Cols ts cs → (∀ b ∈ List.zipWith truncated cs row, b = true → rc = true) →
      fromBinds env (List.zipWith (final rc) cs row) = .ok vs ∧ Cols ts (List.zipWith (final rc) cs row) := by
  induction h with
  | nil =>
    intro cs hc _
    cases cs with
    | nil => exact ⟨rfl, hc⟩
    | cons c cs => cases hc.1
  | @null t ts vs row _ ih =>
    intro cs hc hrc
    cases cs with
    | nil => cases hc.1
    | cons c cs =>
      have hg := hc.2 c (by simp)
      obtain ⟨i1, i2⟩ := ih cs ⟨(List.cons.inj hc.1).2, fun c hm => hc.2 c (by simp [hm])⟩ (fun b hb => hrc b (by simp [hb]))
      rw [List.zipWith_cons_cons, final_null hg]
      refine ⟨?_, ?_, ?_⟩
      · unfold fromBinds
        rw [show fromBind env { c with null := true } = .ok none from rfl]
        dsimp only
        rw [i1]
      · rw [List.map_cons, i2.1]
        exact congrArg (· :: ts) (List.cons.inj hc.1).1
      · intro c' hm
        rcases List.mem_cons.1 hm with rfl | hm
        · exact ⟨hg.room, hg.length⟩
        · exact i2.2 c' hm
  | @value t ts v x vs row hv _ ih =>
    intro cs hc hrc
    cases cs with
    | nil => cases hc.1
    | cons c cs =>
      have hg := hc.2 c (by simp)
      have ht : c.type = t := (List.cons.inj hc.1).1
      obtain ⟨i1, i2⟩ := ih cs ⟨(List.cons.inj hc.1).2, fun c hm => hc.2 c (by simp [hm])⟩ (fun b hb => hrc b (by simp [hb]))
      obtain ⟨n1, n2⟩ := shown_cell hv
      obtain ⟨f1, f2, f3, f4, f5⟩ := final_bytes (rc := rc) hg n1 n2 (fun hl => hrc (truncated c x) (by simp) (by rw [truncated_bytes n1 n2]; exact decide_eq_true hl))
      rw [List.zipWith_cons_cons]
      rw [ht] at f2 f3 f4
      refine ⟨?_, ?_, ?_⟩
      · unfold fromBinds
        rw [fromBind_shown env hv f1 f2 f3 f4 f5.length]
        dsimp only
        rw [i1]
      · rw [List.map_cons, i2.1, f2]
      · intro c' hm
        rcases List.mem_cons.1 hm with rfl | hm
        · exact f5
        · exact i2.2 c' hm

theorem zipWith_grow (rc : Bool) (cs : List Col) (row : List Cell) :
    (if rc then List.zipWith grow (List.zipWith fill cs row) row else List.zipWith fill cs row) = List.zipWith (final rc) cs row := by
  cases rc with
  | false => rfl
  | true =>
    rw [if_pos rfl]
    induction cs generalizing row with
    | nil => rfl
    | cons c cs ih =>
      cases row with
      | nil => rfl
      | cons x row =>
        simp only [List.zipWith_cons_cons]
        rw [ih]
        rfl

theorem fetch_one (env : Env) (t : Nat) (x : Cell) (rows : List (List Cell)) (r : Except Err Ptr)
    (h : fromBind env (final (truncated (newCol t) x) (newCol t) x) = r) :
    (Stmt.fetchRow env { flds := [t], rows := [x] :: rows }).1 = r.map (fun v => some [v]) := by
  unfold Stmt.fetchRow
  dsimp only
  rw [if_neg (List.cons_ne_nil _ _), zipWith_grow]
  have : (if ([] : List Col).length = 0 then [t].map newCol else []) = [newCol t] := rfl
  rw [this, List.zipWith_cons_cons, List.zipWith_cons_cons, List.zipWith_nil_left, List.zipWith_nil_left, List.any_cons, List.any_nil, Bool.or_false, id, fromBinds, h]
  cases r <;> rfl

end Verif.Mysql.Lemmas
