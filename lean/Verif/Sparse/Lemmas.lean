import Verif.Sparse.Spec
import Verif.Code.Lemmas
import Verif.Serial.Lemmas
/-!
# Lemmas about sparse matrices
-/
namespace Verif.Sparse.Lemmas
open Verif.Sparse Verif.Sparse.Spec Verif.Code

/-! ### One row -/

/-- The bytes of a row. -/
def rowBytes : Row → Int → List UInt8
  | [], _ => []
  | (c, v) :: r, prev => prefixBytes ((c - prev) % 2 ^ 32).toNat ++ v :: rowBytes r c

theorem encodeRow_spec : ∀ (row : Row) (prev : Int) (e : Enc), Storable prev row →
    ∃ b, encodeRow row prev e = some ⟨e.bytes ++ rowBytes row prev, b⟩ := by
  intro row
  induction row with
  | nil => intro prev e _; exact ⟨e.bit, by simp [encodeRow, rowBytes]⟩
  | cons p r ih =>
    obtain ⟨c, v⟩ := p
    intro prev e h
    obtain ⟨-, -, h3, h4, h5⟩ := h
    obtain ⟨b, hb⟩ := ih c ⟨e.bytes ++ prefixBytes ((c - prev) % 2 ^ 32).toNat ++ [v], 0⟩ h5
    refine ⟨b, ?_⟩
    rw [encodeRow, if_neg (by omega)]
    simp only [Enc.prefixCode, Enc.byte, Option.bind_some, hb, rowBytes]
    simp

theorem encodeRow_none : ∀ (row : Row) (prev : Int) (e : Enc),
    (∀ p ∈ row, -2 ^ 31 ≤ p.1 ∧ p.1 < 2 ^ 31) → ¬ Storable prev row → encodeRow row prev e = none := by
  intro row
  induction row with
  | nil => intro prev e _ h; exact absurd trivial h
  | cons p r ih =>
    obtain ⟨c, v⟩ := p
    intro prev e hi h
    rw [encodeRow]
    split
    · rfl
    · rename_i hc
      have hc' := hi (c, v) (by simp)
      have : ¬ Storable c r := fun hs => h ⟨hc'.1, hc'.2, by omega, by omega, hs⟩
      simp only [Enc.prefixCode, Enc.byte, Option.bind_some]
      exact ih _ _ (fun p hp => hi p (by simp [hp])) this

theorem length_rowBytes (row : Row) (prev : Int) : 2 * row.length ≤ (rowBytes row prev).length := by
  induction row generalizing prev with
  | nil => simp
  | cons p r ih =>
    obtain ⟨c, v⟩ := p
    have h1 := ih c
    have h2 : 1 ≤ (prefixBytes ((c - prev) % 2 ^ 32).toNat).length := by
      rw [prefixBytes]; split <;> simp
    simp only [rowBytes, List.length_append, List.length_cons]
    omega

theorem toInt32_diff {prev c : Int} (h1 : -2 ^ 31 ≤ c) (h2 : c < 2 ^ 31) :
    toInt32 (prev + (((c - prev) % 2 ^ 32).toNat : Int)) = c := by
  unfold toInt32
  have := Int.emod_nonneg (c - prev) (show (2 ^ 32 : Int) ≠ 0 by decide)
  rw [Int.toNat_of_nonneg this]
  omega

theorem decodeRow_spec : ∀ (row : Row) (prev : Int) (pre post : List UInt8), Storable prev row →
    decodeRow (pre ++ (rowBytes row prev ++ post)) row.length prev ⟨pre.length, 0⟩ = some row := by
  intro row
  induction row with
  | nil => intro prev pre post _; rfl
  | cons p r ih =>
    obtain ⟨c, v⟩ := p
    intro prev pre post h
    obtain ⟨h1, h2, h3, h4, h5⟩ := h
    have hv : ((c - prev) % 2 ^ 32).toNat < 2 ^ 32 := by
      have := Int.emod_lt_of_pos (c - prev) (show (0 : Int) < 2 ^ 32 by decide)
      have := Int.emod_nonneg (c - prev) (show (2 ^ 32 : Int) ≠ 0 by decide)
      omega
    generalize hx : ((c - prev) % 2 ^ 32).toNat = x at hv
    have hp := Code.Lemmas.prefixLoop_spec x pre.length 0 0 (v :: rowBytes r c ++ post)
      (by simpa using hv) (by simpa using hv)
    have hk : 2 ^ (7 * 0) % 2 ^ 32 = 1 := by decide
    rw [hk] at hp
    have hmem : pre ++ (rowBytes ((c, v) :: r) prev ++ post)
        = pre ++ (prefixBytes x ++ (v :: rowBytes r c ++ post)) := by
      rw [rowBytes, hx]; simp only [List.append_assoc, List.cons_append]
    have hpc : Dec.prefixCode (pre ++ (rowBytes ((c, v) :: r) prev ++ post)) ⟨pre.length, 0⟩ =
        some (x, ⟨pre.length + (prefixBytes x).length, 0⟩) := by
      rw [hmem]
      simp only [Dec.prefixCode, ne_eq, not_true_eq_false, if_false, List.drop_left, hp,
        Code.Lemmas.prefixBytes_length]
      simp
    have hby : Dec.byte (pre ++ (rowBytes ((c, v) :: r) prev ++ post))
        ⟨pre.length + (prefixBytes x).length, 0⟩ =
        some (v, ⟨pre.length + (prefixBytes x).length + 1, 0⟩) := by
      rw [hmem]
      simp [Dec.byte]
    have hrec := ih c (pre ++ (prefixBytes x ++ [v])) post h5
    have hmem2 : pre ++ (rowBytes ((c, v) :: r) prev ++ post)
        = pre ++ (prefixBytes x ++ [v]) ++ (rowBytes r c ++ post) := by
      rw [hmem]; simp
    have hlen : (pre ++ (prefixBytes x ++ [v])).length = pre.length + (prefixBytes x).length + 1 := by
      simp [Nat.add_assoc]
    have hcol : toInt32 (prev + (x : Int)) = c := by rw [← hx]; exact toInt32_diff h1 h2
    rw [List.length_cons, decodeRow, hpc, Option.bind_some, hby, Option.bind_some, hcol, hmem2,
      ← hlen, hrec]
    rfl

theorem storable_of_valid_aux : ∀ (row : Row) (prev : Int), -1 ≤ prev → (∀ p ∈ row, prev < p.1) →
    ValidRow row → Storable prev row := by
  intro row
  induction row with
  | nil => intros; trivial
  | cons p r ih =>
    obtain ⟨c, v⟩ := p
    intro prev hp hlt hv
    have hc := hv.2 (c, v) (by simp)
    have hv1 := List.pairwise_cons.1 hv.1
    have h1 := hlt (c, v) (by simp)
    simp only at hc h1
    exact ⟨by omega, by omega, by omega, by omega,
      ih c (by omega) (fun p hp => hv1.1 p hp) ⟨hv1.2, fun p hp => hv.2 p (by simp [hp])⟩⟩

theorem storable_of_valid {row : Row} (h : ValidRow row) : Storable (-1) row :=
  storable_of_valid_aux row (-1) (by omega) (fun p hp => by have := (h.2 p hp).1; omega) h

/-! ### All rows -/

/-- The data file of a list of rows. -/
def flat (rows : List Row) : List UInt8 := rows.flatMap (rowBytes · (-1))

/-- The table of a list of rows. -/
def info (row : Row) : Nat × Nat := (row.length, (rowBytes row (-1)).length)

theorem append_spec (w : Writer) {row : Row} (h : Storable (-1) row) :
    w.append row = some ⟨w.data ++ rowBytes row (-1), w.infos ++ [info row]⟩ := by
  obtain ⟨b, hb⟩ := encodeRow_spec row (-1) Enc.new h
  rw [Writer.append, hb]
  simp [Enc.flush, Enc.new, info]

theorem appendAll_spec : ∀ (rows : List Row) (w : Writer), (∀ r ∈ rows, Storable (-1) r) →
    w.appendAll rows = some ⟨w.data ++ flat rows, w.infos ++ rows.map info⟩ := by
  intro rows
  induction rows with
  | nil => intro w _; simp [Writer.appendAll, flat]
  | cons r rs ih =>
    intro w h
    rw [Writer.appendAll, append_spec w (h r (by simp)), Option.bind_some,
      ih _ (fun x hx => h x (by simp [hx]))]
    simp [flat]

theorem appendAll_append : ∀ (a b : List Row) (w : Writer),
    w.appendAll (a ++ b) = (w.appendAll a).bind (fun w' => w'.appendAll b) := by
  intro a
  induction a with
  | nil => intro b w; rfl
  | cons r rs ih =>
    intro b w
    simp only [List.cons_append, Writer.appendAll]
    cases w.append r with
    | none => rfl
    | some w' => simp [ih]

theorem offsets_spec : ∀ (rows : List Row) (o : Nat), o + (flat rows).length < 2 ^ 31 →
    ∃ os, offsetsFrom o (rows.map info) = some os ∧
      ∀ i, i < rows.length → os[i]? = some (o + (flat (rows.take i)).length) := by
  intro rows
  induction rows with
  | nil => intro o _; exact ⟨[], rfl, fun i hi => absurd hi (by simp)⟩
  | cons r rs ih =>
    intro o h
    have hf : (flat (r :: rs)).length = (rowBytes r (-1)).length + (flat rs).length := by simp [flat]
    obtain ⟨os, h1, h2⟩ := ih (o + (rowBytes r (-1)).length) (by omega)
    refine ⟨o :: os, ?_, ?_⟩
    · simp only [List.map_cons, info, offsetsFrom] at h1 ⊢
      rw [if_neg (by omega), h1]
      rfl
    · intro i hi
      cases i with
      | zero => simp [flat]
      | succ i =>
        rw [List.getElem?_cons_succ, h2 i (by simpa using hi)]
        simp [flat, Nat.add_assoc]

theorem parseInfos_spec : ∀ (infos : List (Nat × Nat)) (rest : List UInt8),
    (∀ p ∈ infos, p.1 < 2 ^ 31 ∧ p.2 < 2 ^ 31) →
    parseInfos infos.length (infoBytes infos ++ rest) = infos := by
  intro infos
  induction infos with
  | nil => intros; rfl
  | cons p r ih =>
    obtain ⟨n, s⟩ := p
    intro rest h
    have hb := h (n, s) (by simp)
    simp only at hb
    have l1 := Serial.Lemmas.length_toLE 4 n
    have l2 := Serial.Lemmas.length_toLE 4 s
    have e1 : (infoBytes ((n, s) :: r) ++ rest).take 4 = Serial.toLE 4 n := by
      simp only [infoBytes, List.append_assoc]
      rw [List.take_append_of_le_length (by omega), List.take_of_length_le (by omega)]
    have e2 : (infoBytes ((n, s) :: r) ++ rest).drop 4
        = Serial.toLE 4 s ++ (infoBytes r ++ rest) := by
      simp only [infoBytes, List.append_assoc]
      rw [List.drop_append_of_le_length (by omega), List.drop_of_length_le (by omega)]
      rfl
    have e3 : (infoBytes ((n, s) :: r) ++ rest).drop 8 = infoBytes r ++ rest := by
      rw [show 8 = 4 + 4 from rfl, ← List.drop_drop, e2, List.drop_append_of_le_length (by omega),
        List.drop_of_length_le (by omega)]
      rfl
    rw [List.length_cons, parseInfos, e1, e2, e3, ih _ (fun p hp => h p (by simp [hp])),
      List.take_append_of_le_length (by omega), List.take_of_length_le (by omega),
      Serial.Lemmas.ofLE_toLE _ _ (by omega), Serial.Lemmas.ofLE_toLE _ _ (by omega)]

theorem flat_split (rows : List Row) (i : Nat) (hi : i < rows.length) :
    flat rows = flat (rows.take i) ++ (rowBytes rows[i] (-1) ++ flat (rows.drop (i + 1))) := by
  have : rows = rows.take i ++ rows[i] :: rows.drop (i + 1) := by simp
  conv => lhs; rw [this]
  simp only [flat, List.flatMap_append, List.flatMap_cons]

theorem open_spec {rows : List Row} (hs : (flat rows).length < 2 ^ 31) (hn : rows.length < 2 ^ 31) :
    ∃ os, Reader.open (flat rows) (Writer.mk (flat rows) (rows.map info)).offsetFile =
        some ⟨attachStream (flat rows), rows.map info, os⟩ ∧
      ∀ i, i < rows.length → os[i]? = some (flat (rows.take i)).length := by
  obtain ⟨os, h1, h2⟩ := offsets_spec rows 0 (by omega)
  refine ⟨os, ?_, fun i hi => by have := h2 i hi; simpa using this⟩
  have hbound : ∀ p ∈ rows.map info, p.1 < 2 ^ 31 ∧ p.2 < 2 ^ 31 := by
    intro p hp
    obtain ⟨r, hr, rfl⟩ := List.mem_map.1 hp
    have hl := length_rowBytes r (-1)
    obtain ⟨i, hi, rfl⟩ := List.getElem_of_mem hr
    have := flat_split rows i hi
    have := congrArg List.length this
    simp only [List.length_append] at this
    simp only [info]
    omega
  have l4 := Serial.Lemmas.length_toLE 4 (rows.map info).length
  have e1 : ((Writer.mk (flat rows) (rows.map info)).offsetFile).take 4
      = Serial.toLE 4 (rows.map info).length := by
    simp only [Writer.offsetFile]
    rw [List.take_append_of_le_length (by omega), List.take_of_length_le (by omega)]
  have e2 : ((Writer.mk (flat rows) (rows.map info)).offsetFile).drop 4 = infoBytes (rows.map info) := by
    simp only [Writer.offsetFile]
    rw [List.drop_append_of_le_length (by omega), List.drop_of_length_le (by omega)]
    rfl
  have e3 : Serial.ofLE (Serial.toLE 4 (rows.map info).length) = (rows.map info).length :=
    Serial.Lemmas.ofLE_toLE _ _ (by rw [List.length_map]; omega)
  have e4 : ¬ ((Writer.mk (flat rows) (rows.map info)).offsetFile).length < 4 := by
    simp only [Writer.offsetFile, List.length_append]; omega
  have e5 : ((rows.map info).any (fun p => decide (2 ^ 31 ≤ p.1 ∨ 2 ^ 31 ≤ p.2))) = false := by
    rw [List.any_eq_false]
    intro p hp
    have := hbound p hp
    simp only [decide_eq_true_eq, not_or, Nat.not_le]
    exact this
  have e6 : ¬ 2 ^ 31 ≤ (rows.map info).length := by rw [List.length_map]; omega
  unfold Reader.open
  rw [if_neg e4]
  simp only [e1, e2, e3]
  rw [if_neg e6, parseInfos_spec _ _ hbound]
  simp only [e5, Bool.false_eq_true, if_false, h1, Option.map_some]

theorem getRow_spec {rows : List Row} (hst : ∀ r ∈ rows, Storable (-1) r) {os : List Nat}
    (hos : ∀ i, i < rows.length → os[i]? = some (flat (rows.take i)).length)
    (i : Nat) (hi : i < rows.length) :
    Reader.getRow ⟨attachStream (flat rows), rows.map info, os⟩ i = .ok rows[i] := by
  have h1 : Reader.num ⟨attachStream (flat rows), rows.map info, os⟩ i = .ok rows[i].length := by
    unfold Reader.num
    rw [if_neg (by simp only [List.length_map]; omega), if_neg (by omega)]
    simp [hi, info]
  have hd := decodeRow_spec rows[i] (-1) (flat (rows.take i))
    (flat (rows.drop (i + 1)) ++ List.replicate 8 0) (hst _ (List.getElem_mem hi))
  have hmem : attachStream (flat rows) = flat (rows.take i) ++ (rowBytes rows[i] (-1) ++
      (flat (rows.drop (i + 1)) ++ List.replicate 8 0)) := by
    rw [attachStream, flat_split rows i hi]; simp
  unfold Reader.getRow
  simp only [h1, Int.toNat_natCast, hos i hi]
  rw [hmem, hd]

theorem rowsFrom_spec {rd : Reader} {rows : List Row}
    (h : ∀ i (hi : i < rows.length), rd.getRow i = .ok rows[i]) :
    ∀ n i, i + n = rows.length → rd.rowsFrom i n = some (rows.drop i) := by
  intro n
  induction n with
  | zero => intro i hi; simp [Reader.rowsFrom, show i = rows.length by omega]
  | succ n ih =>
    intro i hi
    have hlt : i < rows.length := by omega
    rw [Reader.rowsFrom, h i hlt]
    simp only
    rw [ih (i + 1) (by omega), List.drop_eq_getElem_cons hlt]
    rfl

/-! ### Counting -/

theorem bump_spec {tc : List Nat} {c : Int} (hc : 0 ≤ c) (hp : ∀ x ∈ tc.getLast?, 0 < x) :
    ∃ tc', bump tc c = some tc' ∧ tc'.length = max tc.length (c.toNat + 1) ∧
      (∀ x ∈ tc'.getLast?, 0 < x) := by
  refine ⟨_, by rw [bump, if_neg (by omega)], ?_, ?_⟩
  · simp; omega
  · intro x hx
    rw [List.getLast?_eq_getElem?, List.length_modify] at hx
    rw [List.getElem?_modify] at hx
    by_cases hl : tc.length < c.toNat + 1
    · have hlen : (tc ++ List.replicate (c.toNat + 1 - tc.length) 0).length = c.toNat + 1 := by
        simp; omega
      rw [hlen] at hx
      simp only [Nat.add_sub_cancel, if_true] at hx
      cases hg : (tc ++ List.replicate (c.toNat + 1 - tc.length) 0)[c.toNat]? with
      | none => rw [hg] at hx; cases hx
      | some a => rw [hg] at hx; cases hx; exact Nat.succ_pos a
    · have e : List.replicate (c.toNat + 1 - tc.length) 0 = ([] : List Nat) := by
        rw [show c.toNat + 1 - tc.length = 0 by omega]; rfl
      rw [e, List.append_nil] at hx
      rw [← List.getLast?_eq_getElem?] at hx
      cases hg : tc.getLast? with
      | none => rw [hg] at hx; cases hx
      | some a =>
        rw [hg] at hx
        cases hx
        have := hp a hg
        by_cases hh : c.toNat = tc.length - 1
        · simp [hh]
        · simpa [hh] using this

theorem countRow_spec : ∀ (row : Row) (tc : List Nat), (∀ p ∈ row, 0 ≤ p.1) →
    (∀ x ∈ tc.getLast?, 0 < x) →
    ∃ tc', countRow row tc = some tc' ∧ tc.length ≤ tc'.length ∧
      (∀ p ∈ row, p.1 < tc'.length) ∧ (∀ x ∈ tc'.getLast?, 0 < x) ∧
      (tc'.length = tc.length ∨ ∃ p ∈ row, p.1 + 1 = tc'.length) := by
  intro row
  induction row with
  | nil => intro tc _ hp; exact ⟨tc, rfl, Nat.le_refl _, by simp, hp, .inl rfl⟩
  | cons p r ih =>
    obtain ⟨c, v⟩ := p
    intro tc hc hp
    have hc0 : 0 ≤ c := hc (c, v) (by simp)
    obtain ⟨t1, h1, h2, h3⟩ := bump_spec hc0 hp
    obtain ⟨t2, g1, g2, g3, g4, g5⟩ := ih t1 (fun p hp => hc p (by simp [hp])) h3
    refine ⟨t2, by rw [countRow, h1]; exact g1, by omega, ?_, g4, ?_⟩
    · intro p hp
      rcases List.mem_cons.1 hp with rfl | hp
      · simp only; omega
      · exact g3 p hp
    · rcases g5 with g5 | ⟨p, hp, g5⟩
      · by_cases hle : c.toNat + 1 ≤ tc.length
        · left; omega
        · right; exact ⟨(c, v), by simp, by simp only; omega⟩
      · right; exact ⟨p, by simp [hp], g5⟩

theorem countRows_spec : ∀ (rows : List Row) (tc : List Nat), (∀ r ∈ rows, ∀ p ∈ r, 0 ≤ p.1) →
    (∀ x ∈ tc.getLast?, 0 < x) →
    ∃ tc', countRows rows tc = some tc' ∧ tc.length ≤ tc'.length ∧
      (∀ r ∈ rows, ∀ p ∈ r, p.1 < tc'.length) ∧ (∀ x ∈ tc'.getLast?, 0 < x) ∧
      (tc'.length = tc.length ∨ ∃ r ∈ rows, ∃ p ∈ r, p.1 + 1 = tc'.length) := by
  intro rows
  induction rows with
  | nil => intro tc _ hp; exact ⟨tc, rfl, Nat.le_refl _, by simp, hp, .inl rfl⟩
  | cons r rs ih =>
    intro tc hc hp
    obtain ⟨t1, h1, h2, h3, h4, h5⟩ := countRow_spec r tc (hc r (by simp)) hp
    obtain ⟨t2, g1, g2, g3, g4, g5⟩ := ih t1 (fun r hr => hc r (by simp [hr])) h4
    refine ⟨t2, by rw [countRows, h1]; exact g1, by omega, ?_, g4, ?_⟩
    · intro r' hr' p hp
      rcases List.mem_cons.1 hr' with rfl | hr'
      · have := h3 p hp; omega
      · exact g3 r' hr' p hp
    · rcases g5 with g5 | ⟨r', hr', p, hp, g5⟩
      · rcases h5 with h5 | ⟨p, hp, h5⟩
        · left; omega
        · right; exact ⟨r, by simp, p, hp, by omega⟩
      · right; exact ⟨r', by simp [hr'], p, hp, g5⟩

/-! ### Blocks -/

/-- The boundaries lead from `st` to `N`. -/
def Covers : Nat → List Nat → Nat → Prop
  | st, [], N => st = N
  | st, b :: bs, N => st ≤ b ∧ Covers b bs N

theorem boundLoop_covers (limit : Nat) : ∀ (ts : List Nat) (i sum st : Nat), st ≤ i →
    (ts = [] → sum = 0 → st = i) → (∀ x ∈ ts.getLast?, 0 < x) →
    Covers st (if 0 < (boundLoop limit ts i sum).2 then (boundLoop limit ts i sum).1 ++ [i + ts.length]
      else (boundLoop limit ts i sum).1) (i + ts.length) := by
  intro ts
  induction ts with
  | nil =>
    intro i sum st h1 h2 _
    by_cases hs : 0 < sum
    · simp [boundLoop, hs, Covers, h1]
    · simp only [boundLoop, hs, if_false, Covers, List.length_nil, Nat.add_zero]
      exact h2 rfl (by omega)
  | cons t ts ih =>
    intro i sum st h1 h2 h3
    have h3' : ∀ x ∈ ts.getLast?, 0 < x := by
      intro x hx
      apply h3
      cases ts with
      | nil => cases hx
      | cons y ys => rw [List.getLast?_cons_cons]; exact hx
    have hlen : i + (t :: ts).length = (i + 1) + ts.length := by simp; omega
    rw [hlen]
    by_cases hl : limit ≤ sum + t
    · have := ih (i + 1) 0 (i + 1) (Nat.le_refl _) (fun _ _ => rfl) h3'
      simp only [boundLoop, hl, if_true]
      split
      · rename_i hh; rw [if_pos hh] at this; exact ⟨by omega, this⟩
      · rename_i hh; rw [if_neg hh] at this; exact ⟨by omega, this⟩
    · simp only [boundLoop, hl, if_false]
      refine ih (i + 1) (sum + t) st (by omega) ?_ h3'
      intro he hz
      subst he
      have := h3 t (by simp)
      omega

theorem bounds_covers (limit : Nat) (tc : List Nat) (h : ∀ x ∈ tc.getLast?, 0 < x) :
    Covers 0 (bounds limit tc) tc.length := by
  have := boundLoop_covers limit tc 0 0 0 (Nat.le_refl _) (fun _ _ => rfl) h
  simpa [bounds] using this

/-- One column while a row is distributed. -/
def colStep (c : Int) (j : Int) : Row → Row → Row
  | [], acc => acc
  | (c', v) :: r, acc => colStep c j r (if c' = c then putSorted j v acc else acc)

/-- One column while all rows are distributed. -/
def colAll (c : Int) : List Row → Nat → Row → Row
  | [], _, acc => acc
  | r :: rs, j, acc => colAll c rs (j + 1) (colStep c j r acc)

theorem modify_map_range {α : Type} (n k : Nat) (F : Nat → α) (g : α → α) :
    ((List.range n).map F).modify k g = (List.range n).map (fun i => if i = k then g (F i) else F i) := by
  apply List.ext_getElem
  · simp
  · intro i h1 h2
    simp only [List.getElem_modify, List.getElem_map, List.getElem_range]
    by_cases hik : i = k
    · simp [hik]
    · simp [hik, Ne.symm hik]

theorem scatter_spec (st en : Nat) (j : Int) : ∀ (row : Row) (F : Nat → Row),
    scatter st en j row ((List.range (en - st)).map F) =
      (List.range (en - st)).map (fun i => colStep ((st + i : Nat) : Int) j row (F i)) := by
  intro row
  induction row with
  | nil => intro F; rfl
  | cons p r ih =>
    obtain ⟨c, v⟩ := p
    intro F
    simp only [scatter]
    by_cases h : (st : Int) ≤ c ∧ c < en
    · rw [if_pos h, modify_map_range, ih]
      apply List.map_congr_left
      intro i hi
      simp only [colStep]
      congr 1
      have : i = (c - st).toNat ↔ c = ((st + i : Nat) : Int) := by omega
      simp only [this]
    · rw [if_neg h, ih]
      apply List.map_congr_left
      intro i hi
      rw [List.mem_range] at hi
      simp only [colStep]
      rw [if_neg (show ¬ c = ((st + i : Nat) : Int) by omega)]

theorem scatterAll_spec (st en : Nat) : ∀ (rows : List Row) (j : Nat) (F : Nat → Row),
    scatterAll st en rows j ((List.range (en - st)).map F) =
      (List.range (en - st)).map (fun i => colAll ((st + i : Nat) : Int) rows j (F i)) := by
  intro rows
  induction rows with
  | nil => intro j F; rfl
  | cons r rs ih =>
    intro j F
    simp only [scatterAll, scatter_spec, ih, colAll]

/-- The columns `st … en-1` of the rows. -/
def cols (docs : List Row) (st en : Nat) : List Row :=
  (List.range (en - st)).map (fun i => colAll ((st + i : Nat) : Int) docs 0 [])

theorem scatterAll_cols (st en : Nat) (docs : List Row) :
    scatterAll st en docs 0 (List.replicate (en - st) []) = cols docs st en := by
  have : List.replicate (en - st) ([] : Row) = (List.range (en - st)).map (fun _ => []) := by
    rw [List.map_const', List.length_range]
  rw [this, scatterAll_spec, cols]

theorem cols_append (docs : List Row) {a b c : Nat} (h1 : a ≤ b) (h2 : b ≤ c) :
    cols docs a c = cols docs a b ++ cols docs b c := by
  have : c - a = (b - a) + (c - b) := by omega
  rw [cols, this, List.range_add, List.map_append, List.map_map]
  congr 1
  apply List.map_congr_left
  intro i _
  simp only [Function.comp]
  congr 2
  omega

theorem covers_le : ∀ (bs : List Nat) (st N : Nat), Covers st bs N → st ≤ N := by
  intro bs
  induction bs with
  | nil => intro st N h; exact Nat.le_of_eq h
  | cons b bs ih => intro st N h; have := ih b N h.2; have := h.1; omega

theorem blocks_spec (docs : List Row) : ∀ (bs : List Nat) (st N : Nat) (w : Writer), Covers st bs N →
    blocks docs st bs w = w.appendAll (cols docs st N) := by
  intro bs
  induction bs with
  | nil =>
    intro st N w h
    simp only [Covers] at h
    subst h
    simp [blocks, cols, Writer.appendAll]
  | cons b bs ih =>
    intro st N w h
    rw [cols_append docs h.1 (covers_le bs b N h.2), appendAll_append, blocks, scatterAll_cols]
    congr 1
    funext w'
    exact ih b N w' h.2

/-! ### One column -/

theorem putSorted_append {j : Int} {v : UInt8} {l : Row} (h : ∀ p ∈ l, p.1 < j) :
    putSorted j v l = l ++ [(j, v)] := by
  induction l with
  | nil => rfl
  | cons p r ih =>
    obtain ⟨k, w⟩ := p
    have := h (k, w) (by simp)
    simp only at this
    rw [putSorted, if_neg (by omega), if_neg (by omega), ih (fun p hp => h p (by simp [hp]))]
    rfl

/-- The entries of column `c`. -/
def colSpec (c : Int) : List Row → Nat → Row
  | [], _ => []
  | r :: rs, j => (r.filter (fun p => p.1 = c)).map (fun p => ((j : Int), p.2)) ++ colSpec c rs (j + 1)

theorem filter_col {r : Row} (h : r.Pairwise (fun a b => a.1 < b.1)) (c : Int) :
    r.filter (fun p => p.1 = c) = [] ∨ ∃ v, r.filter (fun p => p.1 = c) = [(c, v)] := by
  induction r with
  | nil => left; rfl
  | cons p r ih =>
    obtain ⟨c', v⟩ := p
    rw [List.pairwise_cons] at h
    by_cases hc : c' = c
    · subst hc
      right
      refine ⟨v, ?_⟩
      have : r.filter (fun p => decide (p.1 = c')) = [] := by
        rw [List.filter_eq_nil_iff]
        intro q hq
        have := h.1 q hq
        simp only at this
        simp; omega
      simp [this]
    · simpa [hc] using ih h.2

theorem colStep_filter (c j : Int) : ∀ (r : Row) (acc : Row),
    colStep c j r acc = (r.filter (fun p => p.1 = c)).foldl (fun a p => putSorted j p.2 a) acc := by
  intro r
  induction r with
  | nil => intro acc; rfl
  | cons p r ih =>
    obtain ⟨c', v⟩ := p
    intro acc
    by_cases hc : c' = c
    · simp [colStep, hc, ih]
    · simp [colStep, hc, ih]

theorem colAll_spec (c : Int) : ∀ (rows : List Row) (j : Nat) (acc : Row),
    (∀ r ∈ rows, r.Pairwise (fun a b => a.1 < b.1)) → (∀ p ∈ acc, p.1 < j) →
    colAll c rows j acc = acc ++ colSpec c rows j := by
  intro rows
  induction rows with
  | nil => intro j acc _ _; simp [colAll, colSpec]
  | cons r rs ih =>
    intro j acc hp ha
    have e : colStep c j r acc = acc ++ (r.filter (fun p => p.1 = c)).map (fun p => ((j : Int), p.2)) := by
      rw [colStep_filter]
      rcases filter_col (hp r (by simp)) c with h | ⟨v, h⟩
      · simp [h]
      · simp [h, putSorted_append ha]
    rw [colAll, e, ih (j + 1) _ (fun r hr => hp r (by simp [hr])), colSpec, List.append_assoc]
    intro p hp'
    rcases List.mem_append.1 hp' with hp' | hp'
    · have := ha p hp'; push_cast; omega
    · obtain ⟨q, _, rfl⟩ := List.mem_map.1 hp'
      push_cast; omega

theorem mem_colSpec (c : Int) : ∀ (rows : List Row) (j : Nat) (k : Int) (v : UInt8),
    (k, v) ∈ colSpec c rows j ↔ ∃ i : Nat, k = (j + i : Nat) ∧ ∃ r ∈ rows[i]?, (c, v) ∈ r := by
  intro rows
  induction rows with
  | nil => intro j k v; simp [colSpec]
  | cons r rs ih =>
    intro j k v
    rw [colSpec, List.mem_append, ih]
    constructor
    · rintro (h | ⟨i, hk, r', hr', hm⟩)
      · obtain ⟨⟨c', v'⟩, hq, he⟩ := List.mem_map.1 h
        obtain ⟨hq1, hq2⟩ := List.mem_filter.1 hq
        simp only [decide_eq_true_eq] at hq2
        simp only [Prod.mk.injEq] at he
        obtain ⟨rfl, rfl⟩ := he
        subst hq2
        exact ⟨0, by simp, r, by simp, hq1⟩
      · exact ⟨i + 1, by rw [hk]; push_cast; omega, r', by simpa using hr', hm⟩
    · rintro ⟨i, hk, r', hr', hm⟩
      cases i with
      | zero =>
        left
        simp only [List.getElem?_cons_zero, Option.mem_def, Option.some.injEq] at hr'
        subst hr'
        exact List.mem_map.2 ⟨(c, v), List.mem_filter.2 ⟨hm, by simp⟩, by simp [hk]⟩
      | succ i =>
        right
        exact ⟨i, by rw [hk]; push_cast; omega, r', by simpa using hr', hm⟩

theorem colSpec_sorted (c : Int) : ∀ (rows : List Row) (j : Nat),
    (∀ r ∈ rows, r.Pairwise (fun a b => a.1 < b.1)) →
    (colSpec c rows j).Pairwise (fun a b => a.1 < b.1) := by
  intro rows
  induction rows with
  | nil => intro j _; exact .nil
  | cons r rs ih =>
    intro j h
    rw [colSpec, List.pairwise_append]
    refine ⟨?_, ih (j + 1) (fun r hr => h r (by simp [hr])), ?_⟩
    · rcases filter_col (h r (by simp)) c with e | ⟨v, e⟩ <;> simp [e]
    · intro a ha b hb
      obtain ⟨q, _, rfl⟩ := List.mem_map.1 ha
      obtain ⟨i, hk, _⟩ := (mem_colSpec c rs (j + 1) b.1 b.2).1 hb
      rw [hk]; push_cast; omega

end Verif.Sparse.Lemmas
