import Verif.SparseFile.Spec
import Verif.Sparse.Lemmas
/-! # Lemmas about the files of sparse matrices -/
namespace Verif.SparseFile.Lemmas
open Verif.SparseFile Verif.SparseFile.Spec Verif.Sparse Verif.Sparse.Spec Verif.Sparse.Lemmas Verif.Code

theorem offsetName_eq (fn : Name) : offsetName fn = second fn := by
  have : ".offset".toUTF8.toList = [46, 111, 102, 102, 115, 101, 116] := by decide +kernel
  rw [offsetName, second, this]

theorem second_ne (fn : Name) : second fn ≠ fn := by
  rw [← offsetName_eq, offsetName]
  intro h
  have := congrArg List.length h
  simp at this

theorem second_inj {a b : Name} (h : second a = second b) : a = b := by
  rw [second, second] at h
  exact List.append_cancel_right h

/-! ### Sizes -/

theorem prefixBytes_le : ∀ (k v : Nat), v < 128 ^ (k + 1) → (prefixBytes v).length ≤ k + 1 := by
  intro k
  induction k with
  | zero =>
    intro v h
    rw [prefixBytes, dif_neg (by omega)]
    simp
  | succ k ih =>
    intro v h
    rw [prefixBytes]
    split
    · have : v >>> 7 < 128 ^ (k + 1) := by
        rw [Nat.shiftRight_eq_div_pow]
        rw [Nat.pow_succ] at h
        omega
      have := ih _ this
      simp only [List.length_cons]
      omega
    · simp

theorem rowBytes_le : ∀ (row : Row) (prev : Int), (rowBytes row prev).length ≤ 6 * row.length := by
  intro row
  induction row with
  | nil => intro prev; simp [rowBytes]
  | cons p r ih =>
    intro prev
    obtain ⟨c, v⟩ := p
    have h1 := ih c
    have h2 := prefixBytes_le 4 ((c - prev) % 2 ^ 32).toNat (by omega)
    simp only [rowBytes, List.length_append, List.length_cons]
    omega

theorem flat_le (rows : List Row) : (flat rows).length ≤ 6 * (rows.map List.length).sum := by
  induction rows with
  | nil => simp [flat]
  | cons r rs ih =>
    have := rowBytes_le r (-1)
    simp only [flat, List.flatMap_cons, List.length_append, List.map_cons, List.sum_cons] at *
    omega

theorem infoBytes_length (infos : List (Nat × Nat)) : (infoBytes infos).length = 8 * infos.length := by
  induction infos with
  | nil => rfl
  | cons p r ih => simp [infoBytes, Serial.Lemmas.length_toLE, ih]; omega

theorem offsetFile_length (w : Writer) : w.offsetFile.length = 4 + 8 * w.infos.length := by
  simp [Writer.offsetFile, infoBytes_length, Serial.Lemmas.length_toLE]

/-! ### Reading -/

theorem open_mem {data offs : List UInt8} {r : Reader} (h : Reader.open data offs = some r) :
    Reader.open [] offs = some ⟨attachStream [], r.infos, r.offsets⟩ ∧ r.mem = attachStream data := by
  unfold Reader.open at h ⊢
  dsimp only at h ⊢
  split at h
  · cases h
  · rename_i h1
    rw [if_neg h1]
    split at h
    · cases h
    · rename_i h2
      rw [if_neg h2]
      split at h
      · cases h
      · rename_i h3
        rw [if_neg h3]
        cases ho : offsetsFrom 0 (parseInfos (Serial.ofLE (offs.take 4)) (offs.drop 4 ++ List.replicate (8 * Serial.ofLE (offs.take 4)) 0)) with
        | none => rw [ho] at h; cases h
        | some o =>
          rw [ho] at h
          cases h
          exact ⟨rfl, rfl⟩

/-- The table of the rows. -/
def table (rows : List Row) : Bytes := (Writer.mk [] (rows.map info)).offsetFile

theorem rowSize_eq (m : Bytes) (t : List (Nat × Nat) × List Nat) (i : Int) (n : Nat) (h : Reader.num ⟨m, t.1, t.2⟩ i = .ok n) :
    R.rowSize ⟨some m, some t⟩ i = some (n : Int) := by
  have : Reader.num ⟨[], t.1, t.2⟩ i = .ok n := h
  simp only [R.rowSize, this]

theorem num_info {rows : List Row} {m : Bytes} {os : List Nat} (i : Nat) (hi : i < rows.length) :
    Reader.num ⟨m, rows.map info, os⟩ i = .ok rows[i].length := by
  unfold Reader.num
  rw [if_neg (by simp only [List.length_map]; omega), if_neg (by omega)]
  simp [hi, info]

theorem opens {S : Sys} {d : Disk} {fn : Name} {rows : List Row} (hst : ∀ r ∈ rows, Storable (-1) r)
    (hs : (flat rows).length < 2 ^ 31) (hn : rows.length < 2 ^ 31)
    (hr : S.read fn = true) (hr' : S.read (second fn) = true) (h1 : d fn = some (flat rows)) (h2 : d (second fn) = some (table rows)) :
    Shows S d fn rows := by
  obtain ⟨os, ho, hos⟩ := open_spec hs hn
  obtain ⟨h3, h4⟩ := open_mem ho
  have ht : (Writer.mk (flat rows) (rows.map info)).offsetFile = table rows := rfl
  rw [ht] at h3
  refine ⟨⟨some (attachStream (flat rows)), some (rows.map info, os)⟩, ?_, by simp [R.rowNum], ?_⟩
  · unfold R.open
    dsimp only
    simp only [offsetName_eq, content, hr, hr', if_true, h1, h2, h3, Option.map_some]
  · intro i hi
    exact ⟨rowSize_eq _ _ _ _ (num_info i hi), getRow_spec hst hos i hi⟩

/-! ### Writing -/

theorem run_append (S : Sys) : ∀ (a b : List Op) (s : St), run S (a ++ b) s =
    (run S a s).bind fun r => (run S b r.2).map fun q => (r.1 ++ q.1, q.2) := by
  intro a
  induction a with
  | nil => intro b s; simp only [List.nil_append, run, Option.bind_some]; cases run S b s <;> rfl
  | cons o os ih =>
    intro b s
    simp only [List.cons_append, run]
    cases step S o s with
    | none => rfl
    | some r =>
      simp only [Option.bind_some, ih]
      cases run S os r.2 with
      | none => rfl
      | some q =>
        simp only [Option.bind_some, Option.map_some]
        cases run S b q.2 <;> rfl

theorem run_rows (S : Sys) (n m : Name) (d : Disk) : ∀ (rows : List Row) (b : Bytes) (infos : List (Nat × Nat)), (∀ r ∈ rows, Storable (-1) r) →
    run S (rows.map .append) ⟨⟨some (n, b), some (m, infos)⟩, d⟩ =
      some (List.replicate rows.length 0, ⟨⟨some (n, b ++ flat rows), some (m, infos ++ rows.map info)⟩, d⟩) := by
  intro rows
  induction rows with
  | nil => intro b infos _; simp [run, flat]
  | cons r rs ih =>
    intro b infos h
    have ha : W.append r ⟨some (n, b), some (m, infos)⟩ = some ⟨some (n, b ++ rowBytes r (-1)), some (m, infos ++ [info r])⟩ := by
      simp only [W.append, append_spec ⟨b, infos⟩ (h r (by simp)), Option.map_some]
    simp only [List.map_cons, run, step, ha, Option.map_some, Option.bind_some]
    rw [ih _ _ (fun x hx => h x (by simp [hx]))]
    simp [flat, List.replicate_succ]

/-- The writer holds no file of the matrix `fn`. -/
def Clear (fn : Name) (w : W) : Prop :=
  (∀ p, w.ofs = some p → p.1 ≠ fn ∧ p.1 ≠ second fn) ∧ ∀ t, w.tab = some t → t.1 ≠ fn ∧ t.1 ≠ second fn

theorem put_other {d : Disk} {n m : Name} {b : Bytes} (h : m ≠ n) : put d n b m = d m := by
  rw [put, if_neg h]

theorem put_same {d : Disk} {n : Name} {b : Bytes} : put d n b n = some b := by
  rw [put, if_pos rfl]

theorem endFile_other {S : Sys} {o : Option (Name × Bytes)} {d : Disk} {m : Name} (h : ∀ p, o = some p → p.1 ≠ m) : endFile S o d m = d m := by
  cases o with
  | none => rfl
  | some p => exact put_other (fun e => h p rfl e.symm)

theorem flushTab_other {S : Sys} {t : Name × List (Nat × Nat)} {d : Disk} {m : Name} (h : t.1 ≠ m) : flushTab S t d m = d m := by
  unfold flushTab
  split
  · rfl
  split
  · exact put_other (fun e => h e.symm)
  · rfl

theorem close_other {S : Sys} {w : W} {d : Disk} {m : Name} (h : ∀ p, w.ofs = some p → p.1 ≠ m) (h' : ∀ t, w.tab = some t → t.1 ≠ m) :
    (w.close S d).2 m = d m := by
  unfold W.close
  split
  · rename_i t ht
    dsimp only
    rw [flushTab_other (h' t ht), endFile_other h]
  · exact endFile_other h

theorem close_new (S : Sys) (w : W) (d : Disk) : (w.close S d).1 = ⟨none, none⟩ := by
  unfold W.close
  split <;> rfl

theorem clear_new (fn : Name) : Clear fn ⟨none, none⟩ := ⟨(fun _ h => by cases h), (fun _ h => by cases h)⟩

theorem open_eq (S : Sys) (fn : Name) (w : W) (d : Disk) : W.open S fn w d =
    if S.write fn then (0, ⟨some (fn, []), some (second fn, [])⟩, put (w.close S d).2 fn []) else (-1, ⟨none, none⟩, (w.close S d).2) := by
  unfold W.open
  rw [offsetName_eq, ← close_new S w d]

/-- Both files stay when other matrices are written. -/
theorem step_keeps {S : Sys} {fn : Name} {o : Op} {s : St} {r : Int × St} (hc : Clear fn s.w) (ho : ∀ g, o = .open g → Apart fn g)
    (h : step S o s = some r) : Clear fn r.2.w ∧ r.2.d fn = s.d fn ∧ r.2.d (second fn) = s.d (second fn) := by
  have c1 : (s.w.close S s.d).2 fn = s.d fn := close_other (fun p hp => (hc.1 p hp).1) (fun p hp => (hc.2 p hp).1)
  have c2 : (s.w.close S s.d).2 (second fn) = s.d (second fn) := close_other (fun p hp => (hc.1 p hp).2) (fun p hp => (hc.2 p hp).2)
  cases o with
  | «open» g =>
    obtain ⟨a1, a2, a3⟩ := ho g rfl
    simp only [step, open_eq] at h
    split at h
    · cases h
      refine ⟨⟨fun p hp => by cases hp; exact ⟨a1, a2⟩, fun t ht => by cases ht; exact ⟨a3, fun e => a1 (second_inj e)⟩⟩, ?_, ?_⟩
      · dsimp only
        rw [put_other (fun e => a1 e.symm), c1]
      · dsimp only
        rw [put_other (fun e => a2 e.symm), c2]
    · cases h
      exact ⟨clear_new fn, c1, c2⟩
  | append row =>
    simp only [step] at h
    obtain ⟨w', hw, rfl⟩ := Option.map_eq_some_iff.1 h
    refine ⟨?_, rfl, rfl⟩
    dsimp only
    unfold W.append at hw
    split at hw
    · rename_i n b m infos e1 e2
      obtain ⟨x, hx, rfl⟩ := Option.map_eq_some_iff.1 hw
      exact ⟨(fun p hp => by cases hp; exact hc.1 (n, b) e1), (fun t ht => by cases ht; exact hc.2 (m, infos) e2)⟩
    · cases hw
      exact hc
  | rowNum =>
    simp only [step] at h
    obtain ⟨n, hn, rfl⟩ := Option.map_eq_some_iff.1 h
    exact ⟨hc, rfl, rfl⟩
  | close =>
    simp only [step] at h
    cases h
    dsimp only
    rw [close_new]
    exact ⟨clear_new fn, c1, c2⟩
  | renew =>
    simp only [step] at h
    cases h
    exact ⟨clear_new fn, endFile_other fun p hp => (hc.1 p hp).1, endFile_other fun p hp => (hc.1 p hp).2⟩

theorem run_keeps {S : Sys} {fn : Name} : ∀ (ops : List Op) {s : St} {r : List Int × St}, Clear fn s.w → (∀ g, .open g ∈ ops → Apart fn g) →
    run S ops s = some r → Clear fn r.2.w ∧ r.2.d fn = s.d fn ∧ r.2.d (second fn) = s.d (second fn) := by
  intro ops
  induction ops with
  | nil => intro s r hc _ h; cases h; exact ⟨hc, rfl, rfl⟩
  | cons o os ih =>
    intro s r hc ho h
    simp only [run] at h
    obtain ⟨r1, h1, h2⟩ := Option.bind_eq_some_iff.1 h
    obtain ⟨q, h3, rfl⟩ := Option.map_eq_some_iff.1 h2
    obtain ⟨k1, k2, k3⟩ := step_keeps hc (fun g e => ho g (by simp [e])) h1
    obtain ⟨l1, l2, l3⟩ := ih k1 (fun g e => ho g (by simp [e])) h3
    exact ⟨l1, l2.trans k2, l3.trans k3⟩

theorem take_of_le {b : Bytes} {n : Nat} (h : b.length ≤ n) : b.take n = b := List.take_of_length_le h

theorem second_length (fn : Name) : (second fn).length ≠ 0 := by
  rw [← offsetName_eq, offsetName]
  simp

/-- What `close` leaves of an open matrix. -/
theorem close_open {S : Sys} {fn : Name} {b : Bytes} {infos : List (Nat × Nat)} {d : Disk} (h1 : b.length ≤ S.cap) (h2 : 4 + 8 * infos.length ≤ S.cap)
    (hw : S.write (second fn) = true) :
    (W.close S ⟨some (fn, b), some (second fn, infos)⟩ d).2 = put (put d fn b) (second fn) (Writer.mk [] infos).offsetFile := by
  simp only [W.close, flushTab, if_neg (second_length fn), hw, if_true, endFile]
  rw [take_of_le h1, take_of_le (by rw [offsetFile_length]; exact h2)]

/-! ### Transposing -/

theorem rowsFrom_file {r : R} {rows : List Row} (h : ∀ i (hi : i < rows.length), r.getRow i = .ok rows[i]) :
    ∀ n i, i + n = rows.length → r.rowsFrom i n = some (rows.drop i) := by
  intro n
  induction n with
  | zero => intro i hi; rw [List.drop_of_length_le (by omega)]; rfl
  | succ n ih =>
    intro i hi
    rw [List.drop_eq_getElem_cons (by omega)]
    simp only [R.rowsFrom, h i (by omega), ih (i + 1) (by omega), Option.map_some]

/-- A reader of the same rows. -/
theorem as_reader {r : R} {rows : List Row} (hn : r.rowNum = rows.length) (h : ∀ (i : Nat) (hi : i < rows.length), r.getRow i = .ok rows[i]) :
    ∃ rd : Reader, rd.rowNum = rows.length ∧ ∀ (i : Nat) (hi : i < rows.length), rd.getRow i = .ok rows[i] := by
  cases rows with
  | nil => exact ⟨⟨[], [], []⟩, rfl, fun i hi => by simp at hi⟩
  | cons x xs =>
    have h0 := h 0 (by simp)
    obtain ⟨mem, tab⟩ := r
    cases mem with
    | none => simp [R.getRow] at h0
    | some m =>
      cases tab with
      | none => simp [R.getRow] at h0
      | some t => exact ⟨⟨m, t.1, t.2⟩, hn, h⟩

theorem rowsFrom_closed {r : R} (h : r.mem = none) : ∀ n i, r.rowsFrom i n = some (List.replicate n []) := by
  intro n
  induction n with
  | zero => intro i; rfl
  | succ n ih =>
    intro i
    have : r.getRow i = .unchanged := by simp only [R.getRow, h]
    simp only [R.rowsFrom, this, ih, Option.map_some, List.replicate_succ]

theorem countRows_empty : ∀ (n : Nat) (tc : List Nat), countRows (List.replicate n []) tc = some tc := by
  intro n
  induction n with
  | zero => intro tc; rfl
  | succ n ih =>
    intro tc
    simp only [List.replicate_succ, countRows, countRow, Option.bind_some, ih]

end Verif.SparseFile.Lemmas
