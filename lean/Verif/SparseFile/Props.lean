import Verif.SparseFile.Lemmas
import Verif.Sparse.Props
/-! # C100: the files of sparse matrices -/
namespace Verif.SparseFile.Props
open Verif.SparseFile Verif.SparseFile.Spec Verif.SparseFile.Lemmas Verif.Sparse Verif.Sparse.Spec Verif.Sparse.Lemmas

set_option synthInstance.maxSize 1000

/-- A disk for the examples: everything is allowed, and a file has at most `cap` bytes. -/
def sys (cap : Nat) : Sys := ⟨fun _ => true, fun _ => true, cap⟩

/-- An empty disk. -/
def blank : St := ⟨.new, fun _ => none⟩

/-- The names `m`, `t` and `m.offset`. -/
def m : Name := [109]
def t : Name := [116]
def mo : Name := [109, 46, 111, 102, 102, 115, 101, 116]

/-! ### Writing -/

/-- C100: whatever was done before, the rows appended to a matrix that is then closed, also by opening another one, are those that a reader
sees, whatever other matrices are written later. A part, as the program has to end the writing itself (see `destroyed_without_table`), and as the disk has to
have room (see `full_disk_unreported`). -/
theorem saved_partial (S : Sys) (pre post : List Op) (fn : Name) (rows : List Row) (e : Op) (s : St) (r : List Int × St)
    (hst : ∀ x ∈ rows, ValidRow x) (hf : Free S fn) (hfit : Fit S rows) (he : Ends fn e) (hpost : ∀ g, .open g ∈ post → Apart fn g)
    (h : run S (pre ++ .open fn :: (rows.map .append ++ e :: post)) s = some r) :
    Shows S r.2.d fn rows := by
  have hst' : ∀ x ∈ rows, Storable (-1) x := fun x hx => storable_of_valid (hst x hx)
  have hl := flat_le rows
  rw [run_append] at h
  obtain ⟨r1, h1, h2⟩ := Option.bind_eq_some_iff.1 h
  obtain ⟨q1, h3, rfl⟩ := Option.map_eq_some_iff.1 h2
  simp only [run, step, open_eq, hf.write, if_true, Option.bind_some] at h3
  obtain ⟨q2, h4, rfl⟩ := Option.map_eq_some_iff.1 h3
  rw [run_append, run_rows S _ _ _ rows _ _ hst'] at h4
  simp only [Option.bind_some, List.nil_append] at h4
  obtain ⟨q3, h5, rfl⟩ := Option.map_eq_some_iff.1 h4
  simp only [run] at h5
  obtain ⟨r4, h6, h7⟩ := Option.bind_eq_some_iff.1 h5
  obtain ⟨q4, h8, rfl⟩ := Option.map_eq_some_iff.1 h7
  dsimp only
  have hclose : ∀ d, (W.close S ⟨some (fn, flat rows), some (second fn, rows.map info)⟩ d).2 =
      put (put d fn (flat rows)) (second fn) (table rows) := fun d =>
    close_open (by have := hfit.data; omega) (by rw [List.length_map]; exact hfit.table) hf.write'
  have key : Clear fn r4.2.w ∧ r4.2.d fn = some (flat rows) ∧ r4.2.d (second fn) = some (table rows) := by
    cases he with
    | close =>
      simp only [step] at h6
      cases h6
      dsimp only
      rw [close_new, hclose]
      exact ⟨clear_new fn, by rw [put_other (second_ne fn).symm, put_same], put_same⟩
    | next ha =>
      obtain ⟨a1, a2, a3⟩ := ha
      simp only [step, open_eq, hclose] at h6
      split at h6
      · cases h6
        refine ⟨⟨(fun p hp => by cases hp; exact ⟨a1, a2⟩), (fun t ht => by cases ht; exact ⟨a3, fun e => a1 (second_inj e)⟩)⟩, ?_, ?_⟩
        · dsimp only
          rw [put_other (fun e => a1 e.symm), put_other (second_ne fn).symm, put_same]
        · dsimp only
          rw [put_other (fun e => a2 e.symm), put_same]
      · cases h6
        exact ⟨clear_new fn, by dsimp only; rw [put_other (second_ne fn).symm, put_same], by dsimp only; rw [put_same]⟩
  obtain ⟨_, k2, k3⟩ := run_keeps post key.1 hpost h8
  exact opens hst' (by have := hfit.small; omega) hfit.few hf.read hf.read' (k2.trans key.2.1) (k3.trans key.2.2)

example : ∃ r, run (sys 100) ([.open m] ++ .open m :: ([[(0, 5), (200, 7)], [], [(1, 9)]].map .append ++ .open t :: [.append [(3, 3)], .renew])) blank = some r ∧
    Shows (sys 100) r.2.d m [[(0, 5), (200, 7)], [], [(1, 9)]] := by
  have hr : ∃ r, run (sys 100) ([.open m] ++ .open m :: ([[(0, 5), (200, 7)], [], [(1, 9)]].map .append ++ .open t :: [.append [(3, 3)], .renew])) blank = some r := by
    rw [← Option.isSome_iff_exists]
    decide +kernel
  obtain ⟨r, hr⟩ := hr
  exact ⟨r, hr, saved_partial _ [.open m] [.append [(3, 3)], .renew] m _ (.open t) blank r (by simp only [ValidRow]; decide +kernel) ⟨rfl, rfl, rfl, rfl⟩
    ⟨by decide, by decide, by decide, by decide⟩ (.next ⟨by decide, by decide +kernel, by decide +kernel⟩) (by simp) hr⟩

/-- What `open` and `row_num` return: 0 if the file can be written, −1 otherwise; and the number of rows appended so far. -/
theorem writer_tells (S : Sys) (fn : Name) (rows : List Row) (s : St) (hst : ∀ x ∈ rows, ValidRow x) :
    (S.write fn = true → ∃ s', run S (.open fn :: rows.map .append ++ [.rowNum]) s = some (0 :: List.replicate rows.length 0 ++ [(rows.length : Int)], s')) ∧
    (S.write fn = false → ∃ s', step S (.open fn) s = some (-1, s') ∧ run S (rows.map .append) s' = some (List.replicate rows.length 0, s')) := by
  have hst' : ∀ x ∈ rows, Storable (-1) x := fun x hx => storable_of_valid (hst x hx)
  constructor
  · intro hw
    refine ⟨⟨⟨some (fn, flat rows), some (second fn, rows.map info)⟩, put (s.w.close S s.d).2 fn []⟩, ?_⟩
    simp only [List.cons_append, run, step, open_eq, hw, if_true, Option.bind_some]
    rw [run_append, run_rows S _ _ _ rows _ _ hst']
    simp only [Option.bind_some, run, step, W.rowNum, Option.map_some, List.nil_append, List.length_map]
    rfl
  · intro hw
    refine ⟨⟨⟨none, none⟩, (s.w.close S s.d).2⟩, by simp [step, open_eq, hw], ?_⟩
    clear hst hst'
    induction rows with
    | nil => rfl
    | cons x xs ih =>
      simp only [List.map_cons, run, step, W.append, Option.map_some, Option.bind_some, ih, List.replicate_succ, List.length_cons]

example : (run (sys 100) (.open m :: [[(0, 5)], []].map .append ++ [.rowNum]) blank).map (·.1) = some [0, 0, 0, 2] := by decide +kernel

/-- `row_num` of a writer that is not open is undefined: `offsets` is not tested, other than in `sparse_matrix_reader::row_num`. -/
theorem closed_row_num (S : Sys) (s : St) : (∃ r, step S .close s = some r ∧ step S .rowNum r.2 = none) ∧ step S .rowNum ⟨.new, s.d⟩ = none := by
  refine ⟨⟨(0, ⟨(s.w.close S s.d).1, (s.w.close S s.d).2⟩), rfl, ?_⟩, rfl⟩
  simp only [step, close_new]
  rfl

/-- The destructor writes no table: a matrix that is not closed by the program has the table that it had before, or none. -/
theorem destroyed_without_table (S : Sys) (fn : Name) (rows : List Row) (s : St) (hs : s.w = .new) (hst : ∀ x ∈ rows, ValidRow x)
    (hw : S.write fn = true) : ∃ s', run S (.open fn :: rows.map .append ++ [.renew]) s = some (0 :: List.replicate rows.length 0 ++ [0], s') ∧
      s'.d (second fn) = s.d (second fn) ∧ (s.d (second fn) = none → ∀ r, R.open S fn s'.d = some r → r.1 = -1 ∧ r.2.rowNum = 0) := by
  have hst' : ∀ x ∈ rows, Storable (-1) x := fun x hx => storable_of_valid (hst x hx)
  have hd : (s.w.close S s.d).2 = s.d := by rw [hs]; rfl
  have e : run S (.open fn :: rows.map .append ++ [.renew]) s = some (0 :: List.replicate rows.length 0 ++ [0],
      ⟨.new, put (put s.d fn []) fn ((flat rows).take S.cap)⟩) := by
    simp only [List.cons_append, run, step, open_eq, hw, if_true, Option.bind_some]
    rw [run_append, run_rows S _ _ _ rows _ _ hst', hd]
    simp only [Option.bind_some, run, step, Option.map_some, List.nil_append, W.destroy, endFile]
  have k : (put (put s.d fn []) fn ((flat rows).take S.cap)) (second fn) = s.d (second fn) := by
    rw [put_other (second_ne fn), put_other (second_ne fn)]
  refine ⟨_, e, k, ?_⟩
  intro hn r hr
  unfold R.open at hr
  dsimp only at hr
  simp only [offsetName_eq, content, k, hn, ite_self] at hr
  cases hr
  exact ⟨rfl, rfl⟩

/-- A matrix is written over without being closed: who reads it then is told that all is well, and sees the rows of the old matrix with the
values of the new one. -/
theorem old_table_new_data : ∃ r rd, run (sys 100) [.open m, .append [(0, 5)], .append [(1, 6)], .close, .open m, .append [(2, 7), (4, 8)], .renew] blank = some r ∧
    R.open (sys 100) m r.2.d = some (0, rd) ∧ rd.rowNum = 2 ∧ rd.getRow 0 = .ok [(2, 7)] ∧ rd.getRow 1 = .ok [(1, 8)] := by
  have h : ((run (sys 100) [.open m, .append [(0, 5)], .append [(1, 6)], .close, .open m, .append [(2, 7), (4, 8)], .renew] blank).bind
      fun r => R.open (sys 100) m r.2.d).map (fun x => (x.1, x.2.rowNum, x.2.getRow 0, x.2.getRow 1)) = some (0, 2, .ok [(2, 7)], .ok [(1, 8)]) := by decide +kernel
  obtain ⟨x, h1, h2⟩ := Option.map_eq_some_iff.1 h
  obtain ⟨r, h3, h4⟩ := Option.bind_eq_some_iff.1 h1
  obtain ⟨a, b⟩ := x
  simp only [Prod.mk.injEq] at h2
  obtain ⟨rfl, h5, h6, h7⟩ := h2
  exact ⟨r, b, h3, h4, h5, h6, h7⟩

/-- A disk that is full: every call returns 0, and a reader that opens the matrix finds its rows undefined. -/
theorem full_disk_unreported : ∃ r rd, run (sys 20) [.open m, .append [(0, 5), (1, 5), (2, 5), (3, 5), (4, 5), (5, 5), (6, 5), (7, 5), (8, 5), (9, 5), (10, 5), (11, 5), (12, 5), (13, 5), (14, 5)], .close] blank = some r ∧
    r.1 = [0, 0, 0] ∧ R.open (sys 20) m r.2.d = some (0, rd) ∧ rd.rowNum = 1 ∧ rd.getRow 0 = .undefined := by
  have h : ((run (sys 20) [.open m, .append [(0, 5), (1, 5), (2, 5), (3, 5), (4, 5), (5, 5), (6, 5), (7, 5), (8, 5), (9, 5), (10, 5), (11, 5), (12, 5), (13, 5), (14, 5)], .close] blank).bind
      fun r => (R.open (sys 20) m r.2.d).map fun x => (r, x)).map (fun x => (x.1.1, x.2.1, x.2.2.rowNum, x.2.2.getRow 0)) = some ([0, 0, 0], 0, 1, .undefined) := by decide +kernel
  obtain ⟨x, h1, h2⟩ := Option.map_eq_some_iff.1 h
  obtain ⟨r, h3, h4⟩ := Option.bind_eq_some_iff.1 h1
  obtain ⟨y, h5, rfl⟩ := Option.map_eq_some_iff.1 h4
  obtain ⟨a, b⟩ := y
  simp only [Prod.mk.injEq] at h2
  obtain ⟨h6, rfl, h7, h8⟩ := h2
  exact ⟨r, b, h3, h6, h5, h7, h8⟩

/-- Only the data file is opened by `open`: if the table cannot be written, every call returns 0 nevertheless, and there is no matrix. -/
theorem table_unwritten (S : Sys) (fn : Name) (rows : List Row) (s : St) (hs : s.w = .new) (hst : ∀ x ∈ rows, ValidRow x)
    (hw : S.write fn = true) (hw' : S.write (second fn) = false) (hn : s.d (second fn) = none) :
    ∃ s', run S (.open fn :: rows.map .append ++ [.close]) s = some (0 :: List.replicate rows.length 0 ++ [0], s') ∧
      ∀ r, R.open S fn s'.d = some r → r.1 = -1 ∧ r.2.rowNum = 0 := by
  have hst' : ∀ x ∈ rows, Storable (-1) x := fun x hx => storable_of_valid (hst x hx)
  have hd : (s.w.close S s.d).2 = s.d := by rw [hs]; rfl
  have e : run S (.open fn :: rows.map .append ++ [.close]) s = some (0 :: List.replicate rows.length 0 ++ [0],
      ⟨.new, put (put s.d fn []) fn ((flat rows).take S.cap)⟩) := by
    simp only [List.cons_append, run, step, open_eq, hw, if_true, Option.bind_some]
    rw [run_append, run_rows S _ _ _ rows _ _ hst', hd]
    simp only [Option.bind_some, run, step, Option.map_some, List.nil_append, W.close, flushTab, if_neg (second_length fn), hw', endFile]
    rfl
  have k : (put (put s.d fn []) fn ((flat rows).take S.cap)) (second fn) = none := by
    rw [put_other (second_ne fn), put_other (second_ne fn), hn]
  refine ⟨_, e, ?_⟩
  intro r hr
  unfold R.open at hr
  dsimp only at hr
  simp only [offsetName_eq, content, k, ite_self] at hr
  cases hr
  exact ⟨rfl, rfl⟩

example : (⟨fun _ => true, fun n => n != mo, 100⟩ : Sys).write m = true ∧ (⟨fun _ => true, fun n => n != mo, 100⟩ : Sys).write (second m) = false := by decide +kernel

/-- Two matrices may share a file: the table of `m` is the data of `m.offset`, which is lost. -/
theorem names_clash : ∃ r rd, run (sys 100) [.open mo, .append [(0, 5)], .close, .open m, .append [(1, 6)], .close] blank = some r ∧
    R.open (sys 100) mo r.2.d = some (0, rd) ∧ rd.rowNum = 1 ∧ rd.getRow 0 ≠ .ok [(0, 5)] := by
  have h : ((run (sys 100) [.open mo, .append [(0, 5)], .close, .open m, .append [(1, 6)], .close] blank).bind
      fun r => R.open (sys 100) mo r.2.d).map (fun x => (x.1, x.2.rowNum, decide (x.2.getRow 0 ≠ .ok [(0, 5)]))) = some (0, 1, true) := by decide +kernel
  obtain ⟨x, h1, h2⟩ := Option.map_eq_some_iff.1 h
  obtain ⟨r, h3, h4⟩ := Option.bind_eq_some_iff.1 h1
  obtain ⟨a, b⟩ := x
  simp only [Prod.mk.injEq, decide_eq_true_eq] at h2
  obtain ⟨rfl, h5, h6⟩ := h2
  exact ⟨r, b, h3, h4, h5, h6⟩

example : ¬ Apart mo m ∧ second m = mo := by
  have : second m = mo := by decide +kernel
  exact ⟨fun h => h.2.2 this, this⟩

/-! ### Reading -/

/-- A reader that is not open has no rows, and leaves what it is given to fill. -/
theorem closed_reader (i : Int) : R.new.rowNum = 0 ∧ R.new.rowSize i = some 0 ∧ R.new.getRow i = .unchanged := ⟨rfl, rfl, rfl⟩

/-- Without a table, `open` says so; afterwards there are no rows, and indices from 0 on leave what is given to fill. -/
theorem no_table (S : Sys) (fn : Name) (d : Disk) (h : d (second fn) = none ∨ S.read (second fn) = false) :
    ∃ r, R.open S fn d = some (-1, r) ∧ r.rowNum = 0 ∧ ∀ i : Int, 0 ≤ i → r.rowSize i = some (-1) ∧ r.getRow i = .unchanged := by
  have hc : content S d (second fn) = none := by
    unfold content
    rcases h with h | h
    · rw [h]; exact ite_self _
    · rw [h]; rfl
  refine ⟨⟨(content S d fn).map Code.attachStream, some ([], [])⟩, ?_, rfl, ?_⟩
  · unfold R.open
    dsimp only
    simp only [offsetName_eq, hc]
  · intro i hi
    have hnum : ∀ m, Reader.num ⟨m, [], []⟩ i = .unchanged := fun m => by
      unfold Reader.num
      rw [if_pos (by simpa using hi)]
    refine ⟨by simp only [R.rowSize, hnum], ?_⟩
    cases content S d fn with
    | none => rfl
    | some b => simp only [R.getRow, Option.map_some, Reader.getRow, hnum]

/-- Without data, `open` returns 0 as if all were well: the reader tells how many rows there are and how long they are, and `get_row` does nothing. -/
theorem no_data_unreported (S : Sys) (fn : Name) (d : Disk) (rows : List Row) (h : Shows S d fn rows) (d' : Disk) (hd : d' fn = none)
    (ho : d' (second fn) = d (second fn)) :
    ∃ r, R.open S fn d' = some (0, r) ∧ r.rowNum = rows.length ∧ (∀ (i : Nat) (hi : i < rows.length), r.rowSize i = some (rows[i].length : Int)) ∧
      ∀ i, r.getRow i = .unchanged := by
  obtain ⟨r, h1, h2, h3⟩ := h
  have hc : content S d' (second fn) = content S d (second fn) := by unfold content; rw [ho]
  have hm : content S d' fn = none := by unfold content; rw [hd]; exact ite_self _
  unfold R.open at h1
  dsimp only at h1
  rw [offsetName_eq] at h1
  cases hs : content S d (second fn) with
  | none => rw [hs] at h1; cases h1
  | some offs =>
    rw [hs] at h1
    simp only at h1
    obtain ⟨x, hx, he⟩ := Option.map_eq_some_iff.1 h1
    cases he
    refine ⟨⟨none, some (x.infos, x.offsets)⟩, ?_, h2, fun i hi => (h3 i hi).1, fun i => rfl⟩
    unfold R.open
    dsimp only
    rw [offsetName_eq, hc, hs, hm]
    simp only [hx, Option.map_some, Option.map_none]

/-! ### Transposing -/

/-- C100, transposition: it reports success, and the second matrix is the transpose of the first. The names may be the same, as the first matrix is
read before the second is written. -/
theorem transposed (S : Sys) (fn fnT : Name) (d : Disk) (rows : List Row) (free : Nat) (h : Shows S d fn rows) (hv : ∀ x ∈ rows, ValidRow x)
    (hn : rows.length < 2 ^ 31) (hf : Free S fnT) :
    ∃ R d', transposeFile S (some free) fn fnT d = some (0, d') ∧ IsTranspose rows R ∧ (Fit S R → Shows S d' fnT R) ∧
      ∀ x, x ≠ fnT → x ≠ second fnT → d' x = d x := by
  obtain ⟨r, h1, h2, h3⟩ := h
  obtain ⟨rd, g1, g2⟩ := as_reader h2 (fun i hi => (h3 i hi).2)
  obtain ⟨R, w, t1, t2, t3, t4⟩ := Sparse.Props.transpose_correct rows hv (free / 20) rd hn ⟨g1, g2⟩
  have hd1 := rowsFrom_file (r := r) (rows := rows) (fun i hi => (h3 i hi).2) rows.length 0 (by omega)
  have hd2 := rowsFrom_spec (rd := rd) (rows := rows) (fun i hi => g2 i hi) rows.length 0 (by omega)
  rw [List.drop_zero] at hd1 hd2
  unfold transpose at t1
  rw [g1, hd2, Option.bind_some] at t1
  obtain ⟨tc, c1, c2⟩ := Option.bind_eq_some_iff.1 t1
  have hw : w = ⟨flat R, R.map info⟩ := by
    have := appendAll_spec R Writer.new t3
    rw [t2] at this
    simpa [Writer.new] using this
  refine ⟨R, (W.close S ⟨some (fnT, w.data), some (offsetName fnT, w.infos)⟩ (put d fnT [])).2, ?_, t4, ?_, ?_⟩
  · unfold transposeFile
    have h0 : W.new.close S d = (⟨none, none⟩, d) := rfl
    simp only [h1, Option.bind_some, open_eq, hf.write, if_true, h0, h2, hd1, c1, c2, Option.map_some]
    rfl
  · intro hfit
    have hl := flat_le R
    have hc : (W.close S ⟨some (fnT, w.data), some (offsetName fnT, w.infos)⟩ (put d fnT [])).2 =
        put (put (put d fnT []) fnT (flat R)) (second fnT) (table R) := by
      rw [offsetName_eq, hw]
      exact close_open (by have := hfit.data; dsimp only; omega) (by rw [List.length_map]; exact hfit.table) hf.write'
    rw [hc]
    exact opens t3 (by have := hfit.small; omega) hfit.few hf.read hf.read' (by rw [put_other (second_ne fnT).symm, put_same]) put_same
  · intro x hx hx'
    rw [close_other, put_other hx]
    · intro p hp; cases hp; exact fun e => hx e.symm
    · intro p hp; cases hp; rw [offsetName_eq]; exact fun e => hx' e.symm

/-- A matrix of two rows is written and transposed onto itself. -/
def onItself : Option (Int × Nat × Got Row × Got Row) :=
  ((run (sys 100) [.open m, .append [(0, 5), (1, 6)], .append [(1, 7)], .close] blank).bind fun r => transposeFile (sys 100) (some 40) m m r.2.d).bind
    fun x => (R.open (sys 100) m x.2).map fun y => (x.1, y.2.rowNum, y.2.getRow 0, y.2.getRow 1)

example : onItself = some (0, 2, .ok [(0, 5)], .ok [(0, 6), (1, 7)]) := by decide +kernel

/-- If the free memory cannot be found out, `matrix_transpose` returns −1 and has emptied the second matrix: its data are gone and its table
is still there. -/
theorem failed_empties (S : Sys) (fn fnT : Name) (d : Disk) (rows : List Row) (h : Shows S d fn rows) (hv : ∀ x ∈ rows, ValidRow x)
    (hw : S.write fnT = true) :
    ∃ d', transposeFile S none fn fnT d = some (-1, d') ∧ d' fnT = some [] ∧ d' (second fnT) = d (second fnT) := by
  obtain ⟨r, h1, h2, h3⟩ := h
  have hd1 := rowsFrom_file (r := r) (rows := rows) (fun i hi => (h3 i hi).2) rows.length 0 (by omega)
  rw [List.drop_zero] at hd1
  obtain ⟨tc, c1, -⟩ := countRows_spec rows [] (fun r hr p hp => ((hv r hr).2 p hp).1) (fun x hx => by cases hx)
  have h0 : W.new.close S d = (⟨none, none⟩, d) := rfl
  refine ⟨put (put d fnT []) fnT [], ?_, put_same, ?_⟩
  · unfold transposeFile
    simp only [h1, Option.bind_some, open_eq, hw, if_true, h0, h2, hd1, c1, W.destroy, endFile, List.take_nil]
    rfl
  · rw [put_other (second_ne fnT), put_other (second_ne fnT)]

/-- A matrix whose data are missing is transposed into an empty one, and success is reported. -/
theorem no_data_transposed (S : Sys) (fn fnT : Name) (d : Disk) (rows : List Row) (h : Shows S d fn rows) (d' : Disk) (hd : d' fn = none)
    (ho : d' (second fn) = d (second fn)) (free : Nat) (hf : Free S fnT) (hcap : 4 ≤ S.cap) :
    ∃ d'', transposeFile S (some free) fn fnT d' = some (0, d'') ∧ Shows S d'' fnT [] := by
  obtain ⟨r, h1, h2, -, h4⟩ := no_data_unreported S fn d rows h d' hd ho
  have hm : r.mem = none := by
    unfold R.open at h1
    dsimp only at h1
    have hm : content S d' fn = none := by unfold content; rw [hd]; exact ite_self _
    split at h1
    · cases h1
    · obtain ⟨x, hx, he⟩ := Option.map_eq_some_iff.1 h1
      cases he
      rw [hm]
      rfl
  have h0 : W.new.close S d' = (⟨none, none⟩, d') := rfl
  have hb : bounds (free / 20) [] = [] := rfl
  refine ⟨(W.close S ⟨some (fnT, []), some (offsetName fnT, [])⟩ (put d' fnT [])).2, ?_, ?_⟩
  · unfold transposeFile
    simp only [h1, Option.bind_some, open_eq, hf.write, if_true, h0, rowsFrom_closed hm, countRows_empty, hb, blocks, Option.map_some]
    rfl
  · rw [offsetName_eq, close_open (by simp) (by simpa using hcap) hf.write']
    exact opens (rows := []) (by simp) (by decide) (by decide) hf.read hf.read' (by rw [put_other (second_ne fnT).symm, put_same]; rfl) put_same

end Verif.SparseFile.Props
