import Verif.Sparse.Lemmas
/-!
# C23: sparse matrices
-/
namespace Verif.Sparse.Props
open Verif.Sparse Verif.Sparse.Spec Verif.Sparse.Lemmas

/-- **C23.** Rows appended to a writer are returned unchanged and in order by
the reader, as a vector and as a map, as long as the data file is below
2 GiB. The map that is passed keeps its other entries. -/
theorem rows_survive (rows : List Row) (hst : ∀ r ∈ rows, Storable (-1) r) :
    ∃ w, Writer.new.appendAll rows = some w ∧
      (w.data.length < 2 ^ 31 → rows.length < 2 ^ 31 →
        ∃ rd, Reader.open w.data w.offsetFile = some rd ∧ rd.rowNum = rows.length ∧
          ∀ (i : Nat) (hi : i < rows.length),
            rd.num i = .ok rows[i].length ∧ rd.getRow i = .ok rows[i] ∧
            ∀ m, rd.getRowMap i m = .ok (rows[i].foldl (fun m p => AssocMap.upsert m p.1 p.2) m)) := by
  refine ⟨_, appendAll_spec rows Writer.new hst, ?_⟩
  intro hd hn
  simp only [Writer.new, List.nil_append] at hd ⊢
  obtain ⟨os, h1, h2⟩ := open_spec hd hn
  refine ⟨_, h1, by simp [Reader.rowNum], ?_⟩
  intro i hi
  have hg := getRow_spec hst h2 i hi
  refine ⟨?_, hg, fun m => by simp only [Reader.getRowMap, hg]⟩
  unfold Reader.num
  rw [if_neg (by simp only [List.length_map]; omega), if_neg (by omega)]
  simp [hi, info]

/-- Rows as documented can be stored. -/
theorem valid_storable (r : Row) (h : ValidRow r) : Storable (-1) r := storable_of_valid h

/-- What the map overloads of `get_row` leave for each column. -/
theorem map_contents (row : Row) (h : row.Pairwise (fun a b => a.1 < b.1)) (m : List (Int × UInt8))
    (c : Int) : AssocMap.find (row.foldl (fun m p => AssocMap.upsert m p.1 p.2) m) c =
      (AssocMap.find row c).or (AssocMap.find m c) := by
  induction row generalizing m with
  | nil => simp [AssocMap.find]
  | cons p r ih =>
    obtain ⟨k, v⟩ := p
    rw [List.pairwise_cons] at h
    rw [List.foldl_cons, ih h.2, AssocMap.find_upsert]
    have e : AssocMap.find ((k, v) :: r) c = if k = c then some v else AssocMap.find r c := by
      by_cases hk : k = c <;> simp [AssocMap.find, hk]
    rw [e]
    by_cases hk : k = c
    · subst hk
      have : AssocMap.find r k = none := by
        rw [AssocMap.find_eq_none_iff]
        intro hm
        obtain ⟨q, hq, hqk⟩ := List.mem_map.1 hm
        have := h.1 q hq
        simp only at this hqk
        omega
      simp [this]
    · simp [hk, Ne.symm hk]

/-- A row index past the end is refused without touching the target. -/
theorem index_past_end (rd : Reader) (i : Int) (h : (rd.rowNum : Int) ≤ i) (m : List (Int × UInt8)) :
    rd.getRow i = .unchanged ∧ rd.getRowMap i m = .unchanged := by
  have h' : (rd.infos.length : Int) ≤ i := h
  have : rd.getRow i = .unchanged := by simp only [Reader.getRow, Reader.num, h', if_true]
  exact ⟨this, by simp only [Reader.getRowMap, this]⟩

/-- A negative row index is undefined behaviour. -/
theorem negative_index (rd : Reader) (i : Int) (h : i < 0) : rd.getRow i = .undefined := by
  have : ¬ (rd.infos.length : Int) ≤ i := by omega
  simp only [Reader.getRow, Reader.num, this, if_false, h, if_true]

/-- Column `INT_MAX` as the first of a row overflows; it cannot be stored. -/
theorem int_max_column : Writer.new.append [(2 ^ 31 - 1, 1)] = none := by decide

/-- **C23.** Transposition, whatever the memory limit: the file written holds
the transpose of the matrix read. -/
theorem transpose_correct (rows : List Row) (hv : ∀ r ∈ rows, ValidRow r) (limit : Nat) (rd : Reader)
    (hn : rows.length < 2 ^ 31)
    (hrd : rd.rowNum = rows.length ∧ ∀ (i : Nat) (hi : i < rows.length), rd.getRow i = .ok rows[i]) :
    ∃ R w, transpose limit rd = some w ∧ Writer.new.appendAll R = some w ∧
      (∀ r ∈ R, Storable (-1) r) ∧ IsTranspose rows R := by
  obtain ⟨tc, h1, -, h3, h4, h5⟩ := countRows_spec rows [] (fun r hr p hp => ((hv r hr).2 p hp).1)
    (fun x hx => by cases hx)
  have hp : ∀ r ∈ rows, r.Pairwise (fun a b => a.1 < b.1) := fun r hr => (hv r hr).1
  have hcol : ∀ c : Int, colAll c rows 0 [] = colSpec c rows 0 := fun c => by
    rw [colAll_spec c rows 0 [] hp (fun p hp => by cases hp)]; rfl
  have hidx : ∀ r ∈ cols rows 0 tc.length, ∀ p ∈ r, 0 ≤ p.1 ∧ p.1 < rows.length := by
    intro r hr p hpr
    obtain ⟨i, -, rfl⟩ := List.mem_map.1 hr
    rw [hcol] at hpr
    obtain ⟨j, hj, r', hr', -⟩ := (mem_colSpec _ rows 0 p.1 p.2).1 hpr
    have := (List.getElem?_eq_some_iff.1 hr').1
    omega
  have hsort : ∀ r ∈ cols rows 0 tc.length, r.Pairwise (fun a b => a.1 < b.1) := by
    intro r hr
    obtain ⟨i, -, rfl⟩ := List.mem_map.1 hr
    rw [hcol]
    exact colSpec_sorted _ rows 0 hp
  have hstor : ∀ r ∈ cols rows 0 tc.length, Storable (-1) r := by
    intro r hr
    exact storable_of_valid ⟨hsort r hr, fun p hp => by have := hidx r hr p hp; omega⟩
  have hentry : ∀ (c j : Nat) (v : UInt8), (∃ r ∈ (cols rows 0 tc.length)[c]?, ((j : Int), v) ∈ r) ↔
      ∃ r ∈ rows[j]?, ((c : Int), v) ∈ r := by
    intro c j v
    constructor
    · rintro ⟨r, hr, hm⟩
      simp only [cols, List.getElem?_map, Option.mem_def, Option.map_eq_some_iff] at hr
      obtain ⟨i, hi, rfl⟩ := hr
      have hic : i = c := by
        have := (List.getElem?_eq_some_iff.1 hi).2
        simpa using this.symm
      subst hic
      rw [hcol] at hm
      obtain ⟨j', hj', r', hr', hm'⟩ := (mem_colSpec _ rows 0 _ _).1 hm
      have : j = j' := by omega
      subst this
      exact ⟨r', hr', by simpa using hm'⟩
    · rintro ⟨r, hr, hm⟩
      have hlt : c < tc.length := by
        have := h3 r (List.mem_of_getElem? hr) _ hm
        simp only at this; omega
      refine ⟨colAll (c : Int) rows 0 [], by simp [cols, hlt], ?_⟩
      rw [hcol]
      exact (mem_colSpec _ rows 0 _ _).2 ⟨j, by simp, r, hr, hm⟩
  refine ⟨cols rows 0 tc.length, _, ?_, appendAll_spec _ _ hstor, hstor, hentry, hidx, hsort, ?_⟩
  · rw [← appendAll_spec _ _ hstor, ← blocks_spec rows (bounds limit tc) 0 tc.length Writer.new
      (bounds_covers limit tc h4)]
    rw [transpose, hrd.1, rowsFrom_spec hrd.2 rows.length 0 (Nat.zero_add _), Option.bind_some,
      List.drop_zero, h1, Option.bind_some]
  · rcases h5 with h5 | ⟨r, hr, ⟨pc, pv⟩, hp', h5⟩
    · left; simp [cols, h5]
    · right
      have h5' : pc + 1 = (tc.length : Int) := h5
      have hc0 : 0 ≤ pc := ((hv r hr).2 _ hp').1
      obtain ⟨j, hj⟩ := List.getElem?_of_mem hr
      have hl : (cols rows 0 tc.length).getLast? = (cols rows 0 tc.length)[tc.length - 1]? := by
        rw [List.getLast?_eq_getElem?]; simp [cols]
      have hpc : pc = ((tc.length - 1 : Nat) : Int) := by omega
      obtain ⟨r', hr', hm⟩ := (hentry (tc.length - 1) j pv).2 ⟨r, hj, by rw [← hpc]; exact hp'⟩
      exact ⟨r', by rw [hl]; exact hr', fun he => by rw [he] at hm; cases hm⟩

/-- **C23**, end to end: write, transpose, read back. -/
theorem transpose_end_to_end (rows : List Row) (hv : ∀ r ∈ rows, ValidRow r) (limit : Nat)
    (w : Writer) (hw : Writer.new.appendAll rows = some w) (hs : w.data.length < 2 ^ 31)
    (hn : rows.length < 2 ^ 31) :
    ∃ rd w', Reader.open w.data w.offsetFile = some rd ∧ transpose limit rd = some w' ∧
      (w'.data.length < 2 ^ 31 → w'.infos.length < 2 ^ 31 →
        ∃ rd' R, Reader.open w'.data w'.offsetFile = some rd' ∧ IsTranspose rows R ∧
          rd'.rowNum = R.length ∧ ∀ (i : Nat) (hi : i < R.length), rd'.getRow i = .ok R[i]) := by
  obtain ⟨w1, hw1, h⟩ := rows_survive rows (fun r hr => storable_of_valid (hv r hr))
  rw [hw] at hw1
  cases hw1
  obtain ⟨rd, hrd, hnum, hrows⟩ := h hs hn
  obtain ⟨R, w', h1, h2, h3, h4⟩ := transpose_correct rows hv limit rd hn
    ⟨hnum, fun i hi => (hrows i hi).2.1⟩
  refine ⟨rd, w', hrd, h1, ?_⟩
  intro hs' hn'
  obtain ⟨w2, hw2, h5⟩ := rows_survive R h3
  rw [h2] at hw2
  cases hw2
  have hlen : w'.infos.length = R.length := by
    have := appendAll_spec R Writer.new h3
    rw [h2] at this
    cases this
    simp [Writer.new]
  obtain ⟨rd', hrd', hnum', hrows'⟩ := h5 hs' (by omega)
  exact ⟨rd', R, hrd', h4, hnum', fun i hi => (hrows' i hi).2.1⟩

/-- A matrix with a gap, an empty row and a two-byte difference. -/
def sample : List Row := [[(0, 5), (200, 7)], [], [(1, 255), (200, 1)]]

example : ∀ r ∈ sample, ValidRow r := by
  simp only [sample, ValidRow]
  decide +kernel

example : Writer.new.appendAll [[(0, 5), (200, 7)], [], [(1, 255)]] =
    some ⟨[129, 5, 72, 129, 7, 130, 255], [(2, 5), (0, 0), (1, 2)]⟩ := by decide +kernel

example : (Reader.open [129, 5, 131, 7] (Writer.mk [129, 5, 131, 7] [(2, 4)]).offsetFile).bind
    (fun rd => (transpose 1 rd).map (·.infos)) = some [(1, 2), (0, 0), (0, 0), (1, 2)] := by decide +kernel

end Verif.Sparse.Props
