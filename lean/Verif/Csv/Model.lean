/-!
# Model of the CSV parser

Source: `/repo/src/text/csv.h`, `/repo/src/text/csv.cpp`.

The input between the iterators `p` and `q` is a list of bytes. `none` is
undefined behaviour: an iterator dereferenced or advanced at the end of the
input, or an access outside the buffer.
-/
namespace Verif.Csv
set_option linter.unusedVariables false

/-- `buf` (`/repo/src/text/csv.h:172`) and `bufcnt` (`/repo/src/text/csv.h:114`).
The vector `buf` has size `data.length`. -/
structure Buf where
  data : List UInt8
  cnt : Nat
deriving Repr, DecidableEq

/-- `extend` (`/repo/src/text/csv.h:163-168`). The pointers in `cur` are offsets
in this model, which the move to new storage leaves as they are. -/
def extend (b : Buf) : Buf := { b with data := b.data ++ List.replicate b.data.length 0 }

/-- `buf[bufcnt++]=c`: the access is checked. -/
def store (b : Buf) (c : UInt8) : Option Buf :=
  if b.cnt < b.data.length then some { data := b.data.set b.cnt c, cnt := b.cnt + 1 } else none

/-- `if (bufcnt>=buf.size()) extend(); buf[bufcnt++]=*p++;`
(`/repo/src/text/csv.h:124-125`, `:131-132`). -/
def putChar (b : Buf) (c : UInt8) : Option Buf :=
  store (if b.cnt ≥ b.data.length then extend b else b) c

/-- The loop at `/repo/src/text/csv.h:119-126`, after the opening quote: the
rest of the input after the closing quote. -/
def quoted : List UInt8 → Buf → Option (List UInt8 × Buf)
  | [], _ => none
  | c :: p, b =>
    if c = 34 then
      match p with
      | [] => none
      | d :: p' =>
        if d ≠ 34 then some (d :: p', b)
        else
          match putChar b d with
          | none => none
          | some b => quoted p' b
    else
      match putChar b c with
      | none => none
      | some b => quoted p b

/-- `while(p != q && *p!=',' && *p!='\n') p++;` (`/repo/src/text/csv.h:127`). -/
def skip : List UInt8 → List UInt8
  | [] => []
  | c :: p => if c ≠ 44 ∧ c ≠ 10 then skip p else c :: p

/-- The loop at `/repo/src/text/csv.h:130-133`. -/
def plain : List UInt8 → Buf → Option (List UInt8 × Buf)
  | [], b => some ([], b)
  | c :: p, b =>
    if c ≠ 44 ∧ c ≠ 13 ∧ c ≠ 10 then
      match putChar b c with
      | none => none
      | some b => plain p b
    else some (c :: p, b)

/-- One field: `/repo/src/text/csv.h:117-134`. -/
def field : List UInt8 → Buf → Option (List UInt8 × Buf)
  | [], _ => none
  | c :: p, b =>
    if c = 34 then
      match quoted p b with
      | none => none
      | some (p, b) => some (skip p, b)
    else plain (c :: p) b

/-- Lines 139 to 141 of `/repo/src/text/csv.h`, at an input that is not at its
end: `true` for the `break`. -/
def sep : List UInt8 → Option (Bool × List UInt8)
  | [] => none
  | c :: p =>
    match (if c = 13 then p else c :: p) with
    | [] => none
    | d :: p' => some (d == 10, p')

theorem quoted_le : ∀ {p b r b'}, quoted p b = some (r, b') → r.length ≤ p.length := by
  intro p b
  fun_induction quoted p b <;> simp_all <;> grind

theorem skip_le (p : List UInt8) : (skip p).length ≤ p.length := by
  fun_induction skip p <;> simp_all <;> omega

theorem plain_le : ∀ {p b r b'}, plain p b = some (r, b') → r.length ≤ p.length := by
  intro p b
  fun_induction plain p b <;> simp_all <;> grind

theorem field_le {p b r b'} (h : field p b = some (r, b')) : r.length ≤ p.length := by
  unfold field at h
  split at h
  · exact absurd h (by simp)
  · split at h
    · split at h
      · exact absurd h (by simp)
      · rename_i hq
        simp only [Option.some.injEq, Prod.mk.injEq] at h
        have := quoted_le hq
        have := skip_le (by assumption)
        grind
    · exact plain_le h

theorem field_ne {p b r} (h : field p b = some r) : p ≠ [] := by
  rintro rfl
  simp [field] at h

theorem sep_lt {p k r} (h : sep p = some (k, r)) : r.length < p.length := by
  unfold sep at h
  split at h
  · exact absurd h (by simp)
  · split at h
    · exact absurd h (by simp)
    · rename_i e
      simp only [Option.some.injEq, Prod.mk.injEq] at h
      split at e <;> grind

/-- The loop of `next` (`/repo/src/text/csv.h:114-142`): the rest of the input,
the buffer and the offsets in it of the fields (`cur`, line 137). -/
def loop (p : List UInt8) (b : Buf) (cur : List Nat) : Option (List UInt8 × Buf × List Nat) :=
  match h1 : field p b with
  | none => none
  | some (p1, b1) =>
    match store b1 0 with
    | none => none
    | some b2 =>
      if p1 = [] then some ([], b2, cur ++ [b.cnt])
      else
        match h2 : sep p1 with
        | none => none
        | some (true, p2) => some (p2, b2, cur ++ [b.cnt])
        | some (false, p2) => loop p2 b2 (cur ++ [b.cnt])
termination_by p.length
decreasing_by
  have := field_le h1
  have := sep_lt h2
  omega

/-- A `parser_impl` (`/repo/src/text/csv.h:104-173`): the rest of the input,
the buffer, and the offsets of the current row. -/
structure Parser where
  p : List UInt8
  buf : List UInt8
  cur : List Nat
deriving Repr, DecidableEq

/-- The constructor (`/repo/src/text/csv.h:107-108`). -/
def init (s : List UInt8) : Parser := { p := s, buf := List.replicate 1024 0, cur := [] }

/-- `next` (`/repo/src/text/csv.h:110-145`). -/
def next (P : Parser) : Option (Bool × Parser) :=
  if P.p = [] then some (false, { P with cur := [] })
  else
    match loop P.p { data := P.buf, cnt := 0 } [] with
    | none => none
    | some (p, b, cur) => some (true, { p := p, buf := b.data, cur := cur })

/-- The C string that starts at `buf[off]`: up to the first NUL, which has to exist. -/
def cstr (buf : List UInt8) (off : Nat) : Option (List UInt8) :=
  if 0 ∈ buf.drop off then some ((buf.drop off).takeWhile (· ≠ 0)) else none

/-- The row as `vector<string>`: each `const char*` of `get()` is made into a
string (`/repo/src/text/csv.cpp:46`). -/
def row (P : Parser) : Option (List (List UInt8)) := P.cur.mapM (cstr P.buf)

theorem loop_lt : ∀ {p b cur r}, loop p b cur = some r → r.1.length < p.length := by
  intro p b cur
  fun_induction loop p b cur <;> intro r h
  · exact absurd h (by simp)
  · exact absurd h (by simp)
  · simp only [Option.some.injEq] at h
    subst h
    rename_i h1
    exact List.length_pos_iff.mpr (field_ne h1)
  · exact absurd h (by simp)
  · simp only [Option.some.injEq] at h
    subst h
    rename_i h1 _ _ _ _ h2
    have := field_le h1
    have := sep_lt h2
    dsimp only
    omega
  · rename_i h1 _ _ _ _ h2 ih
    have := ih h
    have := field_le h1
    have := sep_lt h2
    omega

/-- `parse_csv` (`/repo/src/text/csv.cpp:41-50`), from the parser `P` on. The
iterator calls `next` when it is made and at each `++`, until `next` says there
is no row (`/repo/src/text/csv.h:183-185`, `:218-222`). -/
def parseFrom (P : Parser) : Option (List (List (List UInt8))) :=
  match h : next P with
  | none => none
  | some (false, _) => some []
  | some (true, P') =>
    match row P' with
    | none => none
    | some r =>
      match parseFrom P' with
      | none => none
      | some rs => some (r :: rs)
termination_by P.p.length
decreasing_by
  unfold next at h
  split at h
  · simp at h
  · split at h
    · simp at h
    · rename_i hl
      simp only [Option.some.injEq, Prod.mk.injEq, true_and] at h
      have := loop_lt hl
      subst h
      exact this

/-- `parse_csv` (`/repo/src/text/csv.cpp:41-50`). -/
def parseCsv (s : List UInt8) : Option (List (List (List UInt8))) := parseFrom (init s)

end Verif.Csv
