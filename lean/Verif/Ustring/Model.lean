/-! Model of `/repo/src/data/string/ustring.h` and `ustring.cpp`: UTF-8 conversion, checking, sanitising and width conversion.

Bytes are `UInt8`, an iterator is the list of the bytes from it to `end`. A `uchar` is a natural number; `uint32_t` never
overflows here (at most 31 bits are assembled, `/repo/src/data/string/ustring.h:157,171`). -/

namespace Verif.Ustring

/-- The loop over continuation bytes, `/repo/src/data/string/ustring.h:162-173`: `n` bytes are still expected. `none`: the
fallback is called (164, 168); the second component is the new value of `in`. -/
def contLoop : Nat → Nat → List UInt8 → Option Nat × List UInt8
  | 0, ret, bs => (some ret, bs)
  | _ + 1, _, [] => (none, [])
  | n + 1, ret, b :: bs =>
    if b.toNat &&& 0xC0 ≠ 0x80 then (none, b :: bs)
    else contLoop n ((ret <<< 6) ||| (b.toNat &&& 0x3F)) bs

/-- The table lookup `/repo/src/data/string/ustring.h:148-160`: initial `ret` and `nbytes`. -/
def head (c : Nat) : Nat × Nat :=
  if c &&& 0xE0 = 0xC0 then (c &&& 0x1F, 2)
  else if c &&& 0xF0 = 0xE0 then (c &&& 0x0F, 3)
  else if c &&& 0xF8 = 0xF0 then (c &&& 0x07, 4)
  else if c &&& 0xFC = 0xF8 then (c &&& 0x03, 5)
  else if c &&& 0xFE = 0xFC then (c &&& 0x01, 6)
  else (0, 0)

/-- `mins`, `/repo/src/data/string/ustring.h:180`. -/
def mins (nbytes : Nat) : Nat := if nbytes = 2 then 0x80 else if nbytes = 3 then 0x800 else if nbytes = 4 then 0x10000 else 0
/-- `maxs`, `/repo/src/data/string/ustring.h:181`. -/
def maxs (nbytes : Nat) : Nat := if nbytes = 2 then 0x7FF else if nbytes = 3 then 0xFFFF else if nbytes = 4 then 0x1FFFFF else 0

/-- The checks after the loop, `/repo/src/data/string/ustring.h:175-200`. -/
def finish (nbytes ret : Nat) : Option Nat :=
  if nbytes ≥ 5 then none
  else if ret < mins nbytes ∨ ret > maxs nbytes then none
  else if ret > 0x10FFFF then none
  else if 0xD800 ≤ ret ∧ ret ≤ 0xDFFF then none
  else some ret

/-- `chars_to_uchar_impl`, `/repo/src/data/string/ustring.h:125-201`. First component: the character, or `none` when the fallback
is called with a non-empty byte sequence. With an empty range both fallbacks return 0 (97-99, 114-116). Second component: `in`
afterwards. -/
def decodeOne : List UInt8 → Option Nat × List UInt8
  | [] => (some 0, [])
  | b :: bs =>
    if b.toNat &&& 0x80 = 0 then (some b.toNat, bs)
    else
      let c := b.toNat &&& 0xFF
      if c < 0xC0 ∨ c > 0xFD then (none, bs)
      else
        match contLoop ((head c).2 - 1) (head c).1 bs with
        | (none, rest) => (none, rest)
        | (some ret, rest) => (finish (head c).2 ret, rest)

theorem contLoop_length (n ret : Nat) (bs : List UInt8) : (contLoop n ret bs).2.length ≤ bs.length := by
  induction n generalizing ret bs with
  | zero => simp [contLoop]
  | succ n ih =>
    cases bs with
    | nil => simp [contLoop]
    | cons b bs =>
      rw [contLoop]
      split
      · simp
      · exact Nat.le_trans (ih _ _) (by simp)

theorem decodeOne_length (b : UInt8) (bs : List UInt8) : (decodeOne (b :: bs)).2.length < (b :: bs).length := by
  rw [decodeOne]
  split
  · simp
  · simp only
    split
    · simp
    · have := contLoop_length ((head (b.toNat &&& 0xFF)).2 - 1) (head (b.toNat &&& 0xFF)).1 bs
      split <;> (rename_i h; rw [h] at this; simp only [List.length_cons] at *; omega)

/-- `string_to_ustring`, `/repo/src/data/string/ustring.cpp:94-107`, with the replacement fallback
(`/repo/src/data/string/ustring.h:225-230`). -/
def stringToUstring : List UInt8 → List Nat
  | [] => []
  | b :: bs => ((decodeOne (b :: bs)).1.getD 0xFFFD) :: stringToUstring (decodeOne (b :: bs)).2
termination_by s => s.length
decreasing_by exact decodeOne_length b bs

/-- `check_utf8`, `/repo/src/data/string/ustring.cpp:185-195`, with the exception fallback
(`/repo/src/data/string/ustring.h:95-101`). -/
def checkUtf8 : List UInt8 → Bool
  | [] => true
  | b :: bs => match (decodeOne (b :: bs)).1 with
    | none => false
    | some _ => checkUtf8 (decodeOne (b :: bs)).2
termination_by s => s.length
decreasing_by exact decodeOne_length b bs

/-- `string_to_uchar(const char *)`, `/repo/src/data/string/ustring.cpp:124-129`, on the bytes before the terminating NUL. -/
def stringToUchar (s : List UInt8) : Nat := (decodeOne (s.take 6)).1.getD 0xFFFD

/-- `uchar_to_chars`, `/repo/src/data/string/ustring.h:239-267`. Storing to `char` keeps the low 8 bits. -/
def ucharToChars (c : Nat) : List UInt8 :=
  if c ≤ 0x7f then [UInt8.ofNat c]
  else if 0x80 ≤ c ∧ c ≤ 0x7ff then [UInt8.ofNat ((c >>> 6) ||| 0xc0), UInt8.ofNat ((c &&& 0x3f) ||| 0x80)]
  else if 0x800 ≤ c ∧ c ≤ 0xffff then
    [UInt8.ofNat ((c >>> 12) ||| 0xe0), UInt8.ofNat (((c >>> 6) &&& 0x3f) ||| 0x80), UInt8.ofNat ((c &&& 0x3f) ||| 0x80)]
  else if 0x10000 ≤ c ∧ c ≤ 0x10ffff then
    [UInt8.ofNat ((c >>> 18) ||| 0xf0), UInt8.ofNat (((c >>> 12) &&& 0x3f) ||| 0x80),
      UInt8.ofNat (((c >>> 6) &&& 0x3f) ||| 0x80), UInt8.ofNat ((c &&& 0x3f) ||| 0x80)]
  else []

/-- `ustring_to_string`, `/repo/src/data/string/ustring.cpp:109-115`. -/
def ustringToString (us : List Nat) : List UInt8 := us.flatMap ucharToChars

/-- `utf8_invalid2`, `/repo/src/data/string/ustring.cpp:156-158`. -/
def invalid2 (p0 p1 : Nat) : Bool := p0 < 0xC2 || (p1 &&& 0x80 == 0) || (p1 &&& 0xC0 == 0xC0)

/-- `utf8_invalid3`, `/repo/src/data/string/ustring.cpp:160-166`. -/
def invalid3 (p0 p1 p2 : Nat) : Bool :=
  (p2 &&& 0x80 == 0)
  || (if p0 == 0xEF && p1 == 0xBF then decide (p2 > 0xBD) else p2 &&& 0xC0 == 0xC0)
  || (if p0 == 0xE0 then decide (p1 < 0xA0) || (p1 &&& 0xC0 == 0xC0)
      else (p1 &&& 0x80 == 0) || (if p0 == 0xED then decide (p1 > 0x9F) else p1 &&& 0xC0 == 0xC0))

/-- `utf8_invalid4`, `/repo/src/data/string/ustring.cpp:168-172`. -/
def invalid4 (p0 p1 p2 p3 : Nat) : Bool :=
  (p3 &&& 0x80 == 0) || (p3 &&& 0xC0 == 0xC0) || (p2 &&& 0x80 == 0) || (p2 &&& 0xC0 == 0xC0)
  || (if p0 == 0xF0 then decide (p1 < 0x90) || (p1 &&& 0xC0 == 0xC0)
      else (p1 &&& 0x80 == 0) || (if p0 == 0xF4 then decide (p1 > 0x8F) else p1 &&& 0xC0 == 0xC0))

/-- `utf8_skip`, `/repo/src/data/string/ustring.cpp:174-182`; `none` is -1. -/
def skip (b : Nat) : Option Nat :=
  if b = 0 then none
  else if b &&& 0x80 = 0 then some 0
  else if b &&& 0xc0 = 0x80 then none
  else if b &&& 0xe0 = 0xc0 then some 1
  else if b &&& 0xf0 = 0xe0 then some 2
  else if b &&& 0xf8 = 0xf0 then some 3
  else none

/-- `lo <= x && x <= hi`. -/
def inR (lo x hi : Nat) : Bool := decide (lo ≤ x) && decide (x ≤ hi)

/-- The validation of one complete sequence held in `buf`, `/repo/src/data/string/ustring.cpp:224-249`: whether it is appended. -/
def keep : List Nat → Bool
  | [b0] => !decide (b0 < 0x20)
  | [b0, b1] => !invalid2 b0 b1 && (inR 0xc2 b0 0xdf && inR 0x80 b1 0xbf)
  | [b0, b1, b2] => !invalid3 b0 b1 b2 &&
    ((b0 == 0xe0 && inR 0xa0 b1 0xbf && inR 0x80 b2 0xbf) || (inR 0xe1 b0 0xec && inR 0x80 b1 0xbf && inR 0x80 b2 0xbf)
      || (b0 == 0xed && inR 0x80 b1 0x9f && inR 0x80 b2 0xbf) || (inR 0xee b0 0xef && inR 0x80 b1 0xbf && inR 0x80 b2 0xbf))
  | [b0, b1, b2, b3] => !invalid4 b0 b1 b2 b3 &&
    ((b0 == 0xf0 && inR 0x90 b1 0xbf && inR 0x80 b2 0xbf && inR 0x80 b3 0xbf)
      || (inR 0xf1 b0 0xf3 && inR 0x80 b1 0xbf && inR 0x80 b2 0xbf && inR 0x80 b3 0xbf)
      || (b0 == 0xf4 && inR 0x80 b1 0x8f && inR 0x80 b2 0xbf && inR 0x80 b3 0xbf))
  | _ => false

/-- The loop `/repo/src/data/string/ustring.cpp:210-212`: at most `n` continuation bytes, and what follows them. -/
def takeCont : Nat → List UInt8 → List UInt8 × List UInt8
  | 0, bs => ([], bs)
  | _ + 1, [] => ([], [])
  | n + 1, b :: bs => if b.toNat &&& 0xc0 ≠ 0x80 then ([], b :: bs) else ((b :: (takeCont n bs).1), (takeCont n bs).2)

theorem takeCont_length (n : Nat) (bs : List UInt8) : (takeCont n bs).2.length ≤ bs.length := by
  induction n generalizing bs with
  | zero => simp [takeCont]
  | succ n ih =>
    cases bs with
    | nil => simp [takeCont]
    | cons b bs =>
      rw [takeCont]
      split
      · simp
      · exact Nat.le_trans (ih _) (by simp)

/-- `sanitize_utf8`, `/repo/src/data/string/ustring.cpp:197-253`. -/
def sanitize : List UInt8 → List UInt8
  | [] => []
  | b :: bs =>
    match skip b.toNat with
    | none => sanitize bs
    | some ccc =>
      if (takeCont ccc bs).1.length = ccc ∧ keep ((b :: (takeCont ccc bs).1).map UInt8.toNat) then
        (b :: (takeCont ccc bs).1) ++ sanitize (takeCont ccc bs).2
      else sanitize (takeCont ccc bs).2
termination_by s => s.length
decreasing_by
  · simp
  · have := takeCont_length ccc bs; simp only [List.length_cons]; omega
  · have := takeCont_length ccc bs; simp only [List.length_cons]; omega

/-- `zenkaku_latin_to_basic_latin`, `/repo/src/data/string/ustring.cpp:295-303`. -/
def zenToBasic (uc : Nat) : Nat :=
  if 0xff01 ≤ uc ∧ uc ≤ 0xff5e then uc - 0xff00 + 0x20 else if uc = 0x3000 then 0x20 else uc

/-- `basic_latin_to_zenkaku_latin`, `/repo/src/data/string/ustring.cpp:305-313`. -/
def basicToZen (uc : Nat) : Nat :=
  if 0x21 ≤ uc ∧ uc ≤ 0x7e then uc - 0x20 + 0xff00 else if uc = 0x20 then 0x3000 else uc

/-- On strings, `/repo/src/data/string/ustring.cpp:316-323`. -/
def zenToBasicS (us : List Nat) : List Nat := us.map zenToBasic
/-- On strings, `/repo/src/data/string/ustring.cpp:325-332`. -/
def basicToZenS (us : List Nat) : List Nat := us.map basicToZen

/-- `hankaku_zenkaku_tbl`, `/repo/src/data/string/ustring.cpp:53-58`. -/
def hankakuTbl : List Nat := [
  0x0000,0x3002,0x300c,0x300d,0x3001,0x30fb,0x30f2,0x30a1,0x30a3,0x30a5,0x30a7,0x30a9,0x30e3,0x30e5,0x30e7,0x30c3,
  0x30fc,0x30a2,0x30a4,0x30a6,0x30a8,0x30aa,0x30ab,0x30ad,0x30af,0x30b1,0x30b3,0x30b5,0x30b7,0x30b9,0x30bb,0x30bd,
  0x30bf,0x30c1,0x30c4,0x30c6,0x30c8,0x30ca,0x30cb,0x30cc,0x30cd,0x30ce,0x30cf,0x30d2,0x30d5,0x30d8,0x30db,0x30de,
  0x30df,0x30e0,0x30e1,0x30e2,0x30e4,0x30e6,0x30e8,0x30e9,0x30ea,0x30eb,0x30ec,0x30ed,0x30ef,0x30f3,0x3099,0x309a]

/-- `take_dakuten_tbl`, `/repo/src/data/string/ustring.cpp:60-73`. -/
def dakutenTbl : List Nat := [
  0,0,0,0,0,0,1,0,0,0,0,1,0,1,0,1,
  0,1,0,1,0,1,0,1,0,1,0,1,0,1,0,1,
  0,1,0,0,1,0,1,0,1,0,0,0,0,0,0,1,
  0,0,1,0,0,1,0,0,1,0,0,1,0,0,0,0,
  0,0,0,0,0,0,0,0,0,0,0,0,0,0,0,0,
  0,0,1,0,0,0,0,0,0,0,0,0,0,0,0,0]

/-- `take_handakuten_tbl`, `/repo/src/data/string/ustring.cpp:75-88`. -/
def handakutenTbl : List Nat := [
  0,0,0,0,0,0,0,0,0,0,0,0,0,1,0,1,
  0,1,0,1,0,1,0,1,0,1,0,1,0,1,0,1,
  0,1,0,0,1,0,1,0,1,0,0,0,0,0,0,1,
  0,0,1,0,0,1,0,0,1,0,0,1,0,0,0,0,
  0,0,0,0,0,0,0,0,0,0,0,0,0,0,0,0,
  0,0,0,0,0,0,0,0,0,0,0,0,0,0,0,0]

/-- `is_katakana`, `/repo/src/data/string/ustring.cpp:145-147`. -/
def isKatakana (c : Nat) : Bool := inR 0x30a0 c 0x30ff
/-- `is_hankaku`, `/repo/src/data/string/ustring.cpp:151-153`. -/
def isHankaku (c : Nat) : Bool := inR 0xff60 c 0xff9f
/-- `is_basic_latin`, `/repo/src/data/string/ustring.cpp:136-138`. -/
def isBasicLatin (c : Nat) : Bool := decide (c ≤ 0x7f)

/-- One iteration of `hankaku_to_zenkaku`, `/repo/src/data/string/ustring.cpp:259-289`. `res` is kept reversed, so its head is
`res[res.size()-1]`. The table accesses are in range because of the range tests; an access out of range would give 0 here. -/
def hzCore (c : Nat) (res : List Nat) (u : Nat) : List Nat :=
  if isHankaku u then
    if u = 0xff9e then
      if c ≠ 0xFFFFFFFF ∧ isKatakana c ∧ (dakutenTbl[c - 0x30a0]?).getD 0 ≠ 0 then
        if c = 0x30a6 then 0x30f4 :: res.tail
        else if c = 0x30f2 then 0x30fa :: res.tail
        else (c + 1) :: res.tail
      else 0x3099 :: res
    else if u = 0xff9f then
      if c ≠ 0xFFFFFFFF ∧ isKatakana c ∧ (handakutenTbl[c - 0x30a0]?).getD 0 ≠ 0 then (c + 2) :: res.tail
      else 0x309a :: res
    else ((hankakuTbl[u - 0xff60]?).getD 0) :: res
  else if u = 0x2d then
    if c ≠ 0xFFFFFFFF ∧ !isBasicLatin c then 0x30fc :: res else u :: res
  else u :: res

/-- Line `/repo/src/data/string/ustring.cpp:258` and the rest of the iteration. -/
def hzStep (res : List Nat) (u : Nat) : List Nat := hzCore (res.head?.getD 0xFFFFFFFF) res u

/-- `hankaku_to_zenkaku`, `/repo/src/data/string/ustring.cpp:255-292`. -/
def hankakuToZenkaku (us : List Nat) : List Nat := (us.foldl hzStep []).reverse

end Verif.Ustring
