/-! Model of `/repo/src/data/encoding/base64.cpp`. -/

namespace Verif.Base64

/-- What the decoder can throw: `invalid_argument` with one of two texts.
`/repo/src/data/encoding/base64.cpp:55,104,115`. The text itself is not modelled. -/
inductive Err where
  | badLength
  | invalidChar
  deriving DecidableEq, Repr

/-- `tochar`, `/repo/src/data/encoding/base64.cpp:45`, as the list of its 64 characters. -/
def tocharTable : List Char :=
  ['A','B','C','D','E','F','G','H','I','J','K','L','M','N','O','P','Q','R','S','T','U','V','W','X','Y','Z',
   'a','b','c','d','e','f','g','h','i','j','k','l','m','n','o','p','q','r','s','t','u','v','w','x','y','z',
   '0','1','2','3','4','5','6','7','8','9','+','/']

/-- `tochar[i]`, `/repo/src/data/encoding/base64.cpp:45`. Every index used by the encoder is below 64
(`index_lt` in `Lemmas.lean`), so the default is never taken. -/
def tochar (i : Nat) : UInt8 := ((tocharTable[i]?).getD '\x00').toNat.toUInt8

/-- The character `=`. -/
def pad : UInt8 := 61

/-- `toint`, `/repo/src/data/encoding/base64.cpp:47-56`. `none` is the `-1` returned for `=`.
`char` is signed in C++; bytes above 127 are negative and fail every comparison, as here. -/
def toint (c : UInt8) : Except Err (Option Nat) :=
  if 65 ≤ c.toNat ∧ c.toNat ≤ 90 then .ok (some (c.toNat - 65))
  else if 97 ≤ c.toNat ∧ c.toNat ≤ 122 then .ok (some (c.toNat - 97 + 26))
  else if 48 ≤ c.toNat ∧ c.toNat ≤ 57 then .ok (some (c.toNat - 48 + 52))
  else if c.toNat = 43 then .ok (some 62)
  else if c.toNat = 47 then .ok (some 63)
  else if c.toNat = 61 then .ok none
  else .error .invalidChar

/-- `base64_encode`, `/repo/src/data/encoding/base64.cpp:59-98`: the loop over whole groups of three
(67-75) followed by the remainder (77-95). The loop over `index` is written as recursion on the rest of the string. -/
def encode : List UInt8 → List UInt8
  | a :: b :: c :: rest =>
      let val := (a.toNat <<< 16) ||| (b.toNat <<< 8) ||| c.toNat
      tochar (val >>> 18) :: tochar ((val >>> 12) &&& 0x3f) ::
      tochar ((val >>> 6) &&& 0x3f) :: tochar (val &&& 0x3f) :: encode rest
  | [a, b] =>
      let val := (a.toNat <<< 16) ||| (b.toNat <<< 8)
      [tochar (val >>> 18), tochar ((val >>> 12) &&& 0x3f), tochar ((val >>> 6) &&& 0x3f), pad]
  | [a] =>
      let val := a.toNat <<< 16
      [tochar (val >>> 18), tochar ((val >>> 12) &&& 0x3f), pad, pad]
  | [] => []

/-- The block loop of `base64_decode`, `/repo/src/data/encoding/base64.cpp:111-129`, as recursion on the rest of the
string; the `break`s at 120 and 126 end the loop without looking at the rest. -/
def decodeBlocks : List UInt8 → Except Err (List UInt8)
  | c1 :: c2 :: c3 :: c4 :: rest => do
      let v1 ← toint c1
      let v2 ← toint c2
      match v1, v2 with
      | some v1, some v2 =>
        let r1 := UInt8.ofNat ((v1 <<< 2) ||| (v2 >>> 4))
        match ← toint c3 with
        | none => return [r1]
        | some v3 =>
          let r2 := UInt8.ofNat (((v2 <<< 4) ||| (v3 >>> 2)) &&& 0xff)
          match ← toint c4 with
          | none => return [r1, r2]
          | some v4 =>
            let r3 := UInt8.ofNat (((v3 <<< 6) ||| v4) &&& 0xff)
            let tail ← decodeBlocks rest
            return r1 :: r2 :: r3 :: tail
      | _, _ => throw .invalidChar
  | _ => return []

/-- `base64_decode`, `/repo/src/data/encoding/base64.cpp:100-132`. -/
def decode (s : List UInt8) : Except Err (List UInt8) :=
  if s.length % 4 ≠ 0 then .error .badLength else decodeBlocks s

end Verif.Base64
