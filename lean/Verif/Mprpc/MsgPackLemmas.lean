import Verif.Mprpc.MsgPack
import Verif.Serial.Lemmas
/-! # Lemmas on the MessagePack format -/
namespace Verif.Mprpc.Lemmas
open Verif.Mprpc Verif.Serial

/-- More input does not change what has been found. -/
def Stable {α : Type} (p : Str → Res α) : Prop :=
  ∀ s x, (∀ a r, p s = .ok a r → p (s ++ x) = .ok a (r ++ x)) ∧ (p s = .bad → p (s ++ x) = .bad)

theorem Stable.bind {α β : Type} {p : Str → Res α} {f : α → Str → Res β} (hp : Stable p) (hf : ∀ a, Stable (f a)) :
    Stable fun s => (p s).bind f := by
  intro s x
  cases h : p s with
  | ok a r =>
    have := (hp s x).1 a r h
    simp only [h, this, Res.bind]
    exact hf a r x
  | more => simp [h, Res.bind]
  | bad => simp [h, Res.bind, (hp s x).2 h]

theorem stable_ok {α : Type} (a : α) : Stable fun s => .ok a s := by
  intro s x
  simp

theorem stable_bad {α : Type} : Stable fun _ => (.bad : Res α) := by
  intro s x
  simp

theorem stable_ite {α : Type} {c : Prop} [Decidable c] {p q : Str → Res α} (hp : Stable p) (hq : Stable q) :
    Stable fun s => if c then p s else q s := by
  by_cases h : c <;> simp only [h, if_true, if_false] <;> assumption

theorem stable_bytes (n : Nat) : Stable (bytes n) := by
  intro s x
  simp only [bytes]
  constructor
  · intro a r h
    split at h <;> cases h
    rename_i hn
    rw [if_pos (by simp; omega), List.take_append_of_le_length hn, List.drop_append_of_le_length hn]
  · intro h
    split at h <;> cases h

theorem stable_num (n : Nat) : Stable (num n) := (stable_bytes n).bind fun b => stable_ok (ofBE b)

theorem stable_head : Stable head := by
  have key : ∀ b, Stable fun s => head (b :: s) := by
    intro b
    simp only [head]
    repeat' apply stable_ite
    all_goals first
      | exact stable_bad
      | exact stable_ok _
      | exact (stable_num _).bind fun v => stable_ok _
  intro s x
  cases s with
  | nil => simp [head]
  | cons b s => exact key b s x

theorem stable_many {p : Str → Res Obj} (hp : Stable p) (n : Nat) : Stable (many p n) := by
  induction n with
  | zero => exact stable_ok []
  | succ n ih => exact hp.bind fun o => ih.bind fun l => stable_ok (o :: l)

theorem stable_unpack (d : Nat) : Stable (unpack d) := by
  induction d with
  | zero =>
    refine stable_head.bind fun h => ?_
    cases h with
    | leaf o => exact stable_ok o
    | raw n => exact (stable_bytes n).bind fun b => stable_ok _
    | arr n => exact stable_bad
    | map n => exact stable_bad
  | succ d ih =>
    refine stable_head.bind fun h => ?_
    cases h with
    | leaf o => exact stable_ok o
    | raw n => exact (stable_bytes n).bind fun b => stable_ok _
    | arr n => exact (stable_many ih n).bind fun l => stable_ok _
    | map n => exact (stable_many ih _).bind fun l => stable_ok _

/-! ### Packing and unpacking -/

theorem bytes_append (s rest : Str) : bytes s.length (s ++ rest) = .ok s rest := by
  simp [bytes]

theorem length_toBE (n v : Nat) : (toBE n v).length = n := by simp [toBE, Serial.Lemmas.length_toLE]

theorem num_toBE {n v : Nat} (h : v < 256 ^ n) (rest : Str) : num n (toBE n v ++ rest) = .ok v rest := by
  have := bytes_append (toBE n v) rest
  rw [length_toBE] at this
  simp only [num, this, Res.bind]
  simp [ofBE, toBE, Serial.Lemmas.ofLE_toLE n v h]

theorem head_uint (n : Nat) (h : n < 2 ^ 64) (rest : Str) :
    head (packUint n ++ rest) = .ok (.leaf (.uint (BitVec.ofNat _ n))) rest := by
  unfold packUint
  split
  · have e : (UInt8.ofNat n).toNat = n := by simp; omega
    simp only [List.cons_append, List.nil_append, head, e]
    rw [if_pos (by assumption)]
  · split
    · simp [head, num_toBE (n := 1) (v := n) (by omega), Res.bind]
    · split
      · simp [head, num_toBE (n := 2) (v := n) (by omega), Res.bind]
      · split
        · simp [head, num_toBE (n := 4) (v := n) (by omega), Res.bind]
        · simp [head, num_toBE (n := 8) (v := n) (by omega), Res.bind]

theorem head_neg (k : Nat) (h : k < 2 ^ 63) (rest : Str) :
    head (packNeg k ++ rest) = .ok (.leaf (.neg (BitVec.ofNat _ k))) rest := by
  unfold packNeg
  split
  · have e : (UInt8.ofNat (255 - k)).toNat = 255 - k := by simp; omega
    simp only [List.cons_append, List.nil_append, head, e]
    have e2 : 255 - (255 - k) = k := by omega
    rw [if_neg (by omega), if_neg (by omega), if_neg (by omega), if_neg (by omega), if_pos (by omega), e2]
  · split
    · have e : ¬ 255 - k < 128 := by omega
      have e2 : 255 - (255 - k) = k := by omega
      simp [head, num_toBE (n := 1) (v := 255 - k) (by omega), Res.bind, signed, e, e2]
    · split
      · have e : ¬ 65535 - k < 32768 := by omega
        have e2 : 65535 - (65535 - k) = k := by omega
        simp [head, num_toBE (n := 2) (v := 65535 - k) (by omega), Res.bind, signed, e, e2]
      · split
        · have e : ¬ 4294967295 - k < 2147483648 := by omega
          have e2 : 4294967295 - (4294967295 - k) = k := by omega
          simp [head, num_toBE (n := 4) (v := 4294967295 - k) (by omega), Res.bind, signed, e, e2]
        · have e : ¬ 18446744073709551615 - k < 9223372036854775808 := by omega
          have e2 : 18446744073709551615 - (18446744073709551615 - k) = k := by omega
          simp [head, num_toBE (n := 8) (v := 18446744073709551615 - k) (by omega), Res.bind, signed, e, e2]

theorem head_raw (n : Nat) (h : n < 2 ^ 32) (rest : Str) : head (rawHead n ++ rest) = .ok (.raw n) rest := by
  unfold rawHead
  split
  · have e : (UInt8.ofNat (0xa0 + n)).toNat = 0xa0 + n := by simp; omega
    have e2 : 0xa0 + n - 0xa0 = n := by omega
    simp only [List.cons_append, List.nil_append, head, e]
    rw [if_neg (by omega), if_neg (by omega), if_neg (by omega), if_pos (by omega), e2]
  · split
    · simp [head, num_toBE (n := 2) (v := n) (by omega), Res.bind]
    · simp [head, num_toBE (n := 4) (v := n) (by omega), Res.bind]

theorem head_arr (n : Nat) (h : n < 2 ^ 32) (rest : Str) : head (arrHead n ++ rest) = .ok (.arr n) rest := by
  unfold arrHead
  split
  · have e : (UInt8.ofNat (0x90 + n)).toNat = 0x90 + n := by simp; omega
    have e2 : 0x90 + n - 0x90 = n := by omega
    simp only [List.cons_append, List.nil_append, head, e]
    rw [if_neg (by omega), if_neg (by omega), if_pos (by omega), e2]
  · split
    · simp [head, num_toBE (n := 2) (v := n) (by omega), Res.bind]
    · simp [head, num_toBE (n := 4) (v := n) (by omega), Res.bind]

theorem head_map (n : Nat) (h : n < 2 ^ 32) (rest : Str) : head (mapHead n ++ rest) = .ok (.map n) rest := by
  unfold mapHead
  split
  · have e : (UInt8.ofNat (0x80 + n)).toNat = 0x80 + n := by simp; omega
    have e2 : 0x80 + n - 0x80 = n := by omega
    simp only [List.cons_append, List.nil_append, head, e]
    rw [if_neg (by omega), if_pos (by omega), e2]
  · split
    · simp [head, num_toBE (n := 2) (v := n) (by omega), Res.bind]
    · simp [head, num_toBE (n := 4) (v := n) (by omega), Res.bind]

theorem many_packs {p : Str → Res Obj} (l : List Obj) (h : ∀ o ∈ l, ∀ rest, p (pack o ++ rest) = .ok o rest) (rest : Str) :
    many p l.length (packs l ++ rest) = .ok l rest := by
  induction l with
  | nil => rfl
  | cons o l ih =>
    simp only [packs, List.length_cons, many, List.append_assoc, h o (List.mem_cons_self ..), Res.bind,
      ih fun o ho => h o (List.mem_cons_of_mem _ ho)]

theorem unpack_leaf {d : Nat} {s rest : Str} {o : Obj} (h : head s = .ok (.leaf o) rest) : unpack d s = .ok o rest := by
  cases d <;> simp [unpack, h, Res.bind]

theorem unpack_raw {d : Nat} {s : Str} (h : s.length < 2 ^ 32) (rest : Str) : unpack d (pack (.raw s) ++ rest) = .ok (.raw s) rest := by
  have := head_raw s.length h (s ++ rest)
  cases d <;> simp [unpack, pack, this, Res.bind, bytes_append]

theorem unpack_pack (d : Nat) (o : Obj) (h : Fits d o) (rest : Str) : unpack d (pack o ++ rest) = .ok o rest := by
  induction d generalizing o rest with
  | zero =>
    cases o with
    | nil => exact unpack_leaf rfl
    | bool b => cases b <;> exact unpack_leaf rfl
    | uint n =>
      refine unpack_leaf ?_
      have := head_uint n.toNat n.isLt rest
      rwa [BitVec.ofNat_toNat, BitVec.setWidth_eq] at this
    | neg k =>
      refine unpack_leaf ?_
      have := head_neg k.toNat k.isLt rest
      rwa [BitVec.ofNat_toNat, BitVec.setWidth_eq] at this
    | float b =>
      refine unpack_leaf ?_
      simp [pack, head, num_toBE (n := 4) (v := b.toNat) b.isLt, Res.bind]
    | double b =>
      refine unpack_leaf ?_
      simp [pack, head, num_toBE (n := 8) (v := b.toNat) b.isLt, Res.bind]
    | raw s => exact unpack_raw h rest
    | arr l => exact absurd h id
    | map l => exact absurd h id
  | succ d ih =>
    cases o with
    | nil => exact unpack_leaf rfl
    | bool b => cases b <;> exact unpack_leaf rfl
    | uint n =>
      refine unpack_leaf ?_
      have := head_uint n.toNat n.isLt rest
      rwa [BitVec.ofNat_toNat, BitVec.setWidth_eq] at this
    | neg k =>
      refine unpack_leaf ?_
      have := head_neg k.toNat k.isLt rest
      rwa [BitVec.ofNat_toNat, BitVec.setWidth_eq] at this
    | float b =>
      refine unpack_leaf ?_
      simp [pack, head, num_toBE (n := 4) (v := b.toNat) b.isLt, Res.bind]
    | double b =>
      refine unpack_leaf ?_
      simp [pack, head, num_toBE (n := 8) (v := b.toNat) b.isLt, Res.bind]
    | raw s => exact unpack_raw h rest
    | arr l =>
      have h1 := head_arr l.length h.1 (packs l ++ rest)
      have h2 := many_packs (p := unpack d) l (fun o ho rest => ih o (h.2 o ho) rest) rest
      simp [unpack, pack, h1, Res.bind, h2]
    | map l =>
      have h1 := head_map (l.length / 2) h.2.1 (packs l ++ rest)
      have h2 := many_packs (p := unpack d) l (fun o ho rest => ih o (h.2.2 o ho) rest) rest
      have e : 2 * (l.length / 2) = l.length := by have := h.1; omega
      simp [unpack, pack, h1, Res.bind, e, h2]

theorem head_nil : head [] = .more := rfl

theorem unpack_nil (d : Nat) : unpack d [] = .more := by cases d <;> rfl

theorem pack_ne_nil (d : Nat) (o : Obj) (h : Fits d o) : pack o ≠ [] := by
  intro e
  have := unpack_pack d o h []
  rw [e, List.nil_append, unpack_nil] at this
  cases this

/-- A packed object that is cut off is not an object yet. -/
theorem unpack_prefix {d : Nat} {o : Obj} (h : Fits d o) {p q : Str} (hp : p ++ q = pack o) (hq : q ≠ []) : unpack d p = .more := by
  have hu := unpack_pack d o h []
  rw [List.append_nil, ← hp] at hu
  cases hc : unpack d p with
  | more => rfl
  | bad =>
    rw [(stable_unpack d p q).2 hc] at hu
    cases hu
  | ok a r =>
    rw [(stable_unpack d p q).1 a r hc] at hu
    injection hu with _ e
    exact absurd (List.append_eq_nil_iff.1 e).2 hq

end Verif.Mprpc.Lemmas
