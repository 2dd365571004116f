import Verif.GenPhp.Spec
import Verif.Serial.Lemmas
import Verif.Rpc.Lemmas
import Verif.Reflect.Lemmas
/-!
# Lemmas on generated PHP clients
-/
namespace Verif.GenPhp.Lemmas
open Verif.GenPhp Verif.GenPhp.Spec
open Verif.Serial (Val WritesAll Writes toLE ofLE sizeField)
open Verif.Serial.Spec (WF Shape)
open Verif.Serial.Lemmas
open Verif.Reflect (Rep Mem Act)

/-! ### Numbers -/

theorem pack_val {n : Nat} {s : Bool} (v : BitVec (8 * n)) : pack n (if s then v.toInt else (v.toNat : Int)) = toLE n v.toNat := by
  have hv := v.isLt
  have e : ((if s then v.toInt else (v.toNat : Int)) % 2 ^ (8 * n)).toNat = v.toNat := by
    have hc : ((2 ^ (8 * n) : Nat) : Int) = 2 ^ (8 * n) := by push_cast; rfl
    have h0 : (v.toNat : Int) % 2 ^ (8 * n) = v.toNat := Int.emod_eq_of_lt (by omega) (by omega)
    cases s with
    | false => simp only [Bool.false_eq_true, if_false]; omega
    | true =>
      simp only [if_true, BitVec.toInt_eq_toNat_cond]
      split
      · omega
      · rw [hc, Int.sub_emod_right]; omega
  rw [pack, e]

theorem pack_size (n : Nat) : pack 4 n = sizeField n := by
  have : ((n : Int) % 2 ^ (8 * 4)).toNat = n % 2 ^ 32 := by omega
  rw [pack, sizeField, this]

theorem writeInt_eq {n : Nat} (h : n = 1 ∨ n = 2 ∨ n = 4) (i : Int) : writeInt n i = pack n i := by
  rcases h with rfl | rfl | rfl <;> rfl

theorem signed_val {n : Nat} (h : 0 < n) (v : BitVec (8 * n)) : signed n v.toNat = v.toInt := by
  have hv := v.isLt
  have hp : 2 ^ (8 * n) = 2 * 2 ^ (8 * n - 1) := by
    rw [← Nat.pow_succ']; congr 1; omega
  have hc : ((2 ^ (8 * n) : Nat) : Int) = 2 ^ (8 * n) := by push_cast; rfl
  rw [signed, BitVec.toInt_eq_toNat_cond]
  split <;> split <;> omega

/-! ### Arrays -/

theorem get_put {K X : Type} [DecidableEq K] (es : List (K × X)) (k k' : K) (x : X) :
    get (put es k x) k' = if k = k' then some x else get es k' := by
  induction es with
  | nil => simp only [put, get, List.find?_cons, List.find?_nil]; split <;> simp_all
  | cons e es ih =>
    simp only [put]
    split
    · rename_i h
      simp only [get, List.find?_cons, h] at *
      split <;> simp_all
    · rename_i h
      simp only [get, List.find?_cons] at *
      by_cases h' : e.1 = k'
      · have : k ≠ k' := fun hk => h (by rw [h', hk])
        simp [h', this]
      · simp only [h', decide_false, ih]

theorem put_new {K X : Type} [DecidableEq K] (es : List (K × X)) (k : K) (x : X) (h : k ∉ es.map (·.1)) :
    put es k x = es ++ [(k, x)] := by
  induction es with
  | nil => rfl
  | cons e es ih =>
    simp only [List.map_cons, List.mem_cons, not_or] at h
    simp only [put, if_neg (Ne.symm h.1), ih h.2, List.cons_append]

theorem foldl_put {K X : Type} [DecidableEq K] (l acc : List (K × X)) (h : ((acc ++ l).map (·.1)).Nodup) :
    l.foldl (fun es e => put es e.1 e.2) acc = acc ++ l := by
  induction l generalizing acc with
  | nil => simp
  | cons e l ih =>
    rw [List.foldl_cons, put_new acc e.1 e.2 ?_, ih]
    · simp
    · simpa using h
    · rw [List.map_append, List.map_cons] at h
      exact fun hm => (List.disjoint_of_nodup_append h) hm (List.mem_cons_self ..)

theorem get_number (vs : List PV) (i j : Nat) :
    get (number i vs) (.int ((i + j : Nat) : Int)) = vs[j]? := by
  induction vs generalizing i j with
  | nil => rfl
  | cons v vs ih =>
    cases j with
    | zero => simp [number, get]
    | succ j =>
      have := ih (i + 1) j
      rw [show i + 1 + j = i + (j + 1) by omega] at this
      simp only [number, get, List.find?_cons, List.getElem?_cons_succ] at this ⊢
      rw [show decide (Key.int (i : Int) = Key.int ((i + (j + 1) : Nat) : Int)) = false from by
        simp only [Key.int.injEq, decide_eq_false_iff_not]; omega]
      exact this

theorem number_length (vs : List PV) (i : Nat) : (number i vs).length = vs.length := by
  induction vs generalizing i with
  | nil => rfl
  | cons v vs ih => simp [number, ih]

theorem range_number (vs : List PV) (f : PV → Option (List UInt8)) :
    ((List.range (number 0 vs).length).map fun (i : Nat) => (get (number 0 vs) (.int (i : Int))).bind f) = vs.map f := by
  rw [number_length]
  apply List.ext_getElem?
  intro i
  have := get_number vs 0 i
  rw [Nat.zero_add] at this
  simp only [List.getElem?_map]
  by_cases h : i < vs.length
  · simp [List.getElem?_range h, this, List.getElem?_eq_getElem h]
  · simp [List.getElem?_eq_none_iff.2 (show (List.range vs.length).length ≤ i by simp; omega),
      List.getElem?_eq_none_iff.2 (show vs.length ≤ i by omega)]

theorem each_length {α β : Type} {R : α → β → Prop} {as : List α} {bs : List β} (h : Each R as bs) : as.length = bs.length := by
  induction h with
  | nil => rfl
  | cons _ _ ih => simp [ih]

theorem concat_each {α β : Type} {R : α → β → Prop} {f : β → Option (List UInt8)} {as : List α} {bs : List β} {out : List UInt8}
    (h : Each R as bs) (he : concat (bs.map f) = some out) :
    WritesAll (fun a o => ∃ b, R a b ∧ f b = some o) as out := by
  induction h generalizing out with
  | nil => simpa [concat, WritesAll] using he.symm
  | @cons a b as bs h _ ih =>
    simp only [List.map_cons, concat, Option.bind_eq_some_iff, Option.map_eq_some_iff] at he
    obtain ⟨x, hx, y, hy, rfl⟩ := he
    exact ⟨x, y, rfl, ⟨b, h, hx⟩, ih hy⟩

theorem concat_some {β : Type} {f : β → Option (List UInt8)} {bs : List β} (h : ∀ b ∈ bs, ∃ o, f b = some o) :
    ∃ out, concat (bs.map f) = some out := by
  induction bs with
  | nil => exact ⟨_, rfl⟩
  | cons b bs ih =>
    obtain ⟨o, ho⟩ := h b (List.mem_cons_self ..)
    obtain ⟨x, hx⟩ := ih (fun b hb => h b (List.mem_cons_of_mem _ hb))
    exact ⟨o ++ x, by simp [concat, ho, hx]⟩

theorem each_right {α β : Type} {R : α → β → Prop} {as : List α} {bs : List β} (h : Each R as bs) :
    ∀ b ∈ bs, ∃ a ∈ as, R a b := by
  induction h with
  | nil => simp
  | cons h _ ih =>
    intro b hb
    rcases List.mem_cons.1 hb with rfl | hb
    · exact ⟨_, List.mem_cons_self .., h⟩
    · obtain ⟨a, ha, hr⟩ := ih b hb
      exact ⟨a, List.mem_cons_of_mem _ ha, hr⟩

/-! ### Keys -/

theorem normKey_cases (s : Str) : (∃ i, normKey s = .int i ∧ Rpc.showInt i = s) ∨ normKey s = .str s := by
  simp only [normKey]
  generalize (if s.head? = some 45 then -(Decimal.value s.tail : Int) else Decimal.value s) = i
  by_cases h : Rpc.showInt i = s ∧ -2 ^ 63 ≤ i ∧ i < 2 ^ 63
  · exact .inl ⟨i, if_pos h, h.1⟩
  · exact .inr (if_neg h)

theorem normKey_inj {s t : Str} (h : normKey s = normKey t) : s = t := by
  rcases normKey_cases s with ⟨i, h1, h2⟩ | h1 <;> rcases normKey_cases t with ⟨j, h3, h4⟩ | h3 <;>
    rw [h1, h3] at h <;> simp_all

theorem stands_int {s s' : Bool} {n m : Nat} {v : Val (.prim m s')} {p : PV} :
    Stands (.int s n) (.prim m s') v p ↔ n = m ∧ s = s' ∧ p = .int (if s then v.toInt else v.toNat) := by
  simp [Stands]

theorem key_write {k : PTy} {a : Serial.Ty} {x : Val a} {q : PV} {e : Key} (hk : IsKey k) (hs : Stands k a x q)
    (he : asKey q = .key e) : write k (keyVal e) = write k q := by
  match k, a, x, hk, hs with
  | .int s n, .prim m s', x, _, hs =>
    obtain ⟨-, -, rfl⟩ := stands_int.1 hs
    simp only [asKey, AsKey.key.injEq] at he
    rw [← he]; rfl
  | .str, .str, x, _, hs =>
    simp only [Stands] at hs
    subst hs
    simp only [asKey, AsKey.key.injEq] at he
    subst he
    rcases normKey_cases x with ⟨i, h1, h2⟩ | h1 <;> rw [h1]
    · simp [keyVal, write, h2]
    · rfl

theorem key_inj {k : PTy} {a : Serial.Ty} {x y : Val a} {q q' : PV} (hk : IsKey k) (hs : Stands k a x q) (hs' : Stands k a y q')
    (he : asKey q = asKey q') : x = y := by
  match k, a, x, y, hk, hs, hs' with
  | .int s n, .prim m s', x, y, _, hs, hs' =>
    obtain ⟨-, -, rfl⟩ := stands_int.1 hs
    obtain ⟨-, -, rfl⟩ := stands_int.1 hs'
    simp only [asKey, AsKey.key.injEq, Key.int.injEq] at he
    cases s
    · simp only [Bool.false_eq_true, if_false] at he
      exact BitVec.eq_of_toNat_eq (by omega)
    · simp only [if_true] at he
      exact BitVec.eq_of_toInt_eq he
  | .str, .str, x, y, _, hs, hs' =>
    simp only [Stands] at hs hs'
    subst hs hs'
    simp only [asKey, AsKey.key.injEq] at he
    exact normKey_inj he

theorem key_exists {k : PTy} {a : Serial.Ty} {x : Val a} {q : PV} (hk : IsKey k) (hs : Stands k a x q) :
    ∃ e, asKey q = .key e := by
  match k, a, x, hk, hs with
  | .int s n, .prim m s', x, _, hs =>
    obtain ⟨-, -, rfl⟩ := stands_int.1 hs
    exact ⟨_, rfl⟩
  | .str, .str, x, _, hs =>
    simp only [Stands] at hs
    subst hs
    exact ⟨_, rfl⟩

/-! ### Writing -/

/-- What PHP writes for a value. -/
def Sent (T : PTy) (w : Serial.Ty) (v : Val w) (bs : List UInt8) : Prop := ∃ p, Stands T w v p ∧ write T p = some bs

/-- The same for members. -/
def SentMems (ms : PMems) (w : Serial.Ty) (v : Val w) (bs : List UInt8) : Prop :=
  ∃ ps, StandsMems ms w v ps ∧ writeMems ms ps = some bs

theorem writesAll_mono {α : Type} {W W' : α → List UInt8 → Prop} (h : ∀ a bs, W a bs → W' a bs) :
    ∀ (vs : List α) (bs : List UInt8), WritesAll W vs bs → WritesAll W' vs bs
  | [], _, hw => hw
  | _ :: vs, _, ⟨a, b, e, h1, h2⟩ => ⟨a, b, e, h _ _ h1, writesAll_mono h vs b h2⟩

mutual
theorem rt_sent : ∀ (T : PTy) (w : Serial.Ty), Fits T w → RT (Serial.read w) (Sent T w) (WF w) (Shape w)
  | .int s n, .prim m s', hf => by
    obtain ⟨rfl, rfl, hn⟩ := hf
    refine rt_mono (rt_read (.prim n s)) ?_ (fun _ h => h) (fun _ h => h)
    rintro v bs - ⟨p, hs, hw⟩
    obtain ⟨-, -, rfl⟩ := stands_int.1 hs
    simp only [write, Option.some.injEq] at hw
    rw [← hw, writeInt_eq hn, pack_val]
    rfl
  | .float, .prim 8 s, _ => by
    refine rt_mono (rt_read (.prim 8 s)) ?_ (fun _ h => h) (fun _ h => h)
    rintro v bs - ⟨p, hs, hw⟩
    simp only [Stands] at hs
    subst hs
    simp only [write, Option.some.injEq] at hw
    exact hw.symm
  | .str, .str, _ => by
    refine rt_mono (rt_read .str) ?_ (fun _ h => h) (fun _ h => h)
    rintro v bs hv ⟨p, hs, hw⟩
    simp only [Stands] at hs
    subst hs
    simp only [write, Option.some.injEq, writeStr, pack_size] at hw
    simp only [Writes, ← hw, Nat.mod_eq_of_lt hv, List.take_length]
  | .arr t, .vec w, hf => by
    simp only [Fits] at hf
    refine rt_mono (rt_seq (rt_sent t w hf) (shape_dflt w)) ?_ (fun _ h => h) (fun _ h => h)
    rintro v bs - ⟨p, hs, hw⟩
    simp only [Stands] at hs
    obtain ⟨ps, rfl, he⟩ := hs
    simp only [write, range_number, Option.map_eq_some_iff, pack_size] at hw
    obtain ⟨body, hb, rfl⟩ := hw
    rw [number_length]
    exact ⟨body, by rw [each_length he], concat_each he hb⟩
  | .map k t, .map a b, hf => by
    simp only [Fits] at hf
    obtain ⟨hk, hf1, hf2⟩ := hf
    refine rt_mono (rt_assoc (rt_pair (rt_sent k a hf1) (rt_sent t b hf2)) (d := (Serial.dflt a, Serial.dflt b))
      ⟨shape_dflt a, shape_dflt b⟩ (lt := Serial.keyLt (Serial.vlt a)) false
      (fun x => (sto_vlt a).irrefl x.1) (fun x y z => (sto_vlt a).trans x.1 y.1 z.1)) ?_ (fun _ h => h) (fun _ h => h)
    rintro v bs - ⟨p, hs, hw⟩
    simp only [Stands] at hs
    obtain ⟨es, m, rfl, hp, he⟩ := hs
    simp only [write, Option.map_eq_some_iff, pack_size] at hw
    obtain ⟨body, hb, rfl⟩ := hw
    refine ⟨body, m, hp, by rw [← each_length he, hp.length_eq], ?_⟩
    refine writesAll_mono ?_ _ _ (concat_each he hb)
    rintro x o ⟨e, ⟨⟨q, hq, hqe⟩, hv⟩, ho⟩
    simp only [Option.bind_eq_some_iff, Option.map_eq_some_iff] at ho
    obtain ⟨o1, h1, o2, h2, rfl⟩ := ho
    exact ⟨o1, o2, rfl, ⟨q, hq, (key_write hk hq hqe) ▸ h1⟩, ⟨e.2, hv, h2⟩⟩
  | .cls n ms, w, hf => by
    rw [Fits] at hf
    refine rt_mono (rt_sentMems ms w hf.2) ?_ (fun _ h => h) (fun _ h => h)
    rintro v bs - ⟨p, hs, hw⟩
    simp only [Stands] at hs
    obtain ⟨ps, rfl, h⟩ := hs
    exact ⟨ps, h, by simpa only [write] using hw⟩
theorem rt_sentMems : ∀ (ms : PMems) (w : Serial.Ty), FitsMems ms w → RT (Serial.read w) (SentMems ms w) (WF w) (Shape w)
  | .nil, .arr 0 t, _ => by
    rintro v bs tail old u - ⟨ps, hs, hw⟩ ho
    simp only [StandsMems] at hs
    simp only [writeMems, Option.some.injEq] at hw
    subst hs hw
    have : old = [] := List.length_eq_zero_iff.1 ho.1
    subst this
    rfl
  | .cons n t ms, .pair a b, hf => by
    simp only [FitsMems] at hf
    refine rt_mono (rt_pair (rt_sent t a hf.1) (rt_sentMems ms b hf.2)) ?_ (fun _ h => h) (fun _ h => h)
    rintro v bs - ⟨ps, hs, hw⟩
    simp only [StandsMems] at hs
    obtain ⟨⟨p, hg, hp⟩, hm⟩ := hs
    simp only [writeMems, hg, Option.bind_some, Option.bind_eq_some_iff, Option.map_eq_some_iff] at hw
    obtain ⟨x, hx, y, hy, rfl⟩ := hw
    exact ⟨x, y, rfl, ⟨p, hp, hx⟩, ⟨ps, hm, hy⟩⟩
end

mutual
theorem write_some : ∀ (T : PTy) (w : Serial.Ty), Fits T w → ∀ (v : Val w) (p : PV), Stands T w v p → ∃ bs, write T p = some bs
  | .int s n, .prim m s', _ => by
    intro v p hs
    obtain ⟨-, -, rfl⟩ := stands_int.1 hs
    exact ⟨_, rfl⟩
  | .float, .prim 8 s, _ => by
    intro v p hs
    simp only [Stands] at hs
    subst hs
    exact ⟨_, rfl⟩
  | .str, .str, _ => by
    intro v p hs
    simp only [Stands] at hs
    subst hs
    exact ⟨_, rfl⟩
  | .arr t, .vec w, hf => by
    intro v p hs
    simp only [Fits] at hf
    simp only [Stands] at hs
    obtain ⟨ps, rfl, he⟩ := hs
    obtain ⟨out, ho⟩ := concat_some (f := write t) (bs := ps) (fun b hb => by
      obtain ⟨a, _, hr⟩ := each_right he b hb
      exact write_some t w hf a b hr)
    exact ⟨_, by simp only [write, range_number, ho, Option.map_some]; rfl⟩
  | .map k t, .map a b, hf => by
    intro v p hs
    simp only [Fits] at hf
    obtain ⟨hk, hf1, hf2⟩ := hf
    simp only [Stands] at hs
    obtain ⟨es, m, rfl, hp, he⟩ := hs
    obtain ⟨out, ho⟩ := concat_some
      (f := fun (e : Key × PV) => (write k (keyVal e.1)).bind fun a => (write t e.2).map fun b => a ++ b) (bs := es) (fun e hb => by
        obtain ⟨x, _, ⟨q, hq, hqe⟩, hv⟩ := each_right he e hb
        obtain ⟨o1, h1⟩ := write_some k a hf1 x.1 q hq
        obtain ⟨o2, h2⟩ := write_some t b hf2 x.2 e.2 hv
        exact ⟨o1 ++ o2, by simp only [key_write hk hq hqe, h1, h2, Option.bind_some, Option.map_some]⟩)
    exact ⟨_, by simp only [write, ho, Option.map_some]; rfl⟩
  | .cls n ms, w, hf => by
    intro v p hs
    rw [Fits] at hf
    simp only [Stands] at hs
    obtain ⟨ps, rfl, h⟩ := hs
    simp only [write]
    exact writeMems_some ms w hf.2 v ps h
theorem writeMems_some : ∀ (ms : PMems) (w : Serial.Ty), FitsMems ms w → ∀ (v : Val w) (ps : List (Str × PV)), StandsMems ms w v ps →
    ∃ bs, writeMems ms ps = some bs
  | .nil, _, _ => fun _ _ _ => ⟨[], by simp [writeMems]⟩
  | .cons n t ms, .pair a b, hf => by
    intro v ps hs
    simp only [FitsMems] at hf
    simp only [StandsMems] at hs
    obtain ⟨⟨p, hg, hp⟩, hm⟩ := hs
    obtain ⟨x, hx⟩ := write_some t a hf.1 v.1 p hp
    obtain ⟨y, hy⟩ := writeMems_some ms b hf.2 v.2 ps hm
    exact ⟨x ++ y, by simp only [writeMems, hg, hx, hy, Option.bind_some, Option.map_some]⟩
end

/-! ### Reading -/

theorem unpack_toLE {n v : Nat} (hn : 0 < n) (hv : v < 256 ^ n) (rest : List UInt8) (net : List (List UInt8)) :
    unpack n ⟨toLE n v ++ rest, net⟩ = .ok (v, ⟨rest, net⟩) := by
  have hl := length_toLE n v
  have h1 : n ≤ (toLE n v ++ rest).length := by rw [List.length_append, hl]; omega
  have e1 : (toLE n v ++ rest).take n = toLE n v := List.take_left' hl
  have e2 : (toLE n v ++ rest).drop n = rest := List.drop_left' hl
  simp only [unpack, fread, if_neg (show ¬ n = 0 by omega), if_pos h1, e1, e2, hl, if_true, ofLE_toLE n v hv]

theorem unpack_size (n : Nat) (rest : List UInt8) (net : List (List UInt8)) :
    unpack 4 ⟨sizeField n ++ rest, net⟩ = .ok (n % 2 ^ 32, ⟨rest, net⟩) :=
  unpack_toLE (by omega) (by have := Nat.mod_lt n (show 0 < 2 ^ 32 by decide); omega) ..

theorem readStr_eq (s : Str) (hs : s ≠ []) (hl : s.length < 2 ^ 32) (rest : List UInt8) (net : List (List UInt8)) :
    readStr ⟨sizeField s.length ++ s ++ rest, net⟩ = .ok (.str s, ⟨rest, net⟩) := by
  have h0 : s.length ≠ 0 := fun h => hs (List.length_eq_zero_iff.1 h)
  have h1 : s.length ≤ (s ++ rest).length := by rw [List.length_append]; omega
  simp only [readStr, List.append_assoc, unpack_size, Nat.mod_eq_of_lt hl, fread, if_neg h0, if_pos h1, List.take_left', List.drop_left']

theorem readMany_each {w : Serial.Ty} {T : PTy} {W : Val w → List UInt8 → Prop} {ok : Val w → Prop} (rest : List UInt8) (net : List (List UInt8))
    (h : ∀ v bs rest, ok v → W v bs → ∃ p, read T ⟨bs ++ rest, net⟩ = .ok (p, ⟨rest, net⟩) ∧ Stands T w v p) :
    ∀ (vs : List (Val w)) (bs : List UInt8), (∀ v ∈ vs, ok v) → WritesAll W vs bs →
      ∃ ps, readMany (read T) vs.length ⟨bs ++ rest, net⟩ = .ok (ps, ⟨rest, net⟩) ∧ Each (Stands T w) vs ps
  | [], bs, _, hw => by
    simp only [WritesAll] at hw
    subst hw
    exact ⟨[], rfl, .nil⟩
  | v :: vs, bs, hok, hw => by
    obtain ⟨a, b, rfl, h1, h2⟩ := hw
    obtain ⟨p, hp, hs⟩ := h v a (b ++ rest) (hok v (List.mem_cons_self ..)) h1
    obtain ⟨ps, hps, he⟩ := readMany_each rest net h vs b (fun x hx => hok x (List.mem_cons_of_mem _ hx)) h2
    exact ⟨p :: ps, by simp only [List.length_cons, readMany, List.append_assoc, hp, hps], .cons hs he⟩

theorem readMap_each {a b : Serial.Ty} {k t : PTy} {W : Val a → List UInt8 → Prop} {W' : Val b → List UInt8 → Prop}
    {ok : Val a × Val b → Prop} (hk : IsKey k) (rest : List UInt8) (net : List (List UInt8))
    (h : ∀ v bs rest, ok v → W v.1 bs → ∃ p, read k ⟨bs ++ rest, net⟩ = .ok (p, ⟨rest, net⟩) ∧ Stands k a v.1 p)
    (h' : ∀ v bs rest, ok v → W' v.2 bs → ∃ p, read t ⟨bs ++ rest, net⟩ = .ok (p, ⟨rest, net⟩) ∧ Stands t b v.2 p) :
    ∀ (vs : List (Val a × Val b)) (bs : List UInt8) (acc : List (Key × PV)), (∀ v ∈ vs, ok v) → (vs.map (·.1)).Nodup →
      (∀ v ∈ vs, ∀ q e, Stands k a v.1 q → asKey q = .key e → e ∉ acc.map (·.1)) →
      WritesAll (fun p bs => ∃ x y, bs = x ++ y ∧ W p.1 x ∧ W' p.2 y) vs bs →
      ∃ es, readMap (read k) (read t) vs.length acc ⟨bs ++ rest, net⟩ = .ok (acc ++ es, ⟨rest, net⟩) ∧
        Each (fun (x : Val a × Val b) (e : Key × PV) => (∃ q, Stands k a x.1 q ∧ asKey q = .key e.1) ∧ Stands t b x.2 e.2) vs es
  | [], bs, acc, _, _, _, hw => by
    simp only [WritesAll] at hw
    subst hw
    exact ⟨[], by simp [readMap], .nil⟩
  | v :: vs, bs, acc, hok, hnd, hacc, hw => by
    obtain ⟨_, c, rfl, ⟨x, y, rfl, h1, h2⟩, h3⟩ := hw
    have ho := hok v (List.mem_cons_self ..)
    obtain ⟨p, hp, hs⟩ := h v x (y ++ (c ++ rest)) ho h1
    obtain ⟨q, hq, hs'⟩ := h' v y (c ++ rest) ho h2
    obtain ⟨e, he⟩ := key_exists hk hs
    rw [List.map_cons, List.nodup_cons] at hnd
    have hnew := hacc v (List.mem_cons_self ..) p e hs he
    obtain ⟨es, hes, hee⟩ := readMap_each hk rest net h h' vs c (acc ++ [(e, q)]) (fun z hz => hok z (List.mem_cons_of_mem _ hz)) hnd.2
      (by
        intro z hz q' e' hz' he' hm
        rw [List.map_append, List.mem_append] at hm
        rcases hm with hm | hm
        · exact hacc z (List.mem_cons_of_mem _ hz) q' e' hz' he' hm
        · simp only [List.map_cons, List.map_nil, List.mem_singleton] at hm
          subst hm
          have := key_inj hk hz' hs (by rw [he, he'])
          exact hnd.1 (by rw [← this]; exact List.mem_map_of_mem hz)) h3
    refine ⟨(e, q) :: es, ?_, .cons ⟨⟨p, hs, he⟩, hs'⟩ hee⟩
    rw [List.append_assoc, List.singleton_append] at hes
    simp only [List.length_cons, readMap, List.append_assoc, hp, hq, he, put_new acc e q hnew, hes]

mutual
theorem read_stands : ∀ (T : PTy) (w : Serial.Ty), Fits T w → ∀ (v : Val w) (bs rest : List UInt8) (net : List (List UInt8)),
    WF w v → NoEmpty w v → Writes w v bs → ∃ p, read T ⟨bs ++ rest, net⟩ = .ok (p, ⟨rest, net⟩) ∧ Stands T w v p
  | .int s n, .prim m s', hf => by
    intro v bs rest net _ _ hw
    obtain ⟨rfl, rfl, hn⟩ := hf
    simp only [Writes] at hw
    subst hw
    have hv : v.toNat < 256 ^ n := by
      have := v.isLt
      rwa [Nat.pow_mul] at this
    have h0 : 0 < n := by omega
    refine ⟨.int (if s then v.toInt else v.toNat), ?_, stands_int.2 ⟨rfl, rfl, rfl⟩⟩
    simp only [read, readInt, if_pos hn, unpack_toLE h0 hv, signed_val h0]
  | .float, .prim 8 s, _ => by
    intro v bs rest net _ _ hw
    simp only [Writes] at hw
    subst hw
    have hv : v.toNat < 256 ^ 8 := v.isLt
    refine ⟨.float v, ?_, by simp [Stands]⟩
    simp only [read, unpack_toLE (show 0 < 8 by omega) hv, BitVec.ofNat_toNat, BitVec.setWidth_eq]
  | .str, .str, _ => by
    intro v bs rest net hwf hne hw
    simp only [WF] at hwf
    simp only [NoEmpty] at hne
    simp only [Writes, Nat.mod_eq_of_lt hwf, List.take_length] at hw
    subst hw
    exact ⟨.str v, by rw [read, readStr_eq v hne hwf], by simp [Stands]⟩
  | .arr t, .vec w, hf => by
    intro v bs rest net hwf hne hw
    simp only [Fits] at hf
    simp only [WF] at hwf
    simp only [NoEmpty] at hne
    simp only [Writes, Nat.mod_eq_of_lt hwf.1, List.take_length] at hw
    obtain ⟨body, rfl, hb⟩ := hw
    obtain ⟨ps, hps, he⟩ := readMany_each (ok := fun x => WF w x ∧ NoEmpty w x) rest net
      (fun v bs rest ho hw => read_stands t w hf v bs rest net ho.1 ho.2 hw) v body (fun x hx => ⟨hwf.2 x hx, hne x hx⟩) hb
    exact ⟨.arr (number 0 ps), by simp only [read, List.append_assoc, unpack_size, Nat.mod_eq_of_lt hwf.1, hps], by
      simp only [Stands]; exact ⟨ps, rfl, he⟩⟩
  | .map k t, .map a b, hf => by
    intro v bs rest net hwf hne hw
    simp only [Fits] at hf
    obtain ⟨hk, hf1, hf2⟩ := hf
    simp only [WF] at hwf
    simp only [NoEmpty] at hne
    simp only [Writes] at hw
    obtain ⟨body, rfl, hb⟩ := hw
    have hnd : (v.map (·.1)).Nodup := by
      rw [List.Nodup, List.pairwise_map]
      refine hwf.2.1.imp ?_
      intro x y hxy e
      rw [e, (sto_vlt a).irrefl] at hxy
      exact Bool.noConfusion hxy
    obtain ⟨es, hes, he⟩ := readMap_each (k := k) (t := t) (ok := fun x => (WF a x.1 ∧ NoEmpty a x.1) ∧ WF b x.2 ∧ NoEmpty b x.2) hk rest net
      (fun v bs rest ho hw => read_stands k a hf1 v.1 bs rest net ho.1.1 ho.1.2 hw)
      (fun v bs rest ho hw => read_stands t b hf2 v.2 bs rest net ho.2.1 ho.2.2 hw) v body []
      (fun x hx => ⟨⟨(hwf.2.2 x hx).1, (hne x hx).1⟩, (hwf.2.2 x hx).2, (hne x hx).2⟩) hnd (fun _ _ _ _ _ _ hm => by cases hm) hb
    rw [List.nil_append] at hes
    exact ⟨.arr es, by simp only [read, List.append_assoc, unpack_size, Nat.mod_eq_of_lt hwf.1, hes], by
      simp only [Stands]; exact ⟨es, v, rfl, .refl _, he⟩⟩
  | .cls n ms, w, hf => by
    intro v bs rest net hwf hne hw
    rw [Fits] at hf
    obtain ⟨ps, hps, hs, _⟩ := read_standsMems ms w hf.2 hf.1 v bs rest net [] hwf hne hw
    exact ⟨.obj n ps, by simp only [read, hps], by simp only [Stands]; exact ⟨ps, rfl, hs⟩⟩
theorem read_standsMems : ∀ (ms : PMems) (w : Serial.Ty), FitsMems ms w → (memNames ms).Nodup →
    ∀ (v : Val w) (bs rest : List UInt8) (net : List (List UInt8)) (acc : List (Str × PV)),
    WF w v → NoEmpty w v → Writes w v bs → ∃ ps, readMems ms acc ⟨bs ++ rest, net⟩ = .ok (ps, ⟨rest, net⟩) ∧ StandsMems ms w v ps ∧
      ∀ n, n ∉ memNames ms → get ps n = get acc n
  | .nil, .arr 0 _, _, _ => by
    intro v bs rest net acc hwf _ hw
    have : v = [] := List.length_eq_zero_iff.1 hwf.1
    subst this
    simp only [Writes, WritesAll] at hw
    subst hw
    exact ⟨acc, by simp [readMems], by simp [StandsMems], fun _ _ => rfl⟩
  | .cons n t ms, .pair a b, hf, hnd => by
    intro v bs rest net acc hwf hne hw
    simp only [FitsMems] at hf
    simp only [memNames, List.nodup_cons] at hnd
    simp only [WF] at hwf
    simp only [NoEmpty] at hne
    simp only [Writes] at hw
    obtain ⟨x, y, rfl, h1, h2⟩ := hw
    obtain ⟨p, hp, hs⟩ := read_stands t a hf.1 v.1 x (y ++ rest) net hwf.1 hne.1 h1
    obtain ⟨ps, hps, hs', hg⟩ := read_standsMems ms b hf.2 hnd.2 v.2 y rest net (put acc n p) hwf.2 hne.2 h2
    refine ⟨ps, by simp only [readMems, List.append_assoc, hp, hps], ?_, ?_⟩
    · simp only [StandsMems]
      exact ⟨⟨p, by rw [hg n hnd.1, get_put, if_pos rfl], hs⟩, hs'⟩
    · intro n' hn'
      simp only [memNames, List.mem_cons, not_or] at hn'
      rw [hg n' hn'.2, get_put, if_neg (fun h => hn'.1 h.symm)]
end

/-! ### The program that is written -/

mutual
theorem nameRep_handled : ∀ (t : Reflect.Ty) (a : Nat), Handled t → nameRep a (Reflect.Spec.desc t) = (a, Reflect.Spec.desc t)
  | .int s n, a, _ => by simp [Reflect.Spec.desc, nameRep]
  | .float _, a, _ => by simp [Reflect.Spec.desc, nameRep]
  | .str, a, _ => by simp [Reflect.Spec.desc, nameRep]
  | .vec t, a, h => by
    simp only [Handled] at h
    simp only [Reflect.Spec.desc, nameRep, nameRep_handled t a h]
  | .map k v, a, h => by
    simp only [Handled] at h
    simp only [Reflect.Spec.desc, nameRep, nameRep_handled k a h.2.1, nameRep_handled v a h.2.2]
  | .cls body, a, h => by
    simp only [Handled] at h
    simp only [Reflect.Spec.desc, nameRep, if_neg h.1, nameMems_handled body a h.2.2.2]
theorem nameMems_handled : ∀ (as : List Act) (a : Nat), HandledBody as →
    nameMems a (Reflect.Spec.descBody as) = (a, Reflect.Spec.descBody as)
  | [], a, _ => by simp [Reflect.Spec.descBody, nameMems]
  | .name _ :: as, a, h => by
    simp only [HandledBody] at h
    simp only [Reflect.Spec.descBody, nameMems_handled as a h]
  | .member n t :: as, a, h => by
    simp only [HandledBody] at h
    simp only [Reflect.Spec.descBody, nameMems, nameMem, nameRep_handled t a h.1, nameMems_handled as a h.2]
  | .plain t :: as, a, h => by
    simp only [HandledBody] at h
    simp only [Reflect.Spec.descBody, nameMems, nameMem, nameRep_handled t a h.1, nameMems_handled as a h.2]
end

theorem nameReps_handled (ts : List Reflect.Ty) (a : Nat) (h : ∀ t ∈ ts, Handled t) :
    nameReps a (ts.map Reflect.Spec.desc) = (a, ts.map Reflect.Spec.desc) := by
  induction ts with
  | nil => rfl
  | cons t ts ih =>
    simp only [List.map_cons, nameReps, nameRep_handled t a (h t (List.mem_cons_self ..)),
      ih (fun t ht => h t (List.mem_cons_of_mem _ ht))]

theorem nameSigs_handled (sigs : List CSig) (a : Nat) (h : ∀ m ∈ sigs, ∀ t ∈ typesOf m, Handled t) :
    nameSigs a (sigs.map describe) = (a, sigs.map describe) := by
  induction sigs with
  | nil => rfl
  | cons m sigs ih =>
    have hm := h m (List.mem_cons_self ..)
    simp only [List.map_cons, nameSigs, describe, nameRep_handled m.2.1 a (hm _ (by simp [typesOf])),
      nameReps_handled m.2.2 a (fun t ht => hm t (by simp [typesOf, ht]))]
    have := ih (fun m hm => h m (List.mem_cons_of_mem _ hm))
    rw [this]

theorem nameRefs_handled (refs : List (List CSig)) (a : Nat) (h : ∀ sigs ∈ refs, ∀ m ∈ sigs, ∀ t ∈ typesOf m, Handled t) :
    nameRefs a (refs.map (·.map describe)) = refs.map (·.map describe) := by
  induction refs with
  | nil => rfl
  | cons r refs ih =>
    simp only [List.map_cons, nameRefs, nameSigs_handled r a (h r (List.mem_cons_self ..)),
      ih (fun m hm => h m (List.mem_cons_of_mem _ hm))]

theorem addType_find (l : List Rep) (acc : List (Str × List Mem)) (n : Str) (ms : List Mem)
    (hu : ∀ ms', Rep.cls n ms' ∈ l → ms' = ms) (h : Rep.cls n ms ∈ l ∨ AssocMap.find acc n = some ms) :
    AssocMap.find (l.foldl addType acc) n = some ms := by
  induction l generalizing acc with
  | nil =>
    rcases h with h | h
    · cases h
    · exact h
  | cons r l ih =>
    rw [List.foldl_cons]
    refine ih (addType acc r) (fun ms' h => hu ms' (List.mem_cons_of_mem _ h)) ?_
    by_cases hr : ∃ ms', r = .cls n ms'
    · obtain ⟨ms', rfl⟩ := hr
      have := hu ms' (List.mem_cons_self ..)
      subst this
      exact .inr (by rw [addType, AssocMap.find_upsert, if_pos rfl])
    · rcases h with h | h
      · rcases List.mem_cons.1 h with h | h
        · exact absurd ⟨ms, h.symm⟩ hr
        · exact .inl h
      · refine .inr ?_
        cases r with
        | cls n' ms' =>
          rw [addType, AssocMap.find_upsert, if_neg (fun e => hr ⟨ms', by rw [e]⟩)]
          exact h
        | _ => exact h

theorem nameAnon_named (ms : List Mem) (c : Nat) (h : [] ∉ ms.map fun m => (memPair m).1) : nameAnon c ms = (c, ms.map memPair) := by
  induction ms generalizing c with
  | nil => rfl
  | cons m ms ih =>
    obtain ⟨n, t⟩ := m
    simp only [List.map_cons, List.mem_cons, not_or, memPair] at h
    simp only [nameAnon, if_neg (Ne.symm h.1), ih c h.2, List.map_cons, memPair]

theorem classes_find (tab : List (Str × List Mem)) (c : Nat) (n : Str) (ms : List Mem) (h : AssocMap.find tab n = some ms)
    (hn : [] ∉ ms.map fun m => (memPair m).1) : AssocMap.find (classes c tab) n = some (ms.map memPair) := by
  induction tab generalizing c with
  | nil => cases h
  | cons e tab ih =>
    simp only [AssocMap.find, classes, List.find?_cons] at h ih ⊢
    by_cases he : e.1 = n
    · simp only [he, decide_true, Option.map_some, Option.some.injEq] at h ⊢
      subst h
      rw [nameAnon_named e.2 c hn]
    · simp only [he, decide_false] at h ⊢
      exact ih _ h

theorem descBody_names (as : List Act) : (Reflect.Spec.descBody as).map (fun m => (memPair m).1) = bodyNames as := by
  induction as with
  | nil => rfl
  | cons a as ih => cases a <;> simp [Reflect.Spec.descBody, bodyNames, ih, show ∀ n t, (memPair (.mk n t)).1 = n from fun _ _ => rfl]

theorem memNames_ofList (l : List (Str × PTy)) : memNames (.ofList l) = l.map (·.1) := by
  induction l with
  | nil => rfl
  | cons e l ih => simp [PMems.ofList, memNames, ih]

theorem has_part {tab : List (Str × List (Str × Rep))} {p r : Rep} (h : Has tab r) (hp : p ∈ Reflect.Spec.parts r) : Has tab p :=
  fun n ms hc => h n ms (.inside _ _ _ hc hp)

theorem size_pos (r : Rep) : 0 < Reflect.Spec.size r := by
  cases r <;> simp only [Reflect.Spec.size] <;> omega

mutual
theorem eval_handled (tab : List (Str × List (Str × Rep))) : ∀ (t : Reflect.Ty), Handled t → Has tab (Reflect.Spec.desc t) →
    ∃ T w, Reflect.wire t = some w ∧ Fits T w ∧ (KeyTy t → IsKey T) ∧
      ∀ fuel, Reflect.Spec.size (Reflect.Spec.desc t) ≤ fuel → eval tab fuel (Reflect.Spec.desc t) = some T
  | .int s n, h, _ => by
    simp only [Handled] at h
    refine ⟨.int s n, .prim n s, by simp [Reflect.wire], by simp [Fits, h], fun _ => trivial, fun fuel hfu => ?_⟩
    cases fuel with
    | zero => simp [Reflect.Spec.desc, Reflect.Spec.size] at hfu
    | succ f => simp [Reflect.Spec.desc, eval]
  | .float n, h, _ => by
    simp only [Handled] at h
    subst h
    refine ⟨.float, .prim 8 true, by simp [Reflect.wire], by simp [Fits], fun h => h.elim, fun fuel hfu => ?_⟩
    cases fuel with
    | zero => simp [Reflect.Spec.desc, Reflect.Spec.size] at hfu
    | succ f => simp [Reflect.Spec.desc, eval]
  | .str, h, _ => by
    refine ⟨.str, .str, by simp [Reflect.wire], by simp [Fits], fun _ => trivial, fun fuel hfu => ?_⟩
    cases fuel with
    | zero => simp [Reflect.Spec.desc, Reflect.Spec.size] at hfu
    | succ f => simp [Reflect.Spec.desc, eval]
  | .vec t, h, ht => by
    simp only [Handled] at h
    simp only [Reflect.Spec.desc] at ht ⊢
    obtain ⟨T, w, h1, h2, _, h3⟩ := eval_handled tab t h (has_part ht (by simp [Reflect.Spec.parts]))
    refine ⟨.arr T, .vec w, by simp [Reflect.wire, h1], by simpa [Fits] using h2, fun h => h.elim, fun fuel hfu => ?_⟩
    simp only [Reflect.Spec.size] at hfu
    cases fuel with
    | zero => omega
    | succ f => simp [eval, h3 f (by omega)]
  | .map k v, h, ht => by
    simp only [Handled] at h
    simp only [Reflect.Spec.desc] at ht ⊢
    obtain ⟨K, a, k1, k2, kk, k3⟩ := eval_handled tab k h.2.1 (has_part ht (by simp [Reflect.Spec.parts]))
    obtain ⟨T, w, h1, h2, _, h3⟩ := eval_handled tab v h.2.2 (has_part ht (by simp [Reflect.Spec.parts]))
    refine ⟨.map K T, .map a w, by simp [Reflect.wire, h1, k1], by simp only [Fits]; exact ⟨kk h.1, k2, h2⟩, fun h => h.elim, fun fuel hfu => ?_⟩
    simp only [Reflect.Spec.size] at hfu
    cases fuel with
    | zero => omega
    | succ f => simp [eval, h3 f (by omega), k3 f (by omega)]
  | .cls body, h, ht => by
    simp only [Handled] at h
    obtain ⟨l, w, h1, h2, hn, h3⟩ := evalBody_handled tab body h.2.2.2 (fun p hp => has_part ht (by
      simp only [Reflect.Spec.desc, Reflect.Spec.parts]; exact hp))
    have hf := ht (Reflect.Spec.nameOf body) (Reflect.Spec.descBody body) (by rw [Reflect.Spec.desc]; exact .self _)
    have hp : l.foldl (fun es e => put es e.1 e.2) [] = l := by
      have := foldl_put l [] (by rw [List.nil_append, hn]; exact h.2.2.1)
      simpa using this
    refine ⟨.cls (Reflect.Spec.nameOf body) (.ofList l), w, by simp [Reflect.wire, h1], ?_, fun h => h.elim, fun fuel hfu => ?_⟩
    · simp only [Fits]
      exact ⟨by rw [memNames_ofList, hn]; exact h.2.2.1, h2⟩
    · simp only [Reflect.Spec.desc, Reflect.Spec.size] at hfu ⊢
      cases fuel with
      | zero => omega
      | succ f => simp only [eval, hf, Option.bind_some, h3 f (by omega), Option.map_some, hp]
theorem evalBody_handled (tab : List (Str × List (Str × Rep))) : ∀ (as : List Act), HandledBody as →
    (∀ p ∈ (Reflect.Spec.descBody as).map Reflect.Spec.memType, Has tab p) →
    ∃ l w, Reflect.wireBody as = some w ∧ FitsMems (.ofList l) w ∧ l.map (·.1) = bodyNames as ∧
      ∀ fuel, Reflect.Spec.sizeMems (Reflect.Spec.descBody as) ≤ fuel →
        ((Reflect.Spec.descBody as).map memPair).mapM (fun m => (eval tab fuel m.2).map fun t => (m.1, t)) = some l
  | [], _, _ => ⟨[], .arr 0 .bool, by simp [Reflect.wireBody], by simp [PMems.ofList, FitsMems], rfl, fun _ _ => by
      simp [Reflect.Spec.descBody]⟩
  | .name _ :: as, h, ht => by
    simp only [HandledBody] at h
    simp only [Reflect.Spec.descBody] at ht ⊢
    obtain ⟨l, w, h1, h2, hn, h3⟩ := evalBody_handled tab as h ht
    exact ⟨l, w, by simpa only [Reflect.wireBody] using h1, h2, by simpa only [bodyNames] using hn, h3⟩
  | .member n t :: as, h, ht => by
    simp only [HandledBody] at h
    simp only [Reflect.Spec.descBody] at ht ⊢
    obtain ⟨T, a, k1, k2, _, k3⟩ := eval_handled tab t h.1 (ht _ (by simp [Reflect.Spec.memType]))
    obtain ⟨l, w, h1, h2, hn, h3⟩ := evalBody_handled tab as h.2 (fun p hp => ht p (by
      simp only [List.map_cons, List.mem_cons]; exact .inr hp))
    refine ⟨(n, T) :: l, .pair a w, by simp [Reflect.wireBody, k1, h1], by simp only [PMems.ofList, FitsMems]; exact ⟨k2, h2⟩,
      by simp [bodyNames, hn], fun fuel hfu => ?_⟩
    simp only [Reflect.Spec.sizeMems, Reflect.Spec.sizeMem] at hfu
    simp [memPair, k3 fuel (by omega), h3 fuel (by omega)]
  | .plain t :: as, h, ht => by
    simp only [HandledBody] at h
    simp only [Reflect.Spec.descBody] at ht ⊢
    obtain ⟨T, a, k1, k2, _, k3⟩ := eval_handled tab t h.1 (ht _ (by simp [Reflect.Spec.memType]))
    obtain ⟨l, w, h1, h2, hn, h3⟩ := evalBody_handled tab as h.2 (fun p hp => ht p (by
      simp only [List.map_cons, List.mem_cons]; exact .inr hp))
    refine ⟨([], T) :: l, .pair a w, by simp [Reflect.wireBody, k1, h1], by simp only [PMems.ofList, FitsMems]; exact ⟨k2, h2⟩,
      by simp [bodyNames, hn], fun fuel hfu => ?_⟩
    simp only [Reflect.Spec.sizeMems, Reflect.Spec.sizeMem] at hfu
    simp [memPair, k3 fuel (by omega), h3 fuel (by omega)]
end

mutual
/-- Classes within the description of a handled type have names for their members. -/
theorem named_parts : ∀ (t : Reflect.Ty), Handled t → ∀ n ms, Rep.cls n ms ∈ Reflect.traverse (Reflect.Spec.desc t) →
    [] ∉ ms.map fun m => (memPair m).1
  | .int s k, _, n, ms, hp => by simp [Reflect.Spec.desc, Reflect.traverse] at hp
  | .float _, _, n, ms, hp => by simp [Reflect.Spec.desc, Reflect.traverse] at hp
  | .str, _, n, ms, hp => by simp [Reflect.Spec.desc, Reflect.traverse] at hp
  | .vec t, h, n, ms, hp => by
    simp only [Handled] at h
    simp only [Reflect.Spec.desc, Reflect.traverse, List.mem_cons, reduceCtorEq, false_or] at hp
    exact named_parts t h n ms hp
  | .map k v, h, n, ms, hp => by
    simp only [Handled] at h
    simp only [Reflect.Spec.desc, Reflect.traverse, List.mem_cons, reduceCtorEq, false_or, List.mem_append] at hp
    rcases hp with hp | hp
    · exact named_parts k h.2.1 n ms hp
    · exact named_parts v h.2.2 n ms hp
  | .cls body, h, n, ms, hp => by
    simp only [Handled] at h
    simp only [Reflect.Spec.desc, Reflect.traverse, List.mem_cons, Rep.cls.injEq] at hp
    rcases hp with ⟨-, rfl⟩ | hp
    · rw [descBody_names]; exact h.2.1
    · exact named_partsBody body h.2.2.2 n ms hp
theorem named_partsBody : ∀ (as : List Act), HandledBody as → ∀ n ms, Rep.cls n ms ∈ Reflect.traverseMems (Reflect.Spec.descBody as) →
    [] ∉ ms.map fun m => (memPair m).1
  | [], _, n, ms, hp => by simp [Reflect.Spec.descBody, Reflect.traverseMems] at hp
  | .name _ :: as, h, n, ms, hp => by
    simp only [HandledBody] at h
    simp only [Reflect.Spec.descBody] at hp
    exact named_partsBody as h n ms hp
  | .member _ t :: as, h, n, ms, hp => by
    simp only [HandledBody] at h
    simp only [Reflect.Spec.descBody, Reflect.traverseMems, Reflect.traverseMem, List.mem_append] at hp
    rcases hp with hp | hp
    · exact named_parts t h.1 n ms hp
    · exact named_partsBody as h.2 n ms hp
  | .plain t :: as, h, n, ms, hp => by
    simp only [HandledBody] at h
    simp only [Reflect.Spec.descBody, Reflect.traverseMems, Reflect.traverseMem, List.mem_append] at hp
    rcases hp with hp | hp
    · exact named_parts t h.1 n ms hp
    · exact named_partsBody as h.2 n ms hp
end

theorem mem_reps {sigs : List CSig} {r : Rep} :
    r ∈ reps (sigs.map describe) ↔ ∃ m ∈ sigs, ∃ t ∈ typesOf m, r ∈ Reflect.traverse (Reflect.Spec.desc t) := by
  simp only [reps, List.mem_flatMap, List.mem_map, describe, typesOf]
  constructor
  · rintro ⟨_, ⟨m, hm, rfl⟩, q, hq, hr⟩
    simp only [List.mem_cons, List.mem_map] at hq
    rcases hq with rfl | ⟨t, ht, rfl⟩
    · exact ⟨m, hm, m.2.1, List.mem_cons_self .., hr⟩
    · exact ⟨m, hm, t, List.mem_cons_of_mem _ ht, hr⟩
  · rintro ⟨m, hm, t, ht, hr⟩
    refine ⟨_, ⟨m, hm, rfl⟩, Reflect.Spec.desc t, ?_, hr⟩
    rcases List.mem_cons.1 ht with rfl | ht
    · exact List.mem_cons_self ..
    · exact List.mem_cons_of_mem _ (List.mem_map_of_mem ht)

theorem mem_allReps {refs : List (List CSig)} {r : Rep} :
    r ∈ (refs.map (·.map describe)).flatMap reps ↔ ∃ m ∈ refs.flatten, ∃ t ∈ typesOf m, r ∈ Reflect.traverse (Reflect.Spec.desc t) := by
  simp only [List.mem_flatMap, List.mem_map, List.mem_flatten]
  constructor
  · rintro ⟨_, ⟨s, hs, rfl⟩, hr⟩
    obtain ⟨m, hm, h⟩ := mem_reps.1 hr
    exact ⟨m, ⟨s, hs, hm⟩, h⟩
  · rintro ⟨m, ⟨s, hs, hm⟩, h⟩
    exact ⟨_, ⟨s, hs, rfl⟩, mem_reps.2 ⟨m, hm, h⟩⟩

theorem table_has {refs : List (List CSig)} (hh : ∀ m ∈ refs.flatten, ∀ t ∈ typesOf m, Handled t) (hc : Clear refs)
    {m : CSig} (hm : m ∈ refs.flatten) {t : Reflect.Ty} (ht : t ∈ typesOf m) :
    Has (classes 0 (table (refs.map (·.map describe)))) (Reflect.Spec.desc t) := by
  intro n ms hp
  have htr := Reflect.Lemmas.part_traverse hp
  refine classes_find _ 0 n ms (addType_find _ [] n ms ?_ (.inl (mem_allReps.2 ⟨m, hm, t, ht, htr⟩))) (named_parts t (hh m hm t ht) n ms htr)
  intro ms' h
  obtain ⟨m', hm', t', ht', h'⟩ := mem_allReps.1 h
  exact hc m' hm' t' ht' m hm t ht n ms' ms (Reflect.Lemmas.traverse_part _ _ h') hp

theorem length_le_flatMap {α β : Type} (f : α → List β) (l : List α) (a : α) (h : a ∈ l) : (f a).length ≤ (l.flatMap f).length := by
  obtain ⟨s, t, rfl⟩ := List.append_of_mem h
  simp only [List.flatMap_append, List.flatMap_cons, List.length_append]
  omega

theorem size_le {refs : List (List CSig)} {m : CSig} (hm : m ∈ refs.flatten) {t : Reflect.Ty} (ht : t ∈ typesOf m) :
    Reflect.Spec.size (Reflect.Spec.desc t) ≤ ((refs.map (·.map describe)).flatMap reps).length := by
  obtain ⟨s, hs, hms⟩ := List.mem_flatten.1 hm
  have h1 := length_le_flatMap reps (refs.map (·.map describe)) _ (List.mem_map_of_mem hs)
  have h2 := length_le_flatMap (fun m : Sig => (m.2.1 :: m.2.2).flatMap Reflect.traverse) (s.map describe) _ (List.mem_map_of_mem hms)
  have h3 := length_le_flatMap Reflect.traverse ((describe m).2.1 :: (describe m).2.2) (Reflect.Spec.desc t) (by
    rcases List.mem_cons.1 ht with rfl | ht
    · exact List.mem_cons_self ..
    · exact List.mem_cons_of_mem _ (List.mem_map_of_mem ht))
  rw [Reflect.Lemmas.traverse_length] at h3
  exact Nat.le_trans h3 (Nat.le_trans h2 h1)

theorem mapM_none {α β : Type} {f : α → Option β} {l : List α} {a : α} (h : a ∈ l) (hf : f a = none) : l.mapM f = none := by
  induction l with
  | nil => cases h
  | cons b l ih =>
    rw [List.mapM_cons]
    rcases List.mem_cons.1 h with rfl | h
    · rw [hf]; rfl
    · cases hb : f b with
      | none => rfl
      | some c => simp [ih h]

theorem eval_none {tab : List (Str × List (Str × Rep))} {p r : Rep} (hp : Reflect.Spec.Part p r) (hb : p = .bool ∨ p = .char ∨ p = .stream)
    (hh : Has tab r) : ∀ fuel, eval tab fuel r = none := by
  induction hp with
  | self =>
    intro fuel
    cases fuel with
    | zero => rfl
    | succ f => rcases hb with rfl | rfl | rfl <;> rfl
  | inside q r h1 h2 ih =>
    have hq := ih (has_part hh h2)
    intro fuel
    cases fuel with
    | zero => rfl
    | succ f =>
      cases r with
      | arr t =>
        simp only [Reflect.Spec.parts, List.mem_singleton] at h2
        subst h2
        simp [eval, hq f]
      | map k v =>
        simp only [Reflect.Spec.parts, List.mem_cons, List.not_mem_nil, or_false] at h2
        rcases h2 with rfl | rfl
        · simp [eval, hq f]
        · cases h : eval tab f k <;> simp [eval, hq f, h]
      | cls n ms =>
        simp only [Reflect.Spec.parts, List.mem_map] at h2
        obtain ⟨m, hm, rfl⟩ := h2
        obtain ⟨x, t⟩ := m
        have hf := hh n ms (.self _)
        simp only [eval, hf, Option.bind_some]
        rw [mapM_none (a := (x, t)) (List.mem_map.2 ⟨_, hm, rfl⟩) (by rw [show t = Reflect.Spec.memType (.mk x t) from rfl, hq f]; rfl)]
        rfl
      | _ => simp [Reflect.Spec.parts] at h2

theorem mapM_each {α β : Type} {f : α → Option β} {R : α → β → Prop} {l : List α} (h : ∀ a ∈ l, ∃ b, f a = some b ∧ R a b) :
    ∃ bs, l.mapM f = some bs ∧ Each R l bs := by
  induction l with
  | nil => exact ⟨[], rfl, .nil⟩
  | cons a l ih =>
    obtain ⟨b, hb, hr⟩ := h a (List.mem_cons_self ..)
    obtain ⟨bs, hbs, he⟩ := ih (fun a ha => h a (List.mem_cons_of_mem _ ha))
    exact ⟨b :: bs, by rw [List.mapM_cons, hb, hbs]; rfl, .cons hr he⟩

/-! ### Calls -/

theorem rt_args : ∀ (ts : List PTy) (ws : List Serial.Ty), Each Fits ts ws →
    RT (Serial.read (pairs ws)) (fun v bs => ∃ ps, StandsAll ts ws v ps ∧ writeAll ts ps = some bs) (WF (pairs ws)) (Shape (pairs ws))
  | [], [], _ => by
    rintro v bs tail old u - ⟨ps, hs, hw⟩ ho
    simp only [StandsAll] at hs
    obtain ⟨rfl, rfl⟩ := hs
    simp only [writeAll, Option.some.injEq] at hw
    subst hw
    have : old = [] := List.length_eq_zero_iff.1 ho.1
    subst this
    rfl
  | t :: ts, w :: ws, h => by
    cases h with
    | cons h1 h2 =>
      refine rt_mono (rt_pair (rt_sent t w h1) (rt_args ts ws h2)) ?_ (fun _ h => h) (fun _ h => h)
      rintro v bs - ⟨ps, hs, hw⟩
      cases ps with
      | nil => simp [StandsAll] at hs
      | cons p ps =>
        simp only [StandsAll] at hs
        simp only [writeAll, Option.bind_eq_some_iff, Option.map_eq_some_iff] at hw
        obtain ⟨x, hx, y, hy, rfl⟩ := hw
        exact ⟨x, y, rfl, ⟨p, hs.1, hx⟩, ⟨ps, hs.2, hy⟩⟩

theorem writeAll_some : ∀ (ts : List PTy) (ws : List Serial.Ty), Each Fits ts ws → ∀ (v : Val (pairs ws)) (ps : List PV),
    StandsAll ts ws v ps → ∃ bs, writeAll ts ps = some bs
  | [], [], _ => by
    intro v ps hs
    simp only [StandsAll] at hs
    obtain ⟨rfl, rfl⟩ := hs
    exact ⟨[], rfl⟩
  | t :: ts, w :: ws, h => by
    intro v ps hs
    cases h with
    | cons h1 h2 =>
      cases ps with
      | nil => simp [StandsAll] at hs
      | cons p ps =>
        simp only [StandsAll] at hs
        obtain ⟨x, hx⟩ := write_some t w h1 v.1 p hs.1
        obtain ⟨y, hy⟩ := writeAll_some ts ws h2 v.2 ps hs.2
        exact ⟨x ++ y, by simp [writeAll, hx, hy]⟩

theorem writeStr_eq (s : Str) (h : s.length < 2 ^ 32) : writeStr s = Rpc.encStr s := by
  rw [writeStr, pack_size, Rpc.encStr, Nat.mod_eq_of_lt h, List.take_length]

theorem encStr_eq (s : Str) (h : s.length < 2 ^ 32) : Rpc.encStr s = sizeField s.length ++ s := by
  rw [Rpc.encStr, Nat.mod_eq_of_lt h, List.take_length]

/-- A string that comes in one piece. -/
theorem readStr_piece (s : Str) (hs : s ≠ []) (hl : s.length < 2 ^ 32) (rest : List UInt8) :
    readStr ⟨[], [Rpc.encStr s ++ rest]⟩ = .ok (.str s, ⟨rest, []⟩) := by
  have h := readStr_eq s hs hl rest []
  rw [← encStr_eq s hl] at h
  have h4 : 4 ≤ (Rpc.encStr s ++ rest).length := by
    rw [encStr_eq s hl]; simp only [List.length_append, sizeField, length_toLE]; omega
  have e : unpack 4 ⟨[], [Rpc.encStr s ++ rest]⟩ = unpack 4 ⟨Rpc.encStr s ++ rest, []⟩ := by
    simp only [unpack, fread, if_pos h4]
    rfl
  simp only [readStr, e] at h ⊢
  exact h

theorem pingPong_ok (E : Rpc.Encoder) (sv : Rpc.Server) (deliver : List UInt8 → List (List UInt8)) (log : List Rpc.Call)
    (hd : deliver (Rpc.encStr Rpc.pongMsg) = [Rpc.encStr Rpc.pongMsg]) :
    pingPong E sv deliver (fresh log) = .ok (true, fresh log) := by
  have h := Rpc.Lemmas.send_idle_next (E := E) (sv := sv) (log := log) (Rpc.Lemmas.encStr_ne_nil Rpc.pingMsg) (by
    have := Rpc.Lemmas.round_ping E sv false []
    rwa [List.append_nil] at this)
  have hr := readStr_piece Rpc.pongMsg (by decide) (by decide) []
  rw [List.append_nil] at h hr
  have he : exchange E sv deliver (writeStr Rpc.pingMsg) (fresh log) = .ok ⟨⟨[], [Rpc.encStr Rpc.pongMsg]⟩, ⟨[], [], true, true⟩, log⟩ := by
    rw [writeStr_eq _ (by decide)]
    simp only [exchange, fresh]
    rw [show (⟨[], [], true, true⟩ : Rpc.Conn) = Rpc.Lemmas.idle from rfl, h]
    simp only [hd, List.nil_append]
    rfl
  simp only [pingPong, he, hr]
  rfl

theorem pack_one : pack 4 1 = toLE 4 (1 : BitVec 32).toNat := by decide

theorem round_args (E : Rpc.Encoder) (sv : Rpc.Server) {name : Str} {ws : List Serial.Ty} {wr : Serial.Ty}
    {f : Rpc.Arg (argTy ws) → Rpc.Outcome (Val wr)} {v : Val (pairs ws)} {ts : List PTy} {ps : List PV} {bs : List UInt8}
    (hl : name.length < 2 ^ 32) (hf : Rpc.Spec.Free name) (hver : sv.version = 1)
    (h : AssocMap.find sv.funcs name = some ⟨argTy ws, wr, f⟩) (hfit : Each Fits ts ws) (hv : WF (pairs ws) v)
    (hs : StandsAll ts ws v ps) (hw : writeAll ts ps = some bs) :
    Rpc.round E sv false (writeStr name ++ pack 4 1 ++ bs) =
      Rpc.answer E wr [] ⟨name, argTy ws, argVal ws v⟩ (f (argVal ws v)) := by
  have hrt := rt_args ts ws hfit v bs [] (Serial.dflt _) false hv ⟨ps, hs, hw⟩ (shape_dflt _)
  rw [List.append_nil] at hrt
  rw [writeStr_eq name hl, pack_one]
  simp only [Rpc.round, List.append_assoc, Rpc.Lemmas.read_str name [] _ hl, Bool.not_true, Bool.false_eq_true, if_false, if_neg hf.1,
    if_neg hf.2, h, Rpc.Lemmas.read_int, Bool.false_and, Bool.true_and, decide_eq_true_eq, ne_eq, hver, not_true_eq_false]
  cases ws with
  | nil =>
    cases hfit
    cases ps with
    | nil =>
      simp only [writeAll, Option.some.injEq] at hw
      subst hw
      rfl
    | cons p ps => simp [StandsAll] at hs
  | cons w ws =>
    simp only [Rpc.invoke, argTy, argVal, hrt, Bool.not_true, Bool.false_and, Bool.false_eq_true, if_false]

theorem toLE_mod (n v : Nat) : toLE n (v % 2 ^ (8 * n)) = toLE n v := by
  induction n generalizing v with
  | zero => rfl
  | succ n ih =>
    have e : 2 ^ (8 * (n + 1)) = 256 * 2 ^ (8 * n) := by rw [Nat.mul_succ, Nat.pow_add, Nat.mul_comm]
    simp only [toLE, e, Nat.mod_mul_right_div_self, ih, List.cons.injEq, and_true]
    apply UInt8.toNat_inj.1
    simp only [UInt8.toNat_ofNat', show 2 ^ 8 = 256 from rfl, Nat.mod_mul_right_mod]

theorem toLE_split (n m v : Nat) : toLE (n + m) v = toLE n v ++ toLE m (v / 256 ^ n) := by
  induction n generalizing v with
  | zero => simp [toLE]
  | succ n ih =>
    rw [show n + 1 + m = (n + m) + 1 by omega]
    simp only [toLE, ih, List.cons_append, Nat.div_div_eq_div_mul, Nat.pow_succ, Nat.mul_comm]

theorem fread_small {n : Nat} {s s' : St} {x : Option (List UInt8)} (h : Small s) (hf : fread n s = .ok (x, s')) : Small s' := by
  unfold fread at hf
  split at hf
  · simp only [Except.ok.injEq, Prod.mk.injEq] at hf
    exact hf.2 ▸ h
  · split at hf
    · simp only [Except.ok.injEq, Prod.mk.injEq] at hf
      obtain ⟨-, rfl⟩ := hf
      exact ⟨by have := h.1; simp only [List.length_drop]; omega, h.2⟩
    · split at hf
      · cases hf
      · rename_i p ps hp
        simp only [Except.ok.injEq, Prod.mk.injEq] at hf
        obtain ⟨-, rfl⟩ := hf
        have h1 := h.2 p (by rw [hp]; exact List.mem_cons_self ..)
        exact ⟨by simp only [List.length_drop]; omega, fun q hq => h.2 q (by rw [hp]; exact List.mem_cons_of_mem _ hq)⟩

theorem fread_length {n : Nat} {s s' : St} {x : List UInt8} (h : Small s) (hf : fread n s = .ok (some x, s')) : x.length ≤ 16384 := by
  unfold fread at hf
  split at hf
  · simp at hf
  · split at hf
    · simp only [Except.ok.injEq, Prod.mk.injEq, Option.some.injEq] at hf
      obtain ⟨rfl, -⟩ := hf
      have := h.1
      simp only [List.length_take]
      omega
    · split at hf
      · cases hf
      · rename_i p ps hp
        simp only [Except.ok.injEq, Prod.mk.injEq, Option.some.injEq] at hf
        obtain ⟨rfl, -⟩ := hf
        have h1 := h.2 p (by rw [hp]; exact List.mem_cons_self ..)
        have := h.1
        simp only [List.length_append, List.length_take]
        omega

theorem unpack_small {n v : Nat} {s s' : St} (h : Small s) (hf : unpack n s = .ok (v, s')) : Small s' := by
  unfold unpack at hf
  split at hf
  · cases hf
  · rename_i bs t ht
    split at hf
    · simp only [Except.ok.injEq, Prod.mk.injEq] at hf
      exact hf.2 ▸ fread_small h ht
    · cases hf
  · cases hf

theorem readMap_cls (n : Str) (ms : PMems) (t : PTy) (k : Nat) (acc : List (Key × PV)) (s : St) (es : List (Key × PV)) (s' : St)
    (h : readMap (read (.cls n ms)) (read t) k acc s = .ok (es, s')) : es = acc := by
  induction k generalizing s with
  | zero =>
    simp only [readMap, Except.ok.injEq, Prod.mk.injEq] at h
    exact h.1.symm
  | succ k ih =>
    simp only [readMap, read] at h
    split at h
    · cases h
    · rename_i q s1 h1
      split at h1
      · cases h1
      · simp only [Except.ok.injEq, Prod.mk.injEq] at h1
        obtain ⟨rfl, -⟩ := h1
        split at h
        · cases h
        · exact ih _ h

end Verif.GenPhp.Lemmas
