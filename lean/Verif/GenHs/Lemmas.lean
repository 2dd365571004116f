import Verif.GenHs.Spec
import Verif.GenPhp.Lemmas
/-!
# Lemmas about generated Haskell clients (C95)
-/
namespace Verif.GenHs.Lemmas
open Verif.GenHs Verif.GenHs.Spec
open Verif.Reflect (Rep Mem Act)
open Verif.Serial (Val Ty Writes WritesAll toLE ofLE sizeField)
open Verif.Serial.Spec (WF Shape)
open Verif.Serial.Lemmas
open Verif.GenPhp (pack concat Sig)
open Verif.GenPhp.Spec (Each CSig typesOf bodyNames pairs argTy argVal describe)
open Verif.GenPhp.Lemmas (pack_val pack_size each_length each_right concat_each concat_some writesAll_mono mapM_each mapM_none pack_one encStr_eq)

/-! ### Lists and maps -/

theorem each_perm {α β : Type} {R : α → β → Prop} {bs bs' : List β} (hp : bs.Perm bs') :
    ∀ {as : List α}, Each R as bs → ∃ as', as'.Perm as ∧ Each R as' bs' := by
  induction hp with
  | nil => exact fun h => ⟨_, .refl _, h⟩
  | cons b _ ih =>
    intro as h
    cases h with
    | cons h t =>
      obtain ⟨as', h1, h2⟩ := ih t
      exact ⟨_ :: as', h1.cons _, .cons h h2⟩
  | swap x y l =>
    intro as h
    cases h with
    | cons h t =>
      cases t with
      | cons h' t => exact ⟨_, .swap _ _ _, .cons h' (.cons h t)⟩
  | trans _ _ ih1 ih2 =>
    intro as h
    obtain ⟨a1, p1, e1⟩ := ih1 h
    obtain ⟨a2, p2, e2⟩ := ih2 e1
    exact ⟨a2, p2.trans p1, e2⟩

theorem each_map {α β γ : Type} {R : α → γ → Prop} {f : β → γ} {as : List α} {bs : List β} (h : Each (fun a b => R a (f b)) as bs) :
    Each R as (bs.map f) := by
  induction h with
  | nil => exact .nil
  | cons h _ ih => exact .cons h ih

theorem each_imp {α β : Type} {R S : α → β → Prop} {as : List α} {bs : List β} (h : Each R as bs) (hi : ∀ a b, R a b → S a b) :
    Each S as bs := by
  induction h with
  | nil => exact .nil
  | cons h _ ih => exact .cons (hi _ _ h) ih

theorem each_mem {α β : Type} {R : α → β → Prop} {as : List α} {bs : List β} (h : Each R as bs) :
    Each (fun a b => a ∈ as ∧ R a b) as bs := by
  induction h with
  | nil => exact .nil
  | cons h _ ih => exact .cons ⟨List.mem_cons_self .., h⟩ (each_imp ih fun a b hab => ⟨List.mem_cons_of_mem _ hab.1, hab.2⟩)

theorem insert_perm (k : HKey) (v : HV) (l : List (HKey × HV)) (h : k ∉ l.map (·.1)) : (insert k v l).Perm ((k, v) :: l) := by
  induction l with
  | nil => exact .refl _
  | cons e l ih =>
    rw [List.map_cons, List.mem_cons, not_or] at h
    rw [insert, if_neg h.1]
    split
    · exact .refl _
    · exact ((ih h.2).cons e).trans (.swap _ _ _)

theorem fromList_perm (l : List (HKey × HV)) (h : (l.map (·.1)).Nodup) : (fromList l).Perm l := by
  suffices H : ∀ (l acc : List (HKey × HV)), ((acc ++ l).map (·.1)).Nodup →
      (l.foldl (fun m e => insert e.1 e.2 m) acc).Perm (acc ++ l) by
    exact H l [] h
  intro l
  induction l with
  | nil => intro acc _; rw [List.append_nil]; exact .refl _
  | cons e l ih =>
    intro acc hn
    have hp : ((e :: acc) ++ l).Perm (acc ++ e :: l) := List.perm_middle.symm
    have hn' : (((e :: acc) ++ l).map (·.1)).Nodup := (hp.map _).nodup_iff.2 hn
    have hi : e.1 ∉ acc.map (·.1) := by
      rw [List.cons_append, List.map_cons, List.nodup_cons, List.map_append, List.mem_append] at hn'
      exact fun h => hn'.1 (.inl h)
    have hin := insert_perm e.1 e.2 acc hi
    have h2 : (insert e.1 e.2 acc ++ l).Perm ((e :: acc) ++ l) := hin.append_right l
    rw [List.foldl_cons]
    exact (ih _ ((h2.map _).nodup_iff.2 hn')).trans (h2.trans hp)

/-! ### Keys -/

theorem mapM_code (s : List Nat) : (s.map HV.chr).mapM code = some s := by
  induction s with
  | nil => rfl
  | cons n s ih => simp [code, ih]

theorem keyVal_asKey (k : HKey) : asKey (keyVal k) = some k := by
  cases k with
  | int i => rfl
  | chr n => rfl
  | str s => simp only [keyVal, asKey, mapM_code, Option.map_some]

theorem text_eq (s : Str) : text s = .list ((s.map UInt8.toNat).map .chr) := by
  rw [text, List.map_map]; rfl

theorem isText_text (s t : Str) : isText (text s) t = decide (s = t) := by
  rw [text_eq]
  simp only [isText, mapM_code]
  by_cases h : s = t
  · simp [h]
  · simp only [h, decide_false, beq_eq_false_iff_ne, ne_eq, Option.some.injEq]
    intro e
    exact h ((List.map_inj_right (fun a b hab => UInt8.toNat_inj.1 hab)).1 e)

/-- Values of key types are keys. -/
theorem key_exists {k : HTy} {a : Serial.Ty} {x : Val a} {q : HV} (hk : IsKey k) (hs : Stands k a x q) : ∃ e, keyVal e = q := by
  match k, a, hk with
  | .int, .prim n s, _ => simp only [Stands] at hs; exact ⟨.int _, hs.2.symm⟩
  | .chr, .prim n s, _ => simp only [Stands] at hs; exact ⟨.chr _, hs.2.symm⟩
  | .list t, .str, _ =>
    simp only [Stands] at hs
    exact ⟨.str (x.map UInt8.toNat), by rw [hs.2, text_eq]; rfl⟩
  | .list t, .vec w, hk =>
    simp only [IsKey] at hk
    subst hk
    simp only [Stands] at hs
    obtain ⟨hs', rfl, he⟩ := hs
    have : ∃ s : List Nat, hs' = s.map .chr := by
      clear hk
      induction he with
      | nil => exact ⟨[], rfl⟩
      | @cons x h _ _ hx _ ih =>
        obtain ⟨s, rfl⟩ := ih
        match w, x, hx with
        | .prim n _, x, hx => simp only [Stands] at hx; exact ⟨x.toNat :: s, by rw [hx.2]; rfl⟩
    obtain ⟨s, rfl⟩ := this
    exact ⟨.str s, rfl⟩

/-- Different C++ values have different Haskell values. -/
theorem chars_inj {w : Serial.Ty} {xs ys : List (Val w)} {hs : List HV} (h : Each (Stands .chr w) xs hs) (h' : Each (Stands .chr w) ys hs) : xs = ys := by
  induction h generalizing ys with
  | nil => cases h'; rfl
  | @cons x q _ _ hx _ ih =>
    cases h' with
    | @cons y _ _ _ hy ht =>
      have := ih ht
      subst this
      match w, x, y, hx, hy with
      | .prim n _, x, y, hx, hy =>
        simp only [Stands] at hx hy
        rw [hx.2, HV.chr.injEq] at hy
        rw [BitVec.eq_of_toNat_eq hy.2]

theorem key_inj {k : HTy} {a : Serial.Ty} {x y : Val a} {q : HV} (hk : IsKey k) (hs : Stands k a x q) (hs' : Stands k a y q) : x = y := by
  match k, a, x, y, hk, hs, hs' with
  | .int, .prim n s, x, y, _, hs, hs' =>
    simp only [Stands] at hs hs'
    rw [hs.2, HV.int.injEq] at hs'
    cases s
    · simp only [Bool.false_eq_true, if_false] at hs'
      exact BitVec.eq_of_toNat_eq (by omega)
    · simp only [if_true] at hs'
      exact BitVec.eq_of_toInt_eq hs'.2
  | .chr, .prim n s, x, y, _, hs, hs' =>
    simp only [Stands] at hs hs'
    rw [hs.2, HV.chr.injEq] at hs'
    exact BitVec.eq_of_toNat_eq hs'.2
  | .list t, .str, x, y, _, hs, hs' =>
    simp only [Stands] at hs hs'
    have h := hs.2
    rw [hs'.2] at h
    have h1 := isText_text y x
    rw [h, isText_text] at h1
    simp only [decide_true, true_eq_decide_iff] at h1
    exact h1.symm
  | .list t, .vec w, x, y, hk, hs, hs' =>
    simp only [IsKey] at hk
    subst hk
    simp only [Stands] at hs hs'
    obtain ⟨l, rfl, he⟩ := hs
    obtain ⟨l', h, he'⟩ := hs'
    rw [HV.list.injEq] at h
    subst h
    exact chars_inj he he'

/-! ### Writing -/

/-- What is written for a value. -/
def Sent (rf : BitVec 64 → BitVec 64) (T : HTy) (w : Serial.Ty) (v : Val w) (bs : List UInt8) : Prop :=
  Within true T w v ∧ ∃ h, Stands T w v h ∧ write rf T h = some bs

/-- The same for members. -/
def SentMems (rf : BitVec 64 → BitVec 64) (ms : HMems) (w : Serial.Ty) (v : Val w) (bs : List UInt8) : Prop :=
  WithinMems true ms w v ∧ ∃ hs, StandsMems ms w v hs ∧ writeMems rf ms hs = some bs

theorem concat_chars (rf : BitVec 64 → BitVec 64) (s : Str) : concat ((s.map fun b => HV.chr b.toNat).map (write rf .chr)) = some s := by
  induction s with
  | nil => rfl
  | cons b s ih =>
    have := b.toNat_lt
    simp only [List.map_cons, concat, write, ih, Option.map_some, Option.bind_some, List.singleton_append, Nat.mod_eq_of_lt this,
      UInt8.ofNat_toNat]

theorem write_text (rf : BitVec 64 → BitVec 64) (s : Str) (h : s.length < 2 ^ 32) : write rf (.list .chr) (text s) = some (Rpc.encStr s) := by
  rw [encStr_eq s h]
  simp only [write, text, concat_chars, Option.map_some, pack_size, List.length_map]

theorem toLE_char {n : Nat} (h : n = 1) (v : BitVec (8 * n)) : toLE n v.toNat = [UInt8.ofNat (v.toNat % 256)] := by
  subst h
  have := v.isLt
  simp only [toLE, Nat.mod_eq_of_lt (show v.toNat < 256 by omega)]

theorem ofNat_double {n : Nat} (h : n = 8) (v : BitVec (8 * n)) : (BitVec.ofNat 64 v.toNat).toNat = v.toNat := by
  subst h
  have := v.isLt
  rw [BitVec.toNat_ofNat, Nat.mod_eq_of_lt this]

mutual
theorem rt_sent (rf : BitVec 64 → BitVec 64) (hrf : Keeps rf) : ∀ (T : HTy) (w : Serial.Ty), Fits T w →
    RT (Serial.read w) (Sent rf T w) (WF w) (Shape w)
  | .int, .prim n s, hf => by
    simp only [Fits] at hf
    refine rt_mono (rt_read (.prim n s)) ?_ (fun _ h => h) (fun _ h => h)
    rintro v bs - ⟨-, p, hs, hw⟩
    simp only [Stands] at hs
    obtain ⟨-, rfl⟩ := hs
    simp only [write, Option.some.injEq] at hw
    rw [← hw]
    have := pack_val (n := n) (s := s) v
    simp only [Writes]
    subst hf
    exact this
  | .dbl, .prim n s, hf => by
    simp only [Fits] at hf
    refine rt_mono (rt_read (.prim n s)) ?_ (fun _ h => h) (fun _ h => h)
    rintro v bs - ⟨hi, p, hs, hw⟩
    simp only [Within] at hi
    simp only [Stands] at hs
    obtain ⟨-, rfl⟩ := hs
    simp only [write, Option.some.injEq, hrf _ hi, ofNat_double hf] at hw
    rw [← hw]
    simp only [Writes, hf]
  | .chr, .prim n s, hf => by
    simp only [Fits] at hf
    refine rt_mono (rt_read (.prim n s)) ?_ (fun _ h => h) (fun _ h => h)
    rintro v bs - ⟨-, p, hs, hw⟩
    simp only [Stands] at hs
    obtain ⟨-, rfl⟩ := hs
    simp only [write, Option.some.injEq] at hw
    rw [← hw]
    simp only [Writes, toLE_char hf]
  | .list t, .str, hf => by
    simp only [Fits] at hf
    subst hf
    refine rt_mono (rt_read .str) ?_ (fun _ h => h) (fun _ h => h)
    rintro v bs hv ⟨-, p, hs, hw⟩
    simp only [Stands] at hs
    obtain ⟨-, rfl⟩ := hs
    simp only [WF] at hv
    rw [write_text rf v hv, Option.some.injEq, encStr_eq v hv] at hw
    simp only [Writes, ← hw, Nat.mod_eq_of_lt hv, List.take_length]
  | .list t, .vec w, hf => by
    simp only [Fits] at hf
    refine rt_mono (rt_seq (rt_sent rf hrf t w hf) (shape_dflt w)) ?_ (fun _ h => h) (fun _ h => h)
    rintro v bs - ⟨hi, p, hs, hw⟩
    simp only [Within] at hi
    simp only [Stands] at hs
    obtain ⟨hs', rfl, he⟩ := hs
    simp only [write, Option.map_eq_some_iff, pack_size] at hw
    obtain ⟨body, hb, rfl⟩ := hw
    refine ⟨body, by rw [each_length he], writesAll_mono ?_ _ _ (concat_each (each_mem he) hb)⟩
    rintro x o ⟨b, ⟨hm, hb⟩, ho⟩
    exact ⟨hi x hm, b, hb, ho⟩
  | .map k t, .map a b, hf => by
    simp only [Fits] at hf
    obtain ⟨hk, hf1, hf2⟩ := hf
    refine rt_mono (rt_assoc (rt_pair (rt_sent rf hrf k a hf1) (rt_sent rf hrf t b hf2)) (d := (Serial.dflt a, Serial.dflt b))
      ⟨shape_dflt a, shape_dflt b⟩ (lt := Serial.keyLt (Serial.vlt a)) false
      (fun x => (sto_vlt a).irrefl x.1) (fun x y z => (sto_vlt a).trans x.1 y.1 z.1)) ?_ (fun _ h => h) (fun _ h => h)
    rintro v bs - ⟨hi, p, hs, hw⟩
    simp only [Within] at hi
    simp only [Stands] at hs
    obtain ⟨es, m, rfl, hp, he⟩ := hs
    simp only [write, Option.map_eq_some_iff, pack_size] at hw
    obtain ⟨body, hb, rfl⟩ := hw
    refine ⟨body, m, hp, by rw [← each_length he, hp.length_eq], ?_⟩
    refine writesAll_mono ?_ _ _ (concat_each (each_mem he) hb)
    rintro x o ⟨e, ⟨hm, hq, hv⟩, ho⟩
    have hi' := hi x (hp.mem_iff.1 hm)
    simp only [Option.bind_eq_some_iff, Option.map_eq_some_iff] at ho
    obtain ⟨o1, h1, o2, h2, rfl⟩ := ho
    exact ⟨o1, o2, rfl, ⟨hi'.1, _, hq, h1⟩, ⟨hi'.2, e.2, hv, h2⟩⟩
  | .cls n ms, w, hf => by
    rw [Fits] at hf
    refine rt_mono (rt_sentMems rf hrf ms w hf) ?_ (fun _ h => h) (fun _ h => h)
    rintro v bs - ⟨hi, p, hs, hw⟩
    simp only [Within] at hi
    simp only [Stands] at hs
    obtain ⟨hs', rfl, h⟩ := hs
    exact ⟨hi, hs', h, by simpa only [write, if_true] using hw⟩
theorem rt_sentMems (rf : BitVec 64 → BitVec 64) (hrf : Keeps rf) : ∀ (ms : HMems) (w : Serial.Ty), FitsMems ms w →
    RT (Serial.read w) (SentMems rf ms w) (WF w) (Shape w)
  | .nil, .arr n t, hf => by
    simp only [FitsMems] at hf
    subst hf
    rintro v bs tail old u - ⟨-, hs, hs', hw⟩ ho
    simp only [StandsMems] at hs'
    obtain ⟨rfl, rfl⟩ := hs'
    simp only [writeMems, Option.some.injEq] at hw
    subst hw
    have : old = [] := List.length_eq_zero_iff.1 ho.1
    subst this
    rfl
  | .cons t ms, .pair a b, hf => by
    simp only [FitsMems] at hf
    refine rt_mono (rt_pair (rt_sent rf hrf t a hf.1) (rt_sentMems rf hrf ms b hf.2)) ?_ (fun _ h => h) (fun _ h => h)
    rintro v bs - ⟨hi, hs, hst, hw⟩
    simp only [WithinMems] at hi
    cases hs with
    | nil => simp [StandsMems] at hst
    | cons h hs =>
      simp only [StandsMems] at hst
      simp only [writeMems, Option.bind_eq_some_iff, Option.map_eq_some_iff] at hw
      obtain ⟨x, hx, y, hy, rfl⟩ := hw
      exact ⟨x, y, rfl, ⟨hi.1, h, hst.1, hx⟩, ⟨hi.2, hs, hst.2, hy⟩⟩
end

mutual
theorem write_some (rf : BitVec 64 → BitVec 64) : ∀ (T : HTy) (w : Serial.Ty), Fits T w → ∀ (v : Val w) (h : HV), Stands T w v h →
    ∃ bs, write rf T h = some bs
  | .int, .prim n s, _ => by
    intro v h hs
    simp only [Stands] at hs
    exact ⟨_, by rw [hs.2, write]⟩
  | .dbl, .prim n s, _ => by
    intro v h hs
    simp only [Stands] at hs
    exact ⟨_, by rw [hs.2, write]⟩
  | .chr, .prim n s, _ => by
    intro v h hs
    simp only [Stands] at hs
    exact ⟨_, by rw [hs.2, write]⟩
  | .list t, .str, hf => by
    intro v h hs
    simp only [Stands] at hs
    obtain ⟨rfl, rfl⟩ := hs
    exact ⟨_, by rw [text, write, concat_chars, Option.map_some]⟩
  | .list t, .vec w, hf => by
    intro v h hs
    simp only [Fits] at hf
    simp only [Stands] at hs
    obtain ⟨ps, rfl, he⟩ := hs
    obtain ⟨out, ho⟩ := concat_some (f := write rf t) (bs := ps) (fun b hb => by
      obtain ⟨a, _, hr⟩ := each_right he b hb
      exact write_some rf t w hf a b hr)
    exact ⟨_, by simp only [write, ho, Option.map_some]; rfl⟩
  | .map k t, .map a b, hf => by
    intro v h hs
    simp only [Fits] at hf
    obtain ⟨hk, hf1, hf2⟩ := hf
    simp only [Stands] at hs
    obtain ⟨es, m, rfl, hp, he⟩ := hs
    obtain ⟨out, ho⟩ := concat_some
      (f := fun (e : HKey × HV) => (write rf k (keyVal e.1)).bind fun a => (write rf t e.2).map fun b => a ++ b) (bs := es) (fun e hb => by
        obtain ⟨x, _, hq, hv⟩ := each_right he e hb
        obtain ⟨o1, h1⟩ := write_some rf k a hf1 x.1 _ hq
        obtain ⟨o2, h2⟩ := write_some rf t b hf2 x.2 e.2 hv
        exact ⟨o1 ++ o2, by simp only [h1, h2, Option.bind_some, Option.map_some]⟩)
    exact ⟨_, by simp only [write, ho, Option.map_some]; rfl⟩
  | .cls n ms, w, hf => by
    intro v h hs
    rw [Fits] at hf
    simp only [Stands] at hs
    obtain ⟨ps, rfl, h⟩ := hs
    simp only [write, if_true]
    exact writeMems_some rf ms w hf v ps h
theorem writeMems_some (rf : BitVec 64 → BitVec 64) : ∀ (ms : HMems) (w : Serial.Ty), FitsMems ms w → ∀ (v : Val w) (hs : List HV),
    StandsMems ms w v hs → ∃ bs, writeMems rf ms hs = some bs
  | .nil, .arr n _, hf => by
    intro v hs h
    simp only [FitsMems] at hf
    subst hf
    simp only [StandsMems] at h
    exact ⟨[], by rw [h.2, writeMems]⟩
  | .cons t ms, .pair a b, hf => by
    intro v hs h
    simp only [FitsMems] at hf
    cases hs with
    | nil => simp [StandsMems] at h
    | cons x hs =>
      simp only [StandsMems] at h
      obtain ⟨o1, h1⟩ := write_some rf t a hf.1 v.1 x h.1
      obtain ⟨o2, h2⟩ := writeMems_some rf ms b hf.2 v.2 hs h.2
      exact ⟨o1 ++ o2, by simp only [writeMems, h1, h2, Option.bind_some, Option.map_some]⟩
end

/-! ### Reading -/

theorem recv_toLE {n v : Nat} (hv : v < 256 ^ n) (rest : List UInt8) :
    (recv n (toLE n v ++ rest)).map (fun r => (ofLE r.1, r.2)) = some (v, rest) := by
  have hl := length_toLE n v
  have h1 : n ≤ (toLE n v ++ rest).length := by rw [List.length_append, hl]; omega
  rw [recv, if_pos h1, List.take_left' hl, List.drop_left' hl, Option.map_some, ofLE_toLE n v hv]

theorem recv_eq {n v : Nat} (hv : v < 256 ^ n) (rest : List UInt8) : ∃ b, recv n (toLE n v ++ rest) = some (b, rest) ∧ ofLE b = v := by
  have h := recv_toLE hv rest
  rw [Option.map_eq_some_iff] at h
  obtain ⟨⟨b, r⟩, h1, h2⟩ := h
  simp only [Prod.mk.injEq] at h2
  exact ⟨b, by rw [h1, h2.2], h2.1⟩

theorem readInt_size (n : Nat) (h : n < 2 ^ 32) (rest : List UInt8) : readInt (sizeField n ++ rest) = some (n, rest) := by
  rw [readInt, sizeField, Nat.mod_eq_of_lt h]
  exact recv_toLE (by omega) rest

theorem readMany_each {α β : Type} {f : List UInt8 → Option (β × List UInt8)} {W : α → List UInt8 → Prop} {ok : α → Prop} {R : α → β → Prop}
    (rest : List UInt8) (h : ∀ v bs rest, ok v → W v bs → ∃ p, f (bs ++ rest) = some (p, rest) ∧ R v p) :
    ∀ (vs : List α) (bs : List UInt8), (∀ v ∈ vs, ok v) → WritesAll W vs bs →
      ∃ ps, readMany f vs.length (bs ++ rest) = some (ps, rest) ∧ Each R vs ps
  | [], bs, _, hw => by
    simp only [WritesAll] at hw
    subst hw
    exact ⟨[], rfl, .nil⟩
  | v :: vs, bs, hok, hw => by
    obtain ⟨a, b, rfl, h1, h2⟩ := hw
    obtain ⟨p, hp, hs⟩ := h v a (b ++ rest) (hok v (List.mem_cons_self ..)) h1
    obtain ⟨ps, hps, he⟩ := readMany_each rest h vs b (fun x hx => hok x (List.mem_cons_of_mem _ hx)) h2
    exact ⟨p :: ps, by simp only [List.length_cons, readMany, List.append_assoc, hp, hps, Option.bind_some, Option.map_some], .cons hs he⟩

theorem readMany_chars (rf : BitVec 64 → BitVec 64) (s : Str) (rest : List UInt8) :
    readMany (read rf .chr) s.length (s ++ rest) = some (s.map fun b => HV.chr b.toNat, rest) := by
  induction s with
  | nil => rfl
  | cons b s ih =>
    have h : read rf .chr (b :: (s ++ rest)) = some (.chr b.toNat, s ++ rest) := by
      simp [read, recv, ofLE]
    simp only [List.length_cons, readMany, List.cons_append, h, ih, Option.bind_some, Option.map_some, List.map_cons]

theorem read_text (rf : BitVec 64 → BitVec 64) (s : Str) (h : s.length < 2 ^ 32) (rest : List UInt8) :
    read rf (.list .chr) (Rpc.encStr s ++ rest) = some (text s, rest) := by
  rw [encStr_eq s h]
  rw [read]
  simp only [List.append_assoc, readInt_size _ h, readMany_chars, Option.bind_some, Option.map_some, text]

/-- Keys that are read from different values are different. -/
theorem keys_nodup {k : HTy} {a b : Serial.Ty} {R : Val b → HV → Prop} (hk : IsKey k) {vs : List (Val a × Val b)} {es : List (HKey × HV)}
    (h : Each (fun (x : Val a × Val b) e => Stands k a x.1 (keyVal e.1) ∧ R x.2 e.2) vs es) (hn : (vs.map (·.1)).Nodup) :
    (es.map (·.1)).Nodup := by
  induction h with
  | nil => exact List.nodup_nil
  | @cons x e vs es hx ht ih =>
    rw [List.map_cons, List.nodup_cons] at hn ⊢
    refine ⟨?_, ih hn.2⟩
    intro hm
    obtain ⟨e', he', hee⟩ := List.mem_map.1 hm
    obtain ⟨y, hy, hs, _⟩ := each_right ht e' he'
    rw [hee] at hs
    exact hn.1 (List.mem_map.2 ⟨y, hy, key_inj hk hs hx.1⟩)

mutual
theorem read_stands (rf : BitVec 64 → BitVec 64) (hrf : Keeps rf) : ∀ (T : HTy) (w : Serial.Ty), Fits T w →
    ∀ (v : Val w) (bs rest : List UInt8), WF w v → Within false T w v → Writes w v bs →
      ∃ h, read rf T (bs ++ rest) = some (h, rest) ∧ Stands T w v h
  | .int, .prim n s, hf => by
    intro v bs rest _ hi hw
    simp only [Fits] at hf
    simp only [Writes] at hw
    simp only [Within, Bool.false_eq_true, false_or] at hi
    have hv : v.toNat < 256 ^ n := by
      have := v.isLt
      rwa [Nat.pow_mul] at this
    have hr := recv_toLE hv rest
    rw [hw]
    refine ⟨.int v.toNat, ?_, ?_⟩
    · simp only [read, readInt]
      subst hf
      rw [hr]
      rfl
    · simp only [Stands]
      refine ⟨hf, ?_⟩
      rcases hi with rfl | hi
      · rfl
      · cases s
        · rfl
        · simp only [if_true]
          have h0 : 0 < 2 ^ (8 * n) := Nat.two_pow_pos _
          have h1 := v.isLt
          rw [BitVec.toInt_eq_toNat_cond] at hi ⊢
          split at hi
          · rename_i h; rw [if_pos h]
          · omega
  | .dbl, .prim n s, hf => by
    intro v bs rest _ hi hw
    simp only [Fits] at hf
    simp only [Writes] at hw
    simp only [Within] at hi
    have hv : v.toNat < 256 ^ n := by
      have := v.isLt
      rwa [Nat.pow_mul] at this
    obtain ⟨b, h1, h2⟩ := recv_eq hv rest
    refine ⟨.dbl (BitVec.ofNat 64 v.toNat), ?_, by simp only [Stands, hf, true_and]⟩
    rw [hw]
    simp only [read]
    subst hf
    rw [h1, Option.map_some, h2, hrf _ hi]
  | .chr, .prim n s, hf => by
    intro v bs rest _ hi hw
    simp only [Fits] at hf
    simp only [Writes] at hw
    have hv : v.toNat < 256 ^ n := by
      have := v.isLt
      rwa [Nat.pow_mul] at this
    obtain ⟨b, h1, h2⟩ := recv_eq hv rest
    refine ⟨.chr v.toNat, ?_, by simp only [Stands, hf, true_and]⟩
    rw [hw]
    simp only [read]
    subst hf
    rw [h1, Option.map_some, h2]
  | .list t, .str, hf => by
    intro v bs rest hwf hi hw
    simp only [Fits] at hf
    simp only [WF] at hwf
    simp only [Writes, Nat.mod_eq_of_lt hwf, List.take_length] at hw
    subst hf
    refine ⟨text v, ?_, by simp only [Stands, true_and]⟩
    rw [hw, ← encStr_eq v hwf, read_text rf v hwf]
  | .list t, .vec w, hf => by
    intro v bs rest hwf hi hw
    simp only [Fits] at hf
    simp only [WF] at hwf
    simp only [Within] at hi
    simp only [Writes, Nat.mod_eq_of_lt hwf.1, List.take_length] at hw
    obtain ⟨body, rfl, hb⟩ := hw
    obtain ⟨ps, hps, he⟩ := readMany_each (f := read rf t) (R := Stands t w) (ok := fun x => WF w x ∧ Within false t w x) rest
      (fun v bs rest ho hw => read_stands rf hrf t w hf v bs rest ho.1 ho.2 hw) v body (fun x hx => ⟨hwf.2 x hx, hi x hx⟩) hb
    exact ⟨.list ps, by simp only [read, List.append_assoc, readInt_size _ hwf.1, hps, Option.bind_some, Option.map_some], by
      simp only [Stands]; exact ⟨ps, rfl, he⟩⟩
  | .map k t, .map a b, hf => by
    intro v bs rest hwf hi hw
    simp only [Fits] at hf
    obtain ⟨hk, hf1, hf2⟩ := hf
    simp only [WF] at hwf
    simp only [Within] at hi
    simp only [Writes] at hw
    obtain ⟨body, rfl, hb⟩ := hw
    have hnd : (v.map (·.1)).Nodup := by
      rw [List.Nodup, List.pairwise_map]
      refine hwf.2.1.imp ?_
      intro x y hxy e
      rw [e, (sto_vlt a).irrefl] at hxy
      exact Bool.noConfusion hxy
    obtain ⟨es, hes, he⟩ := readMany_each (f := readEntry (read rf k) (read rf t))
      (R := fun (x : Val a × Val b) e => Stands k a x.1 (keyVal e.1) ∧ Stands t b x.2 e.2)
      (ok := fun x => (WF a x.1 ∧ Within false k a x.1) ∧ WF b x.2 ∧ Within false t b x.2) rest
      (by
        rintro x bs rest ho ⟨y, z, rfl, h1, h2⟩
        obtain ⟨q, hq, hs⟩ := read_stands rf hrf k a hf1 x.1 y (z ++ rest) ho.1.1 ho.1.2 h1
        obtain ⟨p, hp, hs'⟩ := read_stands rf hrf t b hf2 x.2 z rest ho.2.1 ho.2.2 h2
        obtain ⟨e, rfl⟩ := key_exists hk hs
        exact ⟨(e, p), by simp only [readEntry, List.append_assoc, hq, hp, keyVal_asKey, Option.bind_some, Option.map_some], hs, hs'⟩)
      v body (fun x hx => ⟨⟨(hwf.2.2 x hx).1, (hi x hx).1⟩, (hwf.2.2 x hx).2, (hi x hx).2⟩) hb
    have hpm := fromList_perm es (keys_nodup hk he hnd)
    obtain ⟨m, hm, hme⟩ := each_perm hpm.symm he
    exact ⟨.map (fromList es), by simp only [read, List.append_assoc, readInt_size _ hwf.1, hes, Option.bind_some, Option.map_some], by
      simp only [Stands]; exact ⟨_, m, rfl, hm, hme⟩⟩
  | .cls n ms, w, hf => by
    intro v bs rest hwf hi hw
    rw [Fits] at hf
    simp only [Within] at hi
    obtain ⟨ps, hps, hs⟩ := read_standsMems rf hrf ms w hf v bs rest hwf hi hw
    exact ⟨.record n ps, by simp only [read, hps, Option.map_some], by simp only [Stands]; exact ⟨ps, rfl, hs⟩⟩
theorem read_standsMems (rf : BitVec 64 → BitVec 64) (hrf : Keeps rf) : ∀ (ms : HMems) (w : Serial.Ty), FitsMems ms w →
    ∀ (v : Val w) (bs rest : List UInt8), WF w v → WithinMems false ms w v → Writes w v bs →
      ∃ hs, readMems rf ms (bs ++ rest) = some (hs, rest) ∧ StandsMems ms w v hs
  | .nil, .arr n _, hf => by
    intro v bs rest hwf _ hw
    simp only [FitsMems] at hf
    subst hf
    have : v = [] := List.length_eq_zero_iff.1 hwf.1
    subst this
    simp only [Writes, WritesAll] at hw
    subst hw
    exact ⟨[], by simp [readMems], by simp [StandsMems]⟩
  | .cons t ms, .pair a b, hf => by
    intro v bs rest hwf hi hw
    simp only [FitsMems] at hf
    simp only [WF] at hwf
    simp only [WithinMems] at hi
    simp only [Writes] at hw
    obtain ⟨x, y, rfl, h1, h2⟩ := hw
    obtain ⟨p, hp, hs⟩ := read_stands rf hrf t a hf.1 v.1 x (y ++ rest) hwf.1 hi.1 h1
    obtain ⟨ps, hps, hs'⟩ := read_standsMems rf hrf ms b hf.2 v.2 y rest hwf.2 hi.2 h2
    exact ⟨p :: ps, by simp only [readMems, List.append_assoc, hp, hps, Option.bind_some, Option.map_some], by
      simp only [StandsMems]; exact ⟨hs, hs'⟩⟩
end

/-! ### The program that is written -/

mutual
theorem nameRep_handled : ∀ (t : Reflect.Ty) (a : Nat), Handled t → GenPhp.nameRep a (Reflect.Spec.desc t) = (a, Reflect.Spec.desc t)
  | .int s n, a, _ => by simp [Reflect.Spec.desc, GenPhp.nameRep]
  | .float _, a, _ => by simp [Reflect.Spec.desc, GenPhp.nameRep]
  | .char, a, _ => by simp [Reflect.Spec.desc, GenPhp.nameRep]
  | .str, a, _ => by simp [Reflect.Spec.desc, GenPhp.nameRep]
  | .vec t, a, h => by
    simp only [Handled] at h
    simp only [Reflect.Spec.desc, GenPhp.nameRep, nameRep_handled t a h]
  | .map k v, a, h => by
    simp only [Handled] at h
    simp only [Reflect.Spec.desc, GenPhp.nameRep, nameRep_handled k a h.2.1, nameRep_handled v a h.2.2]
  | .cls body, a, h => by
    simp only [Handled] at h
    simp only [Reflect.Spec.desc, GenPhp.nameRep, if_neg h.1, nameMems_handled body a h.2.2]
theorem nameMems_handled : ∀ (as : List Act) (a : Nat), HandledBody as →
    GenPhp.nameMems a (Reflect.Spec.descBody as) = (a, Reflect.Spec.descBody as)
  | [], a, _ => by simp [Reflect.Spec.descBody, GenPhp.nameMems]
  | .name _ :: as, a, h => by
    simp only [HandledBody] at h
    simp only [Reflect.Spec.descBody, nameMems_handled as a h]
  | .member n t :: as, a, h => by
    simp only [HandledBody] at h
    simp only [Reflect.Spec.descBody, GenPhp.nameMems, GenPhp.nameMem, nameRep_handled t a h.1, nameMems_handled as a h.2]
  | .plain t :: as, a, h => by
    simp only [HandledBody] at h
    simp only [Reflect.Spec.descBody, GenPhp.nameMems, GenPhp.nameMem, nameRep_handled t a h.1, nameMems_handled as a h.2]
end

theorem nameReps_handled (ts : List Reflect.Ty) (a : Nat) (h : ∀ t ∈ ts, Handled t) :
    GenPhp.nameReps a (ts.map Reflect.Spec.desc) = (a, ts.map Reflect.Spec.desc) := by
  induction ts with
  | nil => rfl
  | cons t ts ih =>
    simp only [List.map_cons, GenPhp.nameReps, nameRep_handled t a (h t (List.mem_cons_self ..)),
      ih (fun t ht => h t (List.mem_cons_of_mem _ ht))]

theorem nameSigs_handled (sigs : List CSig) (a : Nat) (h : ∀ m ∈ sigs, ∀ t ∈ typesOf m, Handled t) :
    GenPhp.nameSigs a (sigs.map describe) = (a, sigs.map describe) := by
  induction sigs with
  | nil => rfl
  | cons m sigs ih =>
    have hm := h m (List.mem_cons_self ..)
    simp only [List.map_cons, GenPhp.nameSigs, describe, nameRep_handled m.2.1 a (hm _ (by simp [typesOf])),
      nameReps_handled m.2.2 a (fun t ht => hm t (by simp [typesOf, ht]))]
    have := ih (fun m hm => h m (List.mem_cons_of_mem _ hm))
    rw [this]

theorem has_part {tab : List (Str × List Mem)} {p r : Rep} (h : Has tab r) (hp : p ∈ Reflect.Spec.parts r) : Has tab p :=
  fun n ms hc => h n ms (.inside _ _ _ hc hp)

theorem ordered_key {T : HTy} (h : IsKey T) : ordered T = true := by
  match T, h with
  | .int, _ => simp [ordered]
  | .chr, _ => simp [ordered]
  | .list t, h =>
    simp only [IsKey] at h
    subst h
    simp [ordered]

mutual
theorem eval_handled (tab : List (Str × List Mem)) : ∀ (t : Reflect.Ty), Handled t → Has tab (Reflect.Spec.desc t) →
    ∃ T w, Reflect.wire t = some w ∧ Fits T w ∧ (KeyTy t → IsKey T) ∧
      ∀ fuel, Reflect.Spec.size (Reflect.Spec.desc t) ≤ fuel → eval tab fuel (Reflect.Spec.desc t) = some T
  | .int s n, h, _ => by
    simp only [Handled] at h
    refine ⟨.int, .prim n s, by simp [Reflect.wire], by simp [Fits, h], fun _ => trivial, fun fuel hfu => ?_⟩
    cases fuel with
    | zero => simp [Reflect.Spec.desc, Reflect.Spec.size] at hfu
    | succ f => simp [Reflect.Spec.desc, eval]
  | .float n, h, _ => by
    simp only [Handled] at h
    refine ⟨.dbl, .prim n true, by simp [Reflect.wire], by simp [Fits, h], fun h => h.elim, fun fuel hfu => ?_⟩
    cases fuel with
    | zero => simp [Reflect.Spec.desc, Reflect.Spec.size] at hfu
    | succ f => simp [Reflect.Spec.desc, eval]
  | .char, h, _ => by
    refine ⟨.chr, .prim 1 true, by simp [Reflect.wire], by simp [Fits], fun _ => trivial, fun fuel hfu => ?_⟩
    cases fuel with
    | zero => simp [Reflect.Spec.desc, Reflect.Spec.size] at hfu
    | succ f => simp [Reflect.Spec.desc, eval]
  | .str, h, _ => by
    refine ⟨.list .chr, .str, by simp [Reflect.wire], by simp [Fits], fun _ => by simp [IsKey], fun fuel hfu => ?_⟩
    cases fuel with
    | zero => simp [Reflect.Spec.desc, Reflect.Spec.size] at hfu
    | succ f => simp [Reflect.Spec.desc, eval]
  | .vec t, h, ht => by
    simp only [Handled] at h
    simp only [Reflect.Spec.desc] at ht ⊢
    obtain ⟨T, w, h1, h2, _, h3⟩ := eval_handled tab t h (has_part ht (by simp [Reflect.Spec.parts]))
    refine ⟨.list T, .vec w, by simp [Reflect.wire, h1], by simpa [Fits] using h2, fun h => h.elim, fun fuel hfu => ?_⟩
    simp only [Reflect.Spec.size] at hfu
    cases fuel with
    | zero => omega
    | succ f => simp [eval, h3 f (by omega)]
  | .map k v, h, ht => by
    simp only [Handled] at h
    simp only [Reflect.Spec.desc] at ht ⊢
    obtain ⟨K, a, k1, k2, kk, k3⟩ := eval_handled tab k h.2.1 (has_part ht (by simp [Reflect.Spec.parts]))
    obtain ⟨T, w, h1, h2, _, h3⟩ := eval_handled tab v h.2.2 (has_part ht (by simp [Reflect.Spec.parts]))
    refine ⟨.map K T, .map a w, by simp [Reflect.wire, h1, k1], by simp only [Fits]; exact ⟨kk h.1, k2, h2⟩, fun h => h.elim, fun fuel hfu => ?_⟩
    simp only [Reflect.Spec.size] at hfu
    cases fuel with
    | zero => omega
    | succ f => simp [eval, h3 f (by omega), k3 f (by omega), ordered_key (kk h.1)]
  | .cls body, h, ht => by
    simp only [Handled] at h
    obtain ⟨l, w, h1, h2, h3⟩ := evalBody_handled tab body h.2.2 (fun p hp => has_part ht (by
      simp only [Reflect.Spec.desc, Reflect.Spec.parts]; exact hp))
    have hf := ht (Reflect.Spec.nameOf body) (Reflect.Spec.descBody body) (by rw [Reflect.Spec.desc]; exact .self _)
    refine ⟨.cls (Reflect.Spec.nameOf body) (.ofList l), w, by simp [Reflect.wire, h1], by simp only [Fits]; exact h2, fun h => h.elim, fun fuel hfu => ?_⟩
    simp only [Reflect.Spec.desc, Reflect.Spec.size] at hfu ⊢
    cases fuel with
    | zero => omega
    | succ f => simp only [eval, hf, Option.bind_some, h3 f (by omega), Option.map_some]
theorem evalBody_handled (tab : List (Str × List Mem)) : ∀ (as : List Act), HandledBody as →
    (∀ p ∈ (Reflect.Spec.descBody as).map Reflect.Spec.memType, Has tab p) →
    ∃ l w, Reflect.wireBody as = some w ∧ FitsMems (.ofList l) w ∧
      ∀ fuel, Reflect.Spec.sizeMems (Reflect.Spec.descBody as) ≤ fuel →
        (Reflect.Spec.descBody as).mapM (fun m => eval tab fuel (memRep m)) = some l
  | [], _, _ => ⟨[], .arr 0 .bool, by simp [Reflect.wireBody], by simp [HMems.ofList, FitsMems], fun _ _ => by
      simp [Reflect.Spec.descBody]⟩
  | .name _ :: as, h, ht => by
    simp only [HandledBody] at h
    simp only [Reflect.Spec.descBody] at ht ⊢
    obtain ⟨l, w, h1, h2, h3⟩ := evalBody_handled tab as h ht
    exact ⟨l, w, by simpa only [Reflect.wireBody] using h1, h2, h3⟩
  | .member n t :: as, h, ht => by
    simp only [HandledBody] at h
    simp only [Reflect.Spec.descBody] at ht ⊢
    obtain ⟨T, a, k1, k2, _, k3⟩ := eval_handled tab t h.1 (ht _ (by simp [Reflect.Spec.memType]))
    obtain ⟨l, w, h1, h2, h3⟩ := evalBody_handled tab as h.2 (fun p hp => ht p (by
      simp only [List.map_cons, List.mem_cons]; exact .inr hp))
    refine ⟨T :: l, .pair a w, by simp [Reflect.wireBody, k1, h1], by simp only [HMems.ofList, FitsMems]; exact ⟨k2, h2⟩, fun fuel hfu => ?_⟩
    simp only [Reflect.Spec.sizeMems, Reflect.Spec.sizeMem] at hfu
    rw [List.mapM_cons, h3 fuel (by omega), memRep, k3 fuel (by omega)]
    rfl
  | .plain t :: as, h, ht => by
    simp only [HandledBody] at h
    simp only [Reflect.Spec.descBody] at ht ⊢
    obtain ⟨T, a, k1, k2, _, k3⟩ := eval_handled tab t h.1 (ht _ (by simp [Reflect.Spec.memType]))
    obtain ⟨l, w, h1, h2, h3⟩ := evalBody_handled tab as h.2 (fun p hp => ht p (by
      simp only [List.map_cons, List.mem_cons]; exact .inr hp))
    refine ⟨T :: l, .pair a w, by simp [Reflect.wireBody, k1, h1], by simp only [HMems.ofList, FitsMems]; exact ⟨k2, h2⟩, fun fuel hfu => ?_⟩
    simp only [Reflect.Spec.sizeMems, Reflect.Spec.sizeMem] at hfu
    rw [List.mapM_cons, h3 fuel (by omega), memRep, k3 fuel (by omega)]
    rfl
end

theorem descBody_ne {as : List Act} (h : bodyNames as ≠ []) : Reflect.Spec.descBody as ≠ [] := by
  rw [← GenPhp.Lemmas.descBody_names] at h
  exact fun e => h (by rw [e]; rfl)

mutual
/-- Classes within the description of a handled type have members. -/
theorem parts_ne : ∀ (t : Reflect.Ty), Handled t → ∀ n ms, Rep.cls n ms ∈ Reflect.traverse (Reflect.Spec.desc t) → ms ≠ []
  | .int s k, _, n, ms, hp => by simp [Reflect.Spec.desc, Reflect.traverse] at hp
  | .float _, _, n, ms, hp => by simp [Reflect.Spec.desc, Reflect.traverse] at hp
  | .char, _, n, ms, hp => by simp [Reflect.Spec.desc, Reflect.traverse] at hp
  | .str, _, n, ms, hp => by simp [Reflect.Spec.desc, Reflect.traverse] at hp
  | .vec t, h, n, ms, hp => by
    simp only [Handled] at h
    simp only [Reflect.Spec.desc, Reflect.traverse, List.mem_cons, reduceCtorEq, false_or] at hp
    exact parts_ne t h n ms hp
  | .map k v, h, n, ms, hp => by
    simp only [Handled] at h
    simp only [Reflect.Spec.desc, Reflect.traverse, List.mem_cons, reduceCtorEq, false_or, List.mem_append] at hp
    rcases hp with hp | hp
    · exact parts_ne k h.2.1 n ms hp
    · exact parts_ne v h.2.2 n ms hp
  | .cls body, h, n, ms, hp => by
    simp only [Handled] at h
    simp only [Reflect.Spec.desc, Reflect.traverse, List.mem_cons, Rep.cls.injEq] at hp
    rcases hp with ⟨-, rfl⟩ | hp
    · exact descBody_ne h.2.1
    · exact parts_neBody body h.2.2 n ms hp
theorem parts_neBody : ∀ (as : List Act), HandledBody as → ∀ n ms, Rep.cls n ms ∈ Reflect.traverseMems (Reflect.Spec.descBody as) → ms ≠ []
  | [], _, n, ms, hp => by simp [Reflect.Spec.descBody, Reflect.traverseMems] at hp
  | .name _ :: as, h, n, ms, hp => by
    simp only [HandledBody] at h
    simp only [Reflect.Spec.descBody] at hp
    exact parts_neBody as h n ms hp
  | .member _ t :: as, h, n, ms, hp => by
    simp only [HandledBody] at h
    simp only [Reflect.Spec.descBody, Reflect.traverseMems, Reflect.traverseMem, List.mem_append] at hp
    rcases hp with hp | hp
    · exact parts_ne t h.1 n ms hp
    · exact parts_neBody as h.2 n ms hp
  | .plain t :: as, h, n, ms, hp => by
    simp only [HandledBody] at h
    simp only [Reflect.Spec.descBody, Reflect.traverseMems, Reflect.traverseMem, List.mem_append] at hp
    rcases hp with hp | hp
    · exact parts_ne t h.1 n ms hp
    · exact parts_neBody as h.2 n ms hp
end

theorem addType_mem (l : List Rep) (acc : List (Str × List Mem)) (e : Str × List Mem) (h : e ∈ l.foldl GenPhp.addType acc) :
    e ∈ acc ∨ Rep.cls e.1 e.2 ∈ l := by
  induction l generalizing acc with
  | nil => exact .inl h
  | cons r l ih =>
    rw [List.foldl_cons] at h
    rcases ih _ h with h | h
    · cases r with
      | cls n ms =>
        simp only [GenPhp.addType, AssocMap.upsert, List.mem_cons, AssocMap.erase, List.mem_filter] at h
        rcases h with rfl | h
        · exact .inr (List.mem_cons_self ..)
        · exact .inl h.1
      | _ => exact .inl h
    · exact .inr (List.mem_cons_of_mem _ h)

theorem addType_nodup (l : List Rep) (acc : List (Str × List Mem)) (h : (acc.map (·.1)).Nodup) :
    ((l.foldl GenPhp.addType acc).map (·.1)).Nodup := by
  induction l generalizing acc with
  | nil => exact h
  | cons r l ih =>
    rw [List.foldl_cons]
    refine ih _ ?_
    cases r with
    | cls n ms => exact AssocMap.nodup_upsert h n ms
    | _ => exact h

theorem table_occurs {sigs : List CSig} {e : Str × List Mem} (h : e ∈ GenPhp.table [sigs.map describe]) : Occurs sigs e.1 e.2 := by
  rcases addType_mem _ _ _ h with h | h
  · cases h
  · rw [List.flatMap_cons, List.flatMap_nil, List.append_nil] at h
    obtain ⟨m, hm, t, ht, hr⟩ := GenPhp.Lemmas.mem_reps.1 h
    exact ⟨m, hm, t, ht, Reflect.Lemmas.traverse_part _ _ hr⟩

theorem table_nodup (sigs : List CSig) : ((GenPhp.table [sigs.map describe]).map (·.1)).Nodup := addType_nodup _ _ List.nodup_nil

theorem nodup_of_inj {α β : Type} (f : α → β) (l : List α) (hn : l.Nodup) (h : ∀ a ∈ l, ∀ b ∈ l, f a = f b → a = b) : (l.map f).Nodup := by
  induction l with
  | nil => exact List.nodup_nil
  | cons a l ih =>
    rw [List.nodup_cons] at hn
    rw [List.map_cons, List.nodup_cons]
    refine ⟨?_, ih hn.2 fun x hx y hy => h x (List.mem_cons_of_mem _ hx) y (List.mem_cons_of_mem _ hy)⟩
    intro hm
    obtain ⟨b, hb, e⟩ := List.mem_map.1 hm
    have := h b (List.mem_cons_of_mem _ hb) a (List.mem_cons_self ..) e
    exact hn.1 (this ▸ hb)

theorem field_inj {n x y : Str} (h : field n x = field n y) : x = y := by
  have := List.append_cancel_left h
  exact (List.cons.inj this).2

theorem fields_nodup (tab : List (Str × List Mem)) (hn : (tab.map (·.1)).Nodup) (hm : ∀ e ∈ tab, (e.2.map memName).Nodup)
    (hf : ∀ e ∈ tab, ∀ e' ∈ tab, ∀ x ∈ e.2, ∀ y ∈ e'.2, field e.1 (memName x) = field e'.1 (memName y) → e.1 = e'.1) :
    (tab.flatMap fun e => e.2.map fun m => field e.1 (memName m)).Nodup := by
  induction tab with
  | nil => exact List.nodup_nil
  | cons e tab ih =>
    rw [List.map_cons, List.nodup_cons] at hn
    rw [List.flatMap_cons, List.nodup_append]
    refine ⟨?_, ih hn.2 (fun e he => hm e (List.mem_cons_of_mem _ he)) (fun a ha b hb => hf a (List.mem_cons_of_mem _ ha) b (List.mem_cons_of_mem _ hb)), ?_⟩
    · have := hm e (List.mem_cons_self ..)
      have h2 := nodup_of_inj (field e.1) _ this (fun a _ b _ h => field_inj h)
      rwa [List.map_map] at h2
    · intro a ha b hb hab
      subst hab
      obtain ⟨x, hx, rfl⟩ := List.mem_map.1 ha
      obtain ⟨e', he', hb⟩ := List.mem_flatMap.1 hb
      obtain ⟨y, hy, hxy⟩ := List.mem_map.1 hb
      have := hf e (List.mem_cons_self ..) e' (List.mem_cons_of_mem _ he') x hx y hy hxy.symm
      exact hn.1 (this ▸ List.mem_map_of_mem he')

theorem compiles_good {sigs : List CSig} (hh : ∀ m ∈ sigs, ∀ t ∈ typesOf m, Handled t) (hg : GoodNames sigs) :
    Compiles (GenPhp.table [sigs.map describe]) (sigs.map describe) := by
  have hn := table_nodup sigs
  have ho : ∀ e ∈ GenPhp.table [sigs.map describe], Occurs sigs e.1 e.2 := fun e he => table_occurs he
  refine ⟨?_, ?_, ?_⟩
  · have := nodup_of_inj capital _ hn (by
      intro a ha b hb h
      obtain ⟨e, he, rfl⟩ := List.mem_map.1 ha
      obtain ⟨e', he', rfl⟩ := List.mem_map.1 hb
      exact (hg.same _ _ _ _ (ho e he) (ho e' he') h).1)
    rwa [List.map_map] at this
  · intro e he
    obtain ⟨c, s, hc, hl⟩ := hg.letter _ _ (ho e he)
    refine ⟨⟨c, by rw [hc]; rfl, hl⟩, hg.free _ _ (ho e he), ?_⟩
    obtain ⟨m, hm, t, ht, hp⟩ := ho e he
    exact parts_ne t (hh m hm t ht) e.1 e.2 (Reflect.Lemmas.part_traverse hp)
  · rw [List.nodup_append]
    refine ⟨fields_nodup _ hn (fun e he => hg.members _ _ (ho e he))
      (fun e he e' he' x hx y hy h => hg.fields _ _ _ _ (ho e he) (ho e' he') x hx y hy h), ?_, ?_⟩
    · have := nodup_of_inj callName _ hg.methods (fun a _ b _ h => List.append_cancel_left h)
      rw [List.map_map] at this ⊢
      exact this
    · intro a ha b hb hab
      subst hab
      obtain ⟨e, he, ha⟩ := List.mem_flatMap.1 ha
      obtain ⟨x, hx, rfl⟩ := List.mem_map.1 ha
      obtain ⟨m', hm', hb⟩ := List.mem_map.1 hb
      obtain ⟨m, hm, rfl⟩ := List.mem_map.1 hm'
      exact hg.calls _ _ (ho e he) x hx m hm hb.symm

theorem table_has {sigs : List CSig} (hg : GoodNames sigs) {m : CSig} (hm : m ∈ sigs) {t : Reflect.Ty} (ht : t ∈ typesOf m) :
    Has (GenPhp.table [sigs.map describe]) (Reflect.Spec.desc t) := by
  intro n ms hp
  refine GenPhp.Lemmas.addType_find _ [] n ms ?_ (.inl ?_)
  · intro ms' h
    rw [List.flatMap_cons, List.flatMap_nil, List.append_nil] at h
    obtain ⟨m', hm', t', ht', h'⟩ := GenPhp.Lemmas.mem_reps.1 h
    exact (hg.same n ms' n ms ⟨m', hm', t', ht', Reflect.Lemmas.traverse_part _ _ h'⟩ ⟨m, hm, t, ht, hp⟩ rfl).2
  · rw [List.flatMap_cons, List.flatMap_nil, List.append_nil]
    exact GenPhp.Lemmas.mem_reps.2 ⟨m, hm, t, ht, Reflect.Lemmas.part_traverse hp⟩

theorem size_le {sigs : List CSig} {m : CSig} (hm : m ∈ sigs) {t : Reflect.Ty} (ht : t ∈ typesOf m) :
    Reflect.Spec.size (Reflect.Spec.desc t) ≤ (GenPhp.reps (sigs.map describe)).length := by
  have := GenPhp.Lemmas.size_le (refs := [sigs]) (m := m) (by simpa using hm) ht
  simpa using this

theorem eval_none {tab : List (Str × List Mem)} {p r : Rep} (hp : Reflect.Spec.Part p r) (hb : ∀ fuel, eval tab fuel p = none)
    (hh : Has tab r) : ∀ fuel, eval tab fuel r = none := by
  induction hp with
  | self => exact hb
  | inside q r h1 h2 ih =>
    have hq := ih (has_part hh h2)
    intro fuel
    cases fuel with
    | zero => rfl
    | succ f =>
      cases r with
      | arr t =>
        simp only [Reflect.Spec.parts, List.mem_singleton] at h2
        subst h2
        simp [eval, hq f]
      | map k v =>
        simp only [Reflect.Spec.parts, List.mem_cons, List.not_mem_nil, or_false] at h2
        rcases h2 with rfl | rfl
        · simp [eval, hq f]
        · cases h : eval tab f k <;> simp [eval, hq f, h]
      | cls n ms =>
        simp only [Reflect.Spec.parts, List.mem_map] at h2
        obtain ⟨m, hm, rfl⟩ := h2
        obtain ⟨x, t⟩ := m
        have hf := hh n ms (.self _)
        simp only [eval, hf, Option.bind_some]
        rw [mapM_none (a := Mem.mk x t) hm (by rw [show memRep (.mk x t) = Reflect.Spec.memType (.mk x t) from rfl, hq f])]
        rfl
      | _ => simp [Reflect.Spec.parts] at h2

/-! ### Calls -/

theorem rt_args (rf : BitVec 64 → BitVec 64) (hrf : Keeps rf) : ∀ (ts : List HTy) (ws : List Serial.Ty), Each Fits ts ws →
    RT (Serial.read (pairs ws)) (fun v bs => WithinAll ts ws v ∧ ∃ hs, StandsAll ts ws v hs ∧ writeAll rf ts hs = some bs)
      (WF (pairs ws)) (Shape (pairs ws))
  | [], [], _ => by
    rintro v bs tail old u - ⟨-, ps, hs, hw⟩ ho
    simp only [StandsAll] at hs
    obtain ⟨rfl, rfl⟩ := hs
    simp only [writeAll, Option.some.injEq] at hw
    subst hw
    have : old = [] := List.length_eq_zero_iff.1 ho.1
    subst this
    rfl
  | t :: ts, w :: ws, h => by
    cases h with
    | cons h1 h2 =>
      refine rt_mono (rt_pair (rt_sent rf hrf t w h1) (rt_args rf hrf ts ws h2)) ?_ (fun _ h => h) (fun _ h => h)
      rintro v bs - ⟨hi, ps, hs, hw⟩
      cases ps with
      | nil => simp [StandsAll] at hs
      | cons p ps =>
        simp only [StandsAll] at hs
        simp only [WithinAll] at hi
        simp only [writeAll, Option.bind_eq_some_iff, Option.map_eq_some_iff] at hw
        obtain ⟨x, hx, y, hy, rfl⟩ := hw
        exact ⟨x, y, rfl, ⟨hi.1, p, hs.1, hx⟩, ⟨hi.2, ps, hs.2, hy⟩⟩

theorem writeAll_some (rf : BitVec 64 → BitVec 64) : ∀ (ts : List HTy) (ws : List Serial.Ty), Each Fits ts ws → ∀ (v : Val (pairs ws)) (ps : List HV),
    StandsAll ts ws v ps → ∃ bs, writeAll rf ts ps = some bs
  | [], [], _ => by
    intro v ps hs
    simp only [StandsAll] at hs
    obtain ⟨rfl, rfl⟩ := hs
    exact ⟨[], rfl⟩
  | t :: ts, w :: ws, h => by
    intro v ps hs
    cases h with
    | cons h1 h2 =>
      cases ps with
      | nil => simp [StandsAll] at hs
      | cons p ps =>
        simp only [StandsAll] at hs
        obtain ⟨x, hx⟩ := write_some rf t w h1 v.1 p hs.1
        obtain ⟨y, hy⟩ := writeAll_some rf ts ws h2 v.2 ps hs.2
        exact ⟨x ++ y, by simp [writeAll, hx, hy]⟩

theorem pingPong_ok (E : Rpc.Encoder) (rf : BitVec 64 → BitVec 64) (sv : Rpc.Server) (log : List Rpc.Call) :
    pingPong E rf sv (fresh log) = .ok (true, fresh log) := by
  have h := Rpc.Lemmas.send_idle_next (E := E) (sv := sv) (log := log) (Rpc.Lemmas.encStr_ne_nil Rpc.pingMsg) (by
    have := Rpc.Lemmas.round_ping E sv false []
    rwa [List.append_nil] at this)
  have hr := read_text rf Rpc.pongMsg (by decide) []
  rw [List.append_nil] at h hr
  have he : exchange E sv (Rpc.encStr Rpc.pingMsg) (fresh log) = .ok ⟨Rpc.encStr Rpc.pongMsg, ⟨[], [], true, true⟩, log⟩ := by
    simp only [exchange, fresh]
    rw [show (⟨[], [], true, true⟩ : Rpc.Conn) = Rpc.Lemmas.idle from rfl, h]
    simp only [List.nil_append]
    rfl
  simp only [pingPong, write_text rf Rpc.pingMsg (by decide), he, hr, isText_text, decide_true]
  rfl

theorem round_args (E : Rpc.Encoder) (rf : BitVec 64 → BitVec 64) (hrf : Keeps rf) (sv : Rpc.Server) {name : Str} {ws : List Serial.Ty} {wr : Serial.Ty}
    {f : Rpc.Arg (argTy ws) → Rpc.Outcome (Val wr)} {v : Val (pairs ws)} {ts : List HTy} {ps : List HV} {bs : List UInt8}
    (hl : name.length < 2 ^ 32) (hf : Rpc.Spec.Free name) (hver : sv.version = 1)
    (h : AssocMap.find sv.funcs name = some ⟨argTy ws, wr, f⟩) (hfit : Each Fits ts ws) (hv : WF (pairs ws) v) (hi : WithinAll ts ws v)
    (hs : StandsAll ts ws v ps) (hw : writeAll rf ts ps = some bs) :
    Rpc.round E sv false (Rpc.encStr name ++ pack 4 1 ++ bs) =
      Rpc.answer E wr [] ⟨name, argTy ws, argVal ws v⟩ (f (argVal ws v)) := by
  have hrt := rt_args rf hrf ts ws hfit v bs [] (Serial.dflt _) false hv ⟨hi, ps, hs, hw⟩ (shape_dflt _)
  rw [List.append_nil] at hrt
  rw [pack_one]
  simp only [Rpc.round, List.append_assoc, Rpc.Lemmas.read_str name [] _ hl, Bool.not_true, Bool.false_eq_true, if_false, if_neg hf.1,
    if_neg hf.2, h, Rpc.Lemmas.read_int, Bool.false_and, Bool.true_and, decide_eq_true_eq, ne_eq, hver, not_true_eq_false]
  cases ws with
  | nil =>
    cases hfit
    cases ps with
    | nil =>
      simp only [writeAll, Option.some.injEq] at hw
      subst hw
      rfl
    | cons p ps => simp [StandsAll] at hs
  | cons w ws =>
    simp only [Rpc.invoke, argTy, argVal, hrt, Bool.not_true, Bool.false_and, Bool.false_eq_true, if_false]

end Verif.GenHs.Lemmas
