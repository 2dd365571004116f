import Verif.GenHs.Lemmas
/-!
# Generated Haskell clients and the server (C95)
-/
namespace Verif.GenHs.Props
open Verif.GenHs Verif.GenHs.Spec Verif.GenHs.Lemmas
open Verif.Reflect (Rep Mem Act)
open Verif.Serial (Val Writes toLE sizeField)
open Verif.Serial.Spec (WF Shape archive)
open Verif.GenPhp (pack Sig)
open Verif.GenPhp.Spec (Each CSig typesOf bodyNames pairs argTy argVal describe)
open Verif.GenPhp.Lemmas (mapM_none mapM_each toLE_mod toLE_split pack_one)

/-! ### Values -/

/-- Both ways in which `realToFrac` is compiled keep plain numbers: with
optimisation it does nothing, without it goes by way of a fraction. -/
theorem both_keep : Keeps id ∧ Keeps viaRational := by
  refine ⟨fun _ _ => rfl, fun b hb => ?_⟩
  rw [viaRational, if_neg hb.1, if_neg (by have := hb.2; omega)]

example : Plain 0x3ff0000000000000 ∧ Plain 0xfff0000000000000 := by unfold Plain; decide

/-- A Haskell value that stands for a C++ value can be written, and a C++ program
that reads the bytes gets this C++ value, whatever comes behind them. Numbers may
be negative. -/
theorem sends_partial (rf : BitVec 64 → BitVec 64) (hrf : Keeps rf) (T : HTy) (w : Serial.Ty) (v old : Val w) (h : HV) (tail : List UInt8)
    (hf : Fits T w) (hv : WF w v) (hi : Within true T w v) (hs : Stands T w v h) (ho : Shape w old) :
    ∃ bs, write rf T h = some bs ∧ Serial.read w old (archive (bs ++ tail)) = (v, archive tail) := by
  obtain ⟨bs, hb⟩ := write_some rf T w hf v h hs
  exact ⟨bs, hb, rt_sent rf hrf T w hf v bs tail old false hv ⟨hi, h, hs, hb⟩ ho⟩

/-- A map with two entries, one of them negative. -/
example : Fits (.map (.list .chr) .int) (.map .str (.prim 4 true)) ∧ WF (.map .str (.prim 4 true)) [([55], -2), ([97], 5)] ∧
    Within true (.map (.list .chr) .int) (.map .str (.prim 4 true)) [([55], -2), ([97], 5)] ∧
    Stands (.map (.list .chr) .int) (.map .str (.prim 4 true)) [([55], -2), ([97], 5)]
      (.map [(.str [55], .int (-2)), (.str [97], .int 5)]) := by
  refine ⟨by simp [Fits, IsKey], by simp [WF, Serial.vlt, Serial.listLt], ?_, ?_⟩
  · simp [Within]
  · simp only [Stands]
    exact ⟨_, _, rfl, .refl _, .cons ⟨⟨trivial, rfl⟩, trivial, rfl⟩ (.cons ⟨⟨trivial, rfl⟩, trivial, rfl⟩ .nil)⟩

/-- What a C++ program writes for a value without negative integers, Haskell reads
as a value that stands for it, and it takes exactly these bytes. -/
theorem receives_partial (rf : BitVec 64 → BitVec 64) (hrf : Keeps rf) (T : HTy) (w : Serial.Ty) (v : Val w) (bs tail : List UInt8)
    (hf : Fits T w) (hv : WF w v) (hi : Within false T w v) (hw : Writes w v bs) :
    ∃ h, read rf T (bs ++ tail) = some (h, tail) ∧ Stands T w v h :=
  read_stands rf hrf T w hf v bs tail hv hi hw

/-- A vector of classes with a string, which may be empty, and a number. -/
example : Fits (.list (.cls [80] (.cons (.list .chr) (.cons .int .nil)))) (.vec (.pair .str (.pair (.prim 4 true) (.arr 0 .bool)))) ∧
    WF (.vec (.pair .str (.pair (.prim 4 true) (.arr 0 .bool)))) [([], 1, []), ([98, 99], 7, [])] ∧
    Within false (.list (.cls [80] (.cons (.list .chr) (.cons .int .nil)))) (.vec (.pair .str (.pair (.prim 4 true) (.arr 0 .bool))))
      [([], 1, []), ([98, 99], 7, [])] := by
  refine ⟨by simp [Fits, FitsMems], by simp [WF], ?_⟩
  simp only [Within]
  intro x hx
  simp only [List.mem_cons, List.not_mem_nil, or_false] at hx
  rcases hx with rfl | rfl
  · simp only [WithinMems, Within, true_and, and_true]
    exact .inr (.inr (by decide))
  · simp only [WithinMems, Within, true_and, and_true]
    exact .inr (.inr (by decide))

/-- A negative number that comes from a server is read as that number plus
4294967296. -/
theorem negative_read_wrong (rf : BitVec 64 → BitVec 64) (v : BitVec 32) (tail : List UInt8) (h : v.toInt < 0) :
    Writes (.prim 4 true) v (toLE 4 v.toNat) ∧ read rf .int (toLE 4 v.toNat ++ tail) = some (.int (v.toInt + 2 ^ 32), tail) := by
  refine ⟨by simp [Writes], ?_⟩
  have hv := v.isLt
  have hr : readInt (toLE 4 v.toNat ++ tail) = some (v.toNat, tail) := recv_toLE (by omega) tail
  have hi : v.toInt + 2 ^ 32 = (v.toNat : Int) := by
    rw [BitVec.toInt_eq_toNat_cond] at h ⊢
    split at h <;> split <;> omega
  rw [read, hr, hi]
  rfl

/-- -1 is read as 4294967295. -/
example : (-1 : BitVec 32).toInt < 0 ∧ (-1 : BitVec 32).toInt + 2 ^ 32 = 4294967295 := by decide

/-- Of a character with a code above 255 only the lowest byte is sent. -/
theorem wide_characters_cut (rf : BitVec 64 → BitVec 64) (n : Nat) : write rf .chr (.chr n) = write rf .chr (.chr (n % 256)) := by
  simp [write]

/-- U+3042 is sent as a `B`, so different strings become the same. -/
example : write id (.list .chr) (.list [.chr 0x3042]) = write id (.list .chr) (.list [.chr 66]) := rfl

/-- A number for an integer of one or two bytes is sent with four bytes: the server
takes the lowest ones, and the other ones as what comes next. -/
theorem short_integers_wrong (rf : BitVec 64 → BitVec 64) (n : Nat) (s : Bool) (i : Int) (old : Val (.prim n s)) (tail : List UInt8)
    (hn : n < 4) :
    ∃ bs rest, write rf .int (.int i) = some bs ∧ rest.length = 4 - n ∧
      Serial.read (.prim n s) old (archive (bs ++ tail)) = (BitVec.ofNat (8 * n) (i % 2 ^ 32).toNat, archive (rest ++ tail)) := by
  have hs : toLE 4 (i % 2 ^ 32).toNat = toLE n ((i % 2 ^ 32).toNat % 2 ^ (8 * n)) ++ toLE (4 - n) ((i % 2 ^ 32).toNat / 256 ^ n) := by
    rw [toLE_mod, ← toLE_split, show n + (4 - n) = 4 by omega]
  have h2 := Serial.Lemmas.readPrim_toLE (n := n) (v := (i % 2 ^ 32).toNat % 2 ^ (8 * n))
    (by
      have := Nat.mod_lt (i % 2 ^ 32).toNat (show 0 < 2 ^ (8 * n) from Nat.pow_pos (by decide))
      rwa [show 256 = 2 ^ 8 from rfl, ← Nat.pow_mul]) old.toNat (toLE (4 - n) ((i % 2 ^ 32).toNat / 256 ^ n) ++ tail) false
  refine ⟨pack 4 i, toLE (4 - n) ((i % 2 ^ 32).toNat / 256 ^ n), by rw [write], Serial.Lemmas.length_toLE _ _, ?_⟩
  rw [pack, show 8 * 4 = 32 from rfl, hs]
  simp only [Serial.read, archive, List.append_assoc, h2, Prod.mk.injEq, and_true]
  apply BitVec.eq_of_toNat_eq
  simp

/-- A `double` is sent for a `float` of four bytes: the server takes the lower half
of its bits, and the upper half as what comes next. -/
theorem single_precision_wrong (rf : BitVec 64 → BitVec 64) (s : Bool) (b : BitVec 64) (old : Val (.prim 4 s)) (tail : List UInt8) :
    ∃ bs, write rf .dbl (.dbl b) = some bs ∧ Serial.read (.prim 4 s) old (archive (bs ++ tail)) =
      (BitVec.ofNat 32 (rf b).toNat, archive (toLE 4 ((rf b).toNat / 2 ^ 32) ++ tail)) := by
  refine ⟨toLE 8 (rf b).toNat, by rw [write], ?_⟩
  have h : toLE 8 (rf b).toNat = toLE 4 ((rf b).toNat % 2 ^ 32) ++ toLE 4 ((rf b).toNat / 2 ^ 32) := by
    rw [toLE_mod, ← toLE_split]
  have h2 := Serial.Lemmas.readPrim_toLE (n := 4) (v := (rf b).toNat % 2 ^ 32)
    (by have := Nat.mod_lt (rf b).toNat (show 0 < 2 ^ 32 by decide); omega) old.toNat (toLE 4 ((rf b).toNat / 2 ^ 32) ++ tail) false
  simp only [Serial.read, archive, h, List.append_assoc, h2, Prod.mk.injEq, and_true]
  apply BitVec.eq_of_toNat_eq
  simp

/-- So 1.0 arrives as 0.0. -/
example : BitVec.ofNat 32 (id (0x3ff0000000000000 : BitVec 64)).toNat = 0 := by decide

/-- Compiled without optimisation, a client sends negative zero as zero, and everything
that is not a number as minus infinity. -/
theorem special_doubles_changed (b : BitVec 64) (h : ¬ Plain b) :
    (b = 0x8000000000000000 ∧ write viaRational .dbl (.dbl b) = some (toLE 8 0)) ∨
    write viaRational .dbl (.dbl b) = some (toLE 8 0xfff0000000000000) := by
  by_cases hz : b = 0x8000000000000000
  · exact .inl ⟨hz, by rw [write, viaRational, if_pos hz]; rfl⟩
  · have : b.toNat % 2 ^ 63 > 0x7ff0000000000000 := by
      rcases Nat.lt_or_ge 0x7ff0000000000000 (b.toNat % 2 ^ 63) with h' | h'
      · exact h'
      · exact (h ⟨hz, h'⟩).elim
    exact .inr (by rw [write, viaRational, if_neg hz, if_pos this]; rfl)

example : ¬ Plain 0x7ff8000000000000 ∧ ¬ Plain 0x8000000000000000 := by unfold Plain; decide

/-! ### Interfaces -/

/-- If all types of an interface are ones that Haskell can handle, and its names
cause no trouble, then the program has a function for each method, and the
types of the results and arguments fit those on the wire. -/
theorem client_partial (sigs : List CSig) (hh : ∀ m ∈ sigs, ∀ t ∈ typesOf m, Handled t) (hg : GoodNames sigs) :
    ∃ ms, client (sigs.map describe) = some ms ∧
      Each (fun (m : CSig) (M : Method) => M.name = m.1 ∧ (∃ w, Reflect.wire m.2.1 = some w ∧ Fits M.ret w) ∧
        Each (fun t T => ∃ w, Reflect.wire t = some w ∧ Fits T w) m.2.2 M.args) sigs ms := by
  have one : ∀ m ∈ sigs, ∀ t ∈ typesOf m, ∃ T, eval (GenPhp.table [sigs.map describe])
      (1 + (GenPhp.reps (sigs.map describe)).length) (Reflect.Spec.desc t) = some T ∧ ∃ w, Reflect.wire t = some w ∧ Fits T w := by
    intro m hm t ht
    obtain ⟨T, w, h1, h2, _, h3⟩ := eval_handled _ t (hh m hm t ht) (table_has hg hm ht)
    exact ⟨T, h3 _ (by have := size_le hm ht; omega), w, h1, h2⟩
  have sig : ∀ m ∈ sigs, ∃ M, evalSig (GenPhp.table [sigs.map describe])
      (1 + (GenPhp.reps (sigs.map describe)).length) (describe m) = some M ∧ (M.name = m.1 ∧
        (∃ w, Reflect.wire m.2.1 = some w ∧ Fits M.ret w) ∧
        Each (fun t T => ∃ w, Reflect.wire t = some w ∧ Fits T w) m.2.2 M.args) := by
    intro m hm
    obtain ⟨T, h1, h2⟩ := one m hm m.2.1 (List.mem_cons_self ..)
    obtain ⟨l, h3, h4⟩ := mapM_each (l := m.2.2) (f := fun t => eval (GenPhp.table [sigs.map describe])
      (1 + (GenPhp.reps (sigs.map describe)).length) (Reflect.Spec.desc t))
      (fun t ht => one m hm t (List.mem_cons_of_mem _ ht))
    refine ⟨⟨m.1, T, l⟩, ?_, rfl, h2, h4⟩
    simp only [evalSig, describe, h1, Option.bind_some, List.mapM_map]
    rw [show List.mapM (eval _ _ ∘ Reflect.Spec.desc) m.2.2 = some l from h3]
    rfl
  obtain ⟨ms, h1, h2⟩ := mapM_each sig
  refine ⟨ms, ?_, h2⟩
  rw [client, nameSigs_handled sigs 0 hh, if_pos (compiles_good hh hg), List.mapM_map, ← h1]
  rfl

/-- An interface with a method that takes a class and gives a map. -/
def people : List CSig :=
  [([102], .map .str (.int true 4), [.cls [.name [80], .member [110] .str, .member [97] (.int false 4)], .float 8])]

theorem people_occurs {n : Str} {ms : List Mem} (h : Occurs people n ms) : n = [80] ∧ ms = [.mk [110] .str, .mk [97] (.int false 4)] := by
  obtain ⟨m, hm, t, ht, hp⟩ := h
  have h1 := Reflect.Lemmas.part_traverse hp
  have hn : Reflect.Spec.nameOf [.name [80], .member [110] .str, .member [97] (.int false 4)] = [80] := rfl
  simp only [people, List.mem_singleton] at hm
  subst hm
  simp only [typesOf, List.mem_cons, List.not_mem_nil, or_false] at ht
  rcases ht with rfl | rfl | rfl <;>
    simp_all [Reflect.Spec.desc, Reflect.Spec.descBody, Reflect.traverse, Reflect.traverseMems, Reflect.traverseMem]

example : (∀ m ∈ people, ∀ t ∈ typesOf m, Handled t) ∧ GoodNames people := by
  constructor
  · intro m hm t ht
    rw [people, List.mem_singleton] at hm
    subst hm
    simp only [typesOf, List.mem_cons, List.not_mem_nil, or_false] at ht
    have hn : Reflect.Spec.nameOf [.name [80], .member [110] .str, .member [97] (.int false 4)] = [80] := rfl
    rcases ht with rfl | rfl | rfl <;> simp [Handled, HandledBody, KeyTy, hn, bodyNames]
  · refine ⟨by decide, ?_, ?_, ?_, ?_, ?_, ?_⟩
    · intro n ms h
      obtain ⟨rfl, -⟩ := people_occurs h
      exact ⟨80, [], rfl, by decide⟩
    · intro n ms h
      obtain ⟨rfl, -⟩ := people_occurs h
      decide +kernel
    · intro n ms n' ms' h h' _
      obtain ⟨rfl, rfl⟩ := people_occurs h
      obtain ⟨rfl, rfl⟩ := people_occurs h'
      exact ⟨rfl, rfl⟩
    · intro n ms h
      obtain ⟨-, rfl⟩ := people_occurs h
      simp only [List.map_cons, List.map_nil, memName]
      decide
    · intro n ms n' ms' h h' _ _ _ _ _
      obtain ⟨rfl, -⟩ := people_occurs h
      obtain ⟨rfl, -⟩ := people_occurs h'
      rfl
    · intro n ms h x hx m hm
      obtain ⟨rfl, rfl⟩ := people_occurs h
      rw [people, List.mem_singleton] at hm
      subst hm
      simp only [List.mem_cons, List.not_mem_nil, or_false] at hx
      rcases hx with rfl | rfl <;> (simp only [memName]; decide +kernel)

/-- One `bool`, one stream, or one map with classes as keys anywhere in one method
of an interface, and the program for the whole interface is not accepted. -/
theorem missing_type_fatal (sigs : List Sig) (m : Sig) (r p : Rep) (hn : (GenPhp.nameSigs 0 sigs).2 = sigs) (hm : m ∈ sigs)
    (hr : r = m.2.1 ∨ r ∈ m.2.2) (ht : Has (GenPhp.table [sigs]) r) (hp : Reflect.Spec.Part p r)
    (hb : p = .bool ∨ p = .stream ∨ ∃ n ms v, p = .map (.cls n ms) v) : client sigs = none := by
  have h0 : ∀ fuel, eval (GenPhp.table [sigs]) fuel p = none := by
    intro fuel
    cases fuel with
    | zero => rfl
    | succ f =>
      rcases hb with rfl | rfl | ⟨n, ms, v, rfl⟩
      · rfl
      · rfl
      · cases f with
        | zero => rfl
        | succ f =>
          simp only [eval]
          cases AssocMap.find (GenPhp.table [sigs]) n with
          | none => rfl
          | some ms' =>
            simp only [Option.bind_some]
            cases List.mapM (fun m => eval (GenPhp.table [sigs]) f (memRep m)) ms' with
            | none => rfl
            | some l => simp [ordered]
  have h := eval_none hp h0 ht
  rw [client, hn]
  split
  · refine mapM_none hm ?_
    rcases hr with rfl | hr
    · simp [evalSig, h]
    · simp only [evalSig, mapM_none hr (h _)]
      cases eval (GenPhp.table [sigs]) (1 + (client.reps sigs).length) m.2.1 <;> rfl
  · rfl

example : ∃ sigs : List Sig, (GenPhp.nameSigs 0 sigs).2 = sigs ∧
    sigs = [([102], .int true 4, [.arr (.cls [80] [.mk [98] .bool])])] ∧ Has (GenPhp.table [sigs]) (.arr (.cls [80] [.mk [98] .bool])) ∧
    Reflect.Spec.Part .bool (.arr (.cls [80] [.mk [98] .bool])) := by
  refine ⟨_, ?_, rfl, ?_, .inside _ (.cls [80] [.mk [98] .bool]) _
    (.inside _ .bool _ (.self _) (by simp [Reflect.Spec.parts, Reflect.Spec.memType])) (by simp [Reflect.Spec.parts])⟩
  · simp [GenPhp.nameSigs, GenPhp.nameRep, GenPhp.nameReps, GenPhp.nameMems, GenPhp.nameMem]
  · intro n ms h
    have := Reflect.Lemmas.part_traverse h
    simp [Reflect.traverse, Reflect.traverseMems, Reflect.traverseMem] at this
    obtain ⟨rfl, rfl⟩ := this
    rfl

/-- Interfaces that are not accepted although each type is fine: a class without
members; classes called `P` and `p`; a class called `map`; a class `a` with a member
`b_c` and a class `a_b` with a member `c`; a class `call` with a member called as a
method; a class whose name begins with an underscore. -/
theorem bad_names_fatal :
    (client [describe ([102], .cls [.name [80]], [])]).isSome = false ∧
    (client [describe ([102], .cls [.name [80], .member [97] .str], [.cls [.name [112], .member [98] .str]])]).isSome = false ∧
    (client [describe ([102], .cls [.name [109, 97, 112], .member [97] .str], [])]).isSome = false ∧
    (client [describe ([102], .cls [.name [97], .member [98, 95, 99] .str], [.cls [.name [97, 95, 98], .member [99] .str]])]).isSome = false ∧
    (client [describe ([102], .cls [.name [99, 97, 108, 108], .member [102] .str], [])]).isSome = false ∧
    (client [describe ([102], .cls [.name [95, 80], .member [102] .str], [])]).isSome = false ∧
    (client [describe ([102], .cls [.name [80], .member [102] .str], [])]).isSome = true := by
  decide +kernel

/-- Of several interfaces in a file only the first one gets a program; without any
the behaviour is undefined. -/
theorem only_first_interface (r : List Sig) (rs : List (List Sig)) :
    generate (r :: rs) = some (client r) ∧ generate [] = none := ⟨rfl, rfl⟩

/-! ### Calls -/

/-- A call from Haskell, with values that stand for the arguments, to a function of
a server with version 1, on a connection on which nothing is under way: the
function runs once, with these arguments, and Haskell gets a value that stands for
its result, which has no negative integers. Afterwards the connection is as
before, so that the next call can follow. -/
theorem call_partial (E : Rpc.Encoder) (rf : BitVec 64 → BitVec 64) (hrf : Keeps rf) (sv : Rpc.Server) (M : Method) (ws : List Serial.Ty)
    (wr : Serial.Ty) (f : Rpc.Arg (argTy ws) → Rpc.Outcome (Val wr)) (v : Val (pairs ws)) (args : List HV) (r : Val wr)
    (log : List Rpc.Call) (hfit : Each Fits M.args ws) (hret : Fits M.ret wr) (hl : M.name.length < 2 ^ 32)
    (hfree : Rpc.Spec.Free M.name) (hver : sv.version = 1) (hfun : AssocMap.find sv.funcs M.name = some ⟨argTy ws, wr, f⟩)
    (hv : WF (pairs ws) v) (hi : WithinAll M.args ws v) (hs : StandsAll M.args ws v args) (hrun : f (argVal ws v) = .ret r)
    (hr : WF wr r) (hn : Within false M.ret wr r) :
    ∃ p, call E rf sv M args (fresh log) = .ok (.value p, fresh (log ++ [⟨M.name, argTy ws, argVal ws v⟩])) ∧
      Stands M.ret wr r p := by
  obtain ⟨bs, hb⟩ := writeAll_some rf M.args ws hfit v args hs
  have hround := round_args E rf hrf sv hl hfree hver hfun hfit hv hi hs hb
  rw [hrun, Rpc.answer] at hround
  have hsend := Rpc.Lemmas.send_idle_next (log := log) (by simp [Rpc.Lemmas.encStr_ne_nil]) hround
  obtain ⟨p, hp, hst⟩ := read_stands rf hrf M.ret wr hret r (E.enc wr r) [] hr hn (E.ok wr r)
  have hcode := read_text rf Rpc.okMsg (by decide) (E.enc wr r)
  rw [List.append_nil] at hp
  refine ⟨p, ?_, hst⟩
  have he : exchange E sv (Rpc.encStr M.name ++ pack 4 1 ++ bs) (fresh log) =
      .ok ⟨Rpc.encStr Rpc.okMsg ++ E.enc wr r, ⟨[], [], true, true⟩, log ++ [⟨M.name, argTy ws, argVal ws v⟩]⟩ := by
    simp only [exchange, fresh]
    rw [show (⟨[], [], true, true⟩ : Rpc.Conn) = Rpc.Lemmas.idle from rfl, hsend]
    simp only [List.nil_append]
    rfl
  simp only [call, pingPong_ok E rf sv log, request, write_text rf M.name hl, hb, Option.bind_some, Option.map_some, he, hcode,
    isText_text, decide_true, if_true, hp]
  rfl

/-- A server with a function that adds one to a number. -/
def increment (version : BitVec 32) : Rpc.Server :=
  ⟨version, [([105], ⟨argTy [.prim 4 true], .prim 4 true, fun x => .ret (x.1 + 1)⟩)]⟩

example : Each Fits [.int] [.prim 4 true] ∧ Rpc.Spec.Free [105] ∧
    StandsAll [.int] [.prim 4 true] ((-1 : BitVec 32), []) [.int (-1)] ∧ WithinAll [.int] [.prim 4 true] ((-1 : BitVec 32), []) ∧
    Within false .int (.prim 4 true) (-1 + 1 : BitVec 32) ∧
    AssocMap.find (increment 1).funcs [105] = some ⟨argTy [.prim 4 true], .prim 4 true, fun x => .ret (x.1 + 1)⟩ := by
  refine ⟨.cons (by simp [Fits]) .nil, ⟨by decide, by decide⟩, ?_, ?_, ?_, rfl⟩
  · simp only [StandsAll, Stands]
    exact ⟨⟨trivial, rfl⟩, rfl, trivial⟩
  · simp [WithinAll, Within]
  · simp only [Within]
    exact .inr (.inr (by decide))

/-- With any other version of the server no call ever succeeds: a generated client
says that its version is 1. The function does not run. -/
theorem other_version_refused (E : Rpc.Encoder) (rf : BitVec 64 → BitVec 64) (sv : Rpc.Server) (M : Method)
    (f : Rpc.Fn) (args : List HV) (bs : List UInt8) (log : List Rpc.Call) (hl : M.name.length < 2 ^ 32)
    (hfree : Rpc.Spec.Free M.name) (hver : sv.version ≠ 1) (hfun : AssocMap.find sv.funcs M.name = some f)
    (hb : writeAll rf M.args args = some bs) :
    ∃ c, call E rf sv M args (fresh log) =
      .ok (.wrongCode (text (Rpc.mismatchMsg ++ 32 :: Rpc.showInt sv.version.toInt ++ 32 :: Rpc.showInt 1)), c) ∧ c.log = log := by
  have hround := Rpc.Lemmas.round_mismatch E sv false M.name 1 f bs hl hfree hfun (fun h => hver h.symm)
  have hsend := Rpc.Lemmas.send_idle_closed (log := log) hround
  have hlen : (Rpc.mismatchMsg ++ 32 :: Rpc.showInt sv.version.toInt ++ 32 :: Rpc.showInt (1 : BitVec 32).toInt).length < 2 ^ 32 := by
    have h1 := Rpc.Lemmas.showInt_length sv.version
    have h2 := Rpc.Lemmas.showInt_length 1
    simp only [List.length_append, List.length_cons, show Rpc.mismatchMsg.length = 15 from rfl]
    omega
  have hcode := read_text rf (Rpc.mismatchMsg ++ 32 :: Rpc.showInt sv.version.toInt ++ 32 :: Rpc.showInt (1 : BitVec 32).toInt) hlen []
  rw [List.append_nil] at hcode
  have he : exchange E sv (Rpc.encStr M.name ++ pack 4 1 ++ bs) (fresh log) =
      .ok ⟨Rpc.encStr (Rpc.mismatchMsg ++ 32 :: Rpc.showInt sv.version.toInt ++ 32 :: Rpc.showInt (1 : BitVec 32).toInt),
        ⟨[], [], false, true⟩, log⟩ := by
    rw [pack_one]
    simp only [exchange, fresh]
    rw [show (⟨[], [], true, true⟩ : Rpc.Conn) = Rpc.Lemmas.idle from rfl, hsend]
    simp only [List.nil_append]
  have ht : ¬ (Rpc.mismatchMsg ++ 32 :: Rpc.showInt sv.version.toInt ++ 32 :: Rpc.showInt (1 : BitVec 32).toInt) = Rpc.okMsg := by
    simp [Rpc.mismatchMsg, Rpc.okMsg]
  refine ⟨⟨[], ⟨[], [], false, true⟩, log⟩, ?_, rfl⟩
  simp only [call, pingPong_ok E rf sv log, request, write_text rf M.name hl, hb, Option.bind_some, Option.map_some, he, hcode,
    isText_text, decide_eq_true_eq, if_neg ht]
  rfl

example : (increment 2).version ≠ 1 ∧ writeAll id [.int] [.int 3] = some [3, 0, 0, 0] := by decide

/-- A call of a function that the server does not have ends with the answer
`NotFound` and the name. -/
theorem not_found (E : Rpc.Encoder) (rf : BitVec 64 → BitVec 64) (sv : Rpc.Server) (M : Method)
    (args : List HV) (bs : List UInt8) (log : List Rpc.Call) (hl : M.name.length < 2 ^ 31)
    (hfree : Rpc.Spec.Free M.name) (hfun : AssocMap.find sv.funcs M.name = none) (hb : writeAll rf M.args args = some bs) :
    ∃ c, call E rf sv M args (fresh log) = .ok (.wrongCode (text (Rpc.notFoundMsg ++ 32 :: M.name)), c) ∧ c.log = log := by
  have hl' : M.name.length < 2 ^ 32 := by omega
  have hround := Rpc.Lemmas.round_notFound E sv false M.name (pack 4 1 ++ bs) hl' hfree hfun
  have hsend := Rpc.Lemmas.send_idle_closed (log := log) hround
  have hcode := read_text rf (Rpc.notFoundMsg ++ 32 :: M.name)
    (by simp only [List.length_append, List.length_cons, show Rpc.notFoundMsg.length = 8 from rfl]; omega) []
  rw [List.append_nil] at hcode
  have he : exchange E sv (Rpc.encStr M.name ++ pack 4 1 ++ bs) (fresh log) =
      .ok ⟨Rpc.encStr (Rpc.notFoundMsg ++ 32 :: M.name), ⟨[], [], false, true⟩, log⟩ := by
    rw [List.append_assoc]
    simp only [exchange, fresh]
    rw [show (⟨[], [], true, true⟩ : Rpc.Conn) = Rpc.Lemmas.idle from rfl, hsend]
    simp only [List.nil_append]
  have ht : ¬ (Rpc.notFoundMsg ++ 32 :: M.name) = Rpc.okMsg := by
    simp [Rpc.notFoundMsg, Rpc.okMsg]
  refine ⟨⟨[], ⟨[], [], false, true⟩, log⟩, ?_, rfl⟩
  simp only [call, pingPong_ok E rf sv log, request, write_text rf M.name hl', hb, Option.bind_some, Option.map_some, he, hcode,
    isText_text, decide_eq_true_eq, if_neg ht]

example : Rpc.Spec.Free [120] ∧ AssocMap.find (increment 1).funcs [120] = none := ⟨⟨by decide, by decide⟩, rfl⟩

/-- A call of a function that takes an integer of eight bytes never comes back: four
bytes are sent, the server waits for the others, and the client for the answer. -/
theorem eight_bytes_hang (E : Rpc.Encoder) (rf : BitVec 64 → BitVec 64) (sv : Rpc.Server) (name : Str) (ret : HTy)
    (wr : Serial.Ty) (s : Bool) (f : Rpc.Arg (some (.prim 8 s)) → Rpc.Outcome (Val wr)) (i : Int) (log : List Rpc.Call)
    (hl : name.length < 2 ^ 32) (hfree : Rpc.Spec.Free name) (hver : sv.version = 1)
    (hfun : AssocMap.find sv.funcs name = some ⟨some (.prim 8 s), wr, f⟩) :
    call E rf sv ⟨name, ret, [.int]⟩ [.int i] (fresh log) = .error .noData := by
  have hround : Rpc.round E sv false (Rpc.encStr name ++ (toLE 4 (1 : BitVec 32).toNat ++ pack 4 i)) = .blocked := by
    simp only [Rpc.round, Rpc.Lemmas.read_str name [] _ hl, Bool.not_true, Bool.false_eq_true, if_false, if_neg hfree.1, if_neg hfree.2,
      hfun, Rpc.Lemmas.read_int, Bool.false_and, Bool.true_and, decide_eq_true_eq, ne_eq, hver, not_true_eq_false, Rpc.invoke]
    rfl
  have hsend : Rpc.send E sv (Rpc.encStr name ++ (toLE 4 (1 : BitVec 32).toNat ++ pack 4 i)) ⟨[], [], true, true⟩ log =
      .ok (⟨Rpc.encStr name ++ (toLE 4 (1 : BitVec 32).toNat ++ pack 4 i), [], true, true⟩, log) := by
    simp only [Rpc.send, List.nil_append, Rpc.serve, hround, Bool.not_true, Bool.false_eq_true, if_false]
  have hreq : request rf ⟨name, ret, [.int]⟩ [.int i] = some (Rpc.encStr name ++ (toLE 4 (1 : BitVec 32).toNat ++ pack 4 i)) := by
    simp only [request, write_text rf name hl, writeAll, write, pack_one, Option.bind_some, Option.map_some, List.append_nil, List.append_assoc]
  have he : exchange E sv (Rpc.encStr name ++ (toLE 4 (1 : BitVec 32).toNat ++ pack 4 i)) (fresh log) =
      .ok ⟨[], ⟨Rpc.encStr name ++ (toLE 4 (1 : BitVec 32).toNat ++ pack 4 i), [], true, true⟩, log⟩ := by
    simp only [exchange, fresh, hsend, List.append_nil]
  have hnone : read rf (.list .chr) [] = none := by rw [read]; rfl
  simp only [call, pingPong_ok E rf sv log, hreq, he, hnone]

example : ∃ sv : Rpc.Server, sv.version = 1 ∧ Rpc.Spec.Free [104] ∧
    AssocMap.find sv.funcs [104] = some ⟨some (.prim 8 true), .prim 4 true, fun _ => .ret 0⟩ :=
  ⟨⟨1, [([104], ⟨some (.prim 8 true), .prim 4 true, fun _ => .ret 0⟩)]⟩, rfl, ⟨by decide, by decide⟩, rfl⟩

end Verif.GenHs.Props
