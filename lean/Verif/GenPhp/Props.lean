import Verif.GenPhp.Lemmas
/-!
# Generated PHP clients and the server (C94)
-/
namespace Verif.GenPhp.Props
open Verif.GenPhp Verif.GenPhp.Spec Verif.GenPhp.Lemmas
open Verif.Serial (Val Writes toLE sizeField)
open Verif.Serial.Spec (WF Shape archive)

/-! ### Values -/

/-- A PHP value that stands for a C++ value can be written, and a C++ program
that reads the bytes gets this C++ value, whatever comes behind them. -/
theorem sends_partial (T : PTy) (w : Serial.Ty) (v old : Val w) (p : PV) (tail : List UInt8) (hf : Fits T w) (hv : WF w v)
    (hs : Stands T w v p) (ho : Shape w old) :
    ∃ bs, write T p = some bs ∧ Serial.read w old (archive (bs ++ tail)) = (v, archive tail) := by
  obtain ⟨bs, hb⟩ := write_some T w hf v p hs
  exact ⟨bs, hb, rt_sent T w hf v bs tail old false hv ⟨p, hs, hb⟩ ho⟩

/-- The map `{"7": -2, "a": 5}`, written by PHP in the other order; the key `"7"` is
a number in PHP. -/
example : Stands (.map .str (.int true 2)) (.map .str (.prim 2 true)) [([55], -2), ([97], 5)]
    (.arr [(.str [97], .int 5), (.int 7, .int (-2))]) ∧ WF (.map .str (.prim 2 true)) [([55], -2), ([97], 5)] := by
  refine ⟨?_, ?_⟩
  · simp only [Stands]
    refine ⟨_, [([97], 5), ([55], -2)], rfl, List.Perm.swap _ _ _, .cons ⟨⟨_, rfl, ?_⟩, ?_⟩ (.cons ⟨⟨_, rfl, ?_⟩, ?_⟩ .nil)⟩
    · rw [asKey, show normKey [97] = .str [97] by decide +kernel]
    · exact ⟨trivial, trivial, rfl⟩
    · rw [asKey, show normKey [55] = .int 7 by decide +kernel]
    · exact ⟨trivial, trivial, rfl⟩
  · simp [WF, Serial.vlt, Serial.listLt]

/-- What a C++ program writes for a value in which no string is empty, PHP reads
as a value that stands for it if it has got all of the bytes, and it takes
exactly these. -/
theorem receives_partial (T : PTy) (w : Serial.Ty) (v : Val w) (bs tail : List UInt8) (net : List (List UInt8)) (hf : Fits T w)
    (hv : WF w v) (hn : NoEmpty w v) (hw : Writes w v bs) :
    ∃ p, read T ⟨bs ++ tail, net⟩ = .ok (p, ⟨tail, net⟩) ∧ Stands T w v p :=
  read_stands T w hf v bs tail net hv hn hw

/-- A vector of classes with a string and a number. -/
example : Fits (.arr (.cls [80] (.cons [110] .str (.cons [105] (.int true 4) .nil))))
    (.vec (.pair .str (.pair (.prim 4 true) (.arr 0 .bool)))) ∧
    WF (.vec (.pair .str (.pair (.prim 4 true) (.arr 0 .bool)))) [([97], -1, []), ([98, 99], 7, [])] ∧
    NoEmpty (.vec (.pair .str (.pair (.prim 4 true) (.arr 0 .bool)))) [([97], -1, []), ([98, 99], 7, [])] := by
  refine ⟨by simp [Fits, FitsMems, memNames], by simp [WF], by simp [NoEmpty]⟩

/-! ### Interfaces -/

/-- If all types of some interfaces are ones that PHP can handle, and different
classes have different names, then each interface gets a client with all its
methods, and the types of the results and arguments fit those on the wire. -/
theorem client_partial (refs : List (List CSig)) (hh : ∀ sigs ∈ refs, ∀ m ∈ sigs, ∀ t ∈ typesOf m, Handled t) (hc : Clear refs) :
    ∃ cs, clients (refs.map (·.map describe)) = cs.map some ∧
      Each (fun sigs ms => Each (fun (m : CSig) (M : Method) => M.name = m.1 ∧
        (∃ w, Reflect.wire m.2.1 = some w ∧ Fits M.ret w) ∧
        Each (fun t T => ∃ w, Reflect.wire t = some w ∧ Fits T w) m.2.2 M.args) sigs ms) refs cs := by
  have hh' : ∀ m ∈ refs.flatten, ∀ t ∈ typesOf m, Handled t := by
    intro m hm
    obtain ⟨s, hs, hms⟩ := List.mem_flatten.1 hm
    exact hh s hs m hms
  have one : ∀ m ∈ refs.flatten, ∀ t ∈ typesOf m, ∃ T, eval (classes 0 (table (refs.map (·.map describe))))
      (1 + ((refs.map (·.map describe)).flatMap reps).length) (Reflect.Spec.desc t) = some T ∧ ∃ w, Reflect.wire t = some w ∧ Fits T w := by
    intro m hm t ht
    obtain ⟨T, w, h1, h2, _, h3⟩ := eval_handled _ t (hh' m hm t ht) (table_has hh' hc hm ht)
    exact ⟨T, h3 _ (by have := size_le hm ht; omega), w, h1, h2⟩
  have sig : ∀ m ∈ refs.flatten, ∃ M, evalSig (classes 0 (table (refs.map (·.map describe))))
      (1 + ((refs.map (·.map describe)).flatMap reps).length) (describe m) = some M ∧ (M.name = m.1 ∧
        (∃ w, Reflect.wire m.2.1 = some w ∧ Fits M.ret w) ∧
        Each (fun t T => ∃ w, Reflect.wire t = some w ∧ Fits T w) m.2.2 M.args) := by
    intro m hm
    obtain ⟨T, h1, h2⟩ := one m hm m.2.1 (List.mem_cons_self ..)
    obtain ⟨l, h3, h4⟩ := mapM_each (l := m.2.2) (f := fun t => eval (classes 0 (table (refs.map (·.map describe))))
      (1 + ((refs.map (·.map describe)).flatMap reps).length) (Reflect.Spec.desc t))
      (fun t ht => one m hm t (List.mem_cons_of_mem _ ht))
    refine ⟨⟨m.1, T, l⟩, ?_, rfl, h2, h4⟩
    simp only [evalSig, describe, h1, Option.bind_some, List.mapM_map]
    rw [show List.mapM (eval _ _ ∘ Reflect.Spec.desc) m.2.2 = some l from h3]
    rfl
  have h0 := nameRefs_handled refs 0 hh
  simp only [clients, h0]
  generalize hG : construct (classes 0 (table (refs.map (·.map describe)))) (1 + ((refs.map (·.map describe)).flatMap reps).length) = G
  have key : ∀ l : List (List CSig), (∀ s ∈ l, s ∈ refs) → ∃ cs, (l.map (·.map describe)).map G = cs.map some ∧
      Each (fun sigs ms => Each (fun (m : CSig) (M : Method) => M.name = m.1 ∧
        (∃ w, Reflect.wire m.2.1 = some w ∧ Fits M.ret w) ∧
        Each (fun t T => ∃ w, Reflect.wire t = some w ∧ Fits T w) m.2.2 M.args) sigs ms) l cs := by
    intro l
    induction l with
    | nil => exact fun _ => ⟨[], rfl, .nil⟩
    | cons s l ih =>
      intro hl
      obtain ⟨cs, h1, h2⟩ := ih (fun x hx => hl x (List.mem_cons_of_mem _ hx))
      obtain ⟨ms, h3, h4⟩ := mapM_each (l := s) (fun m hm => sig m (List.mem_flatten.2 ⟨s, hl s (List.mem_cons_self ..), hm⟩))
      refine ⟨ms :: cs, ?_, .cons h4 h2⟩
      rw [List.map_cons, List.map_cons, h1, List.map_cons, ← hG, construct, List.mapM_map, ← h3]
      rfl
  exact key refs (fun _ h => h)

/-- An interface with a method that takes a class and gives a map. -/
def people : List CSig :=
  [([102], .map .str (.int true 4), [.cls [.name [80], .member [110] .str, .member [97] (.int false 1)], .float 8])]

example : (∀ sigs ∈ [people], ∀ m ∈ sigs, ∀ t ∈ typesOf m, Handled t) ∧ Clear [people] := by
  constructor
  · intro sigs hs m hm t ht
    simp only [people, List.mem_singleton] at hs
    subst hs
    rw [List.mem_singleton] at hm
    subst hm
    simp only [typesOf, List.mem_cons, List.not_mem_nil, or_false] at ht
    have hn : Reflect.Spec.nameOf [.name [80], .member [110] .str, .member [97] (.int false 1)] = [80] := rfl
    rcases ht with rfl | rfl | rfl <;> simp [Handled, HandledBody, KeyTy, hn, bodyNames]
  · intro m hm t ht m' hm' t' ht' n ms ms' h h'
    have h1 := Reflect.Lemmas.part_traverse h
    have h2 := Reflect.Lemmas.part_traverse h'
    simp only [people, List.flatten_cons, List.flatten_nil, List.append_nil, List.mem_singleton] at hm hm'
    subst hm hm'
    simp only [typesOf, List.mem_cons, List.not_mem_nil, or_false] at ht ht'
    rcases ht with rfl | rfl | rfl <;> rcases ht' with rfl | rfl | rfl <;>
      simp_all [Reflect.Spec.desc, Reflect.Spec.descBody, Reflect.traverse, Reflect.traverseMems, Reflect.traverseMem]

/-! ### Calls -/

/-- A call from PHP, with values that stand for the arguments, to a function of a
server with version 1, on a connection on which nothing is under way: the function
runs once, with these arguments, and PHP gets a value that stands for its result.
The result has no empty strings, and the answers of the server come in one piece
each. Afterwards the connection is as before, so that the next call can follow. -/
theorem call_partial (E : Rpc.Encoder) (sv : Rpc.Server) (deliver : List UInt8 → List (List UInt8)) (M : Method) (ws : List Serial.Ty)
    (wr : Serial.Ty) (f : Rpc.Arg (argTy ws) → Rpc.Outcome (Val wr)) (v : Val (pairs ws)) (args : List PV) (r : Val wr)
    (log : List Rpc.Call) (hfit : Each Fits M.args ws) (hret : Fits M.ret wr) (hl : M.name.length < 2 ^ 32)
    (hfree : Rpc.Spec.Free M.name) (hver : sv.version = 1) (hfun : AssocMap.find sv.funcs M.name = some ⟨argTy ws, wr, f⟩)
    (hv : WF (pairs ws) v) (hs : StandsAll M.args ws v args) (hrun : f (argVal ws v) = .ret r) (hr : WF wr r) (hn : NoEmpty wr r)
    (hd : deliver (Rpc.encStr Rpc.pongMsg) = [Rpc.encStr Rpc.pongMsg])
    (hd' : deliver (Rpc.encStr Rpc.okMsg ++ E.enc wr r) = [Rpc.encStr Rpc.okMsg ++ E.enc wr r]) :
    ∃ p, call E sv deliver M args (fresh log) = .ok (.value p, fresh (log ++ [⟨M.name, argTy ws, argVal ws v⟩])) ∧
      Stands M.ret wr r p := by
  obtain ⟨bs, hb⟩ := writeAll_some M.args ws hfit v args hs
  have hround := round_args E sv hl hfree hver hfun hfit hv hs hb
  rw [hrun, Rpc.answer] at hround
  have hsend := Rpc.Lemmas.send_idle_next (log := log) (by rw [writeStr_eq _ hl]; simp [Rpc.Lemmas.encStr_ne_nil]) hround
  obtain ⟨p, hp, hst⟩ := read_stands M.ret wr hret r (E.enc wr r) [] [] hr hn (E.ok wr r)
  have hcode := readStr_piece Rpc.okMsg (by decide) (by decide) (E.enc wr r)
  rw [List.append_nil] at hp
  refine ⟨p, ?_, hst⟩
  have he : exchange E sv deliver (writeStr M.name ++ pack 4 1 ++ bs) (fresh log) =
      .ok ⟨⟨[], [Rpc.encStr Rpc.okMsg ++ E.enc wr r]⟩, ⟨[], [], true, true⟩, log ++ [⟨M.name, argTy ws, argVal ws v⟩]⟩ := by
    simp only [exchange, fresh]
    rw [show (⟨[], [], true, true⟩ : Rpc.Conn) = Rpc.Lemmas.idle from rfl, hsend]
    simp only [hd', List.nil_append]
    rfl
  simp only [call, pingPong_ok E sv deliver log hd, request, hb, Option.map_some, he, hcode,
    show isText (.str Rpc.okMsg) Rpc.okMsg = true by decide, if_true, hp]
  rfl

/-- A server with a function that adds one to a number. -/
def increment (version : BitVec 32) : Rpc.Server :=
  ⟨version, [([105], ⟨argTy [.prim 4 true], .prim 4 true, fun x => .ret (x.1 + 1)⟩)]⟩

example : Each Fits [.int true 4] [.prim 4 true] ∧ Rpc.Spec.Free [105] ∧
    StandsAll [.int true 4] [.prim 4 true] ((-6 : BitVec 32), []) [.int (-6)] ∧
    AssocMap.find (increment 1).funcs [105] = some ⟨argTy [.prim 4 true], .prim 4 true, fun x => .ret (x.1 + 1)⟩ := by
  refine ⟨.cons (by simp [Fits]) .nil, ⟨by decide, by decide⟩, ?_, rfl⟩
  simp only [StandsAll]
  exact ⟨stands_int.2 ⟨rfl, rfl, rfl⟩, rfl, trivial⟩

/-- With any other version of the server no call ever succeeds: a generated client
says that its version is 1. The function does not run. -/
theorem other_version_refused (E : Rpc.Encoder) (sv : Rpc.Server) (deliver : List UInt8 → List (List UInt8)) (M : Method)
    (f : Rpc.Fn) (args : List PV) (bs : List UInt8) (log : List Rpc.Call) (hl : M.name.length < 2 ^ 32)
    (hfree : Rpc.Spec.Free M.name) (hver : sv.version ≠ 1) (hfun : AssocMap.find sv.funcs M.name = some f)
    (hb : writeAll M.args args = some bs) (hd : ∀ bs, deliver bs = [bs]) :
    ∃ c, call E sv deliver M args (fresh log) =
      .ok (.notOk (.str (Rpc.mismatchMsg ++ 32 :: Rpc.showInt sv.version.toInt ++ 32 :: Rpc.showInt 1)), c) ∧ c.log = log := by
  have hround := Rpc.Lemmas.round_mismatch E sv false M.name 1 f bs hl hfree hfun (fun h => hver h.symm)
  have hsend := Rpc.Lemmas.send_idle_closed (log := log) hround
  have hlen : (Rpc.mismatchMsg ++ 32 :: Rpc.showInt sv.version.toInt ++ 32 :: Rpc.showInt (1 : BitVec 32).toInt).length < 2 ^ 32 := by
    have h1 := Rpc.Lemmas.showInt_length sv.version
    have h2 := Rpc.Lemmas.showInt_length 1
    simp only [List.length_append, List.length_cons, show Rpc.mismatchMsg.length = 15 from rfl]
    omega
  have hcode := readStr_piece (Rpc.mismatchMsg ++ 32 :: Rpc.showInt sv.version.toInt ++ 32 :: Rpc.showInt (1 : BitVec 32).toInt)
    (by simp [Rpc.mismatchMsg]) hlen []
  rw [List.append_nil] at hcode
  have he : exchange E sv deliver (writeStr M.name ++ pack 4 1 ++ bs) (fresh log) =
      .ok ⟨⟨[], [Rpc.encStr (Rpc.mismatchMsg ++ 32 :: Rpc.showInt sv.version.toInt ++ 32 :: Rpc.showInt (1 : BitVec 32).toInt)]⟩,
        ⟨[], [], false, true⟩, log⟩ := by
    rw [writeStr_eq _ hl, pack_one]
    simp only [exchange, fresh]
    rw [show (⟨[], [], true, true⟩ : Rpc.Conn) = Rpc.Lemmas.idle from rfl, hsend]
    simp only [hd, List.nil_append]
  have ht : isText (.str (Rpc.mismatchMsg ++ 32 :: Rpc.showInt sv.version.toInt ++ 32 :: Rpc.showInt (1 : BitVec 32).toInt)) Rpc.okMsg = false := by
    simp [isText, Rpc.mismatchMsg, Rpc.okMsg]
  refine ⟨⟨⟨[], []⟩, ⟨[], [], false, true⟩, log⟩, ?_, rfl⟩
  simp only [call, pingPong_ok E sv deliver log (hd _), request, hb, Option.map_some, he, hcode, ht, Bool.false_eq_true, if_false]
  rfl

example : (increment 2).version ≠ 1 ∧ writeAll [.int true 4] [.int 3] = some [3, 0, 0, 0] := by decide

/-! ### What PHP clients cannot do -/

/-- Integers of eight bytes, such as `long` and `int64_t`, are not written at all,
and reading one takes nothing and gives `NULL`. -/
theorem eight_bytes_dropped (s : Bool) (i : Int) (st : St) :
    write (.int s 8) (.int i) = some [] ∧ read (.int s 8) st = .ok (.null, st) := by
  simp [write, writeInt, read, readInt]

/-- So a call of a function that takes one never comes back: the server waits for
the argument, and the client for the answer. -/
theorem eight_bytes_hang (E : Rpc.Encoder) (sv : Rpc.Server) (deliver : List UInt8 → List (List UInt8)) (name : Str) (ret : PTy)
    (wr : Serial.Ty) (s : Bool) (f : Rpc.Arg (some (.prim 8 s)) → Rpc.Outcome (Val wr)) (i : Int) (log : List Rpc.Call)
    (hl : name.length < 2 ^ 32) (hfree : Rpc.Spec.Free name) (hver : sv.version = 1)
    (hfun : AssocMap.find sv.funcs name = some ⟨some (.prim 8 s), wr, f⟩)
    (hd : deliver (Rpc.encStr Rpc.pongMsg) = [Rpc.encStr Rpc.pongMsg]) (hd0 : deliver [] = []) :
    call E sv deliver ⟨name, ret, [.int s 8]⟩ [.int i] (fresh log) = .error .noData := by
  have hround : Rpc.round E sv false (Rpc.encStr name ++ toLE 4 (1 : BitVec 32).toNat) = .blocked := by
    have hi := Rpc.Lemmas.read_int 1 0 []
    rw [List.append_nil] at hi
    simp only [Rpc.round, Rpc.Lemmas.read_str name [] _ hl, Bool.not_true, Bool.false_eq_true, if_false, if_neg hfree.1, if_neg hfree.2,
      hfun, hi, Bool.false_and, Bool.true_and, decide_eq_true_eq, ne_eq, hver, not_true_eq_false, Rpc.invoke]
    rfl
  have hsend : Rpc.send E sv (Rpc.encStr name ++ toLE 4 (1 : BitVec 32).toNat) ⟨[], [], true, true⟩ log =
      .ok (⟨Rpc.encStr name ++ toLE 4 (1 : BitVec 32).toNat, [], true, true⟩, log) := by
    simp only [Rpc.send, List.nil_append, Rpc.serve, hround, Bool.not_true, Bool.false_eq_true, if_false]
  have hreq : request ⟨name, ret, [.int s 8]⟩ [.int i] = some (Rpc.encStr name ++ toLE 4 (1 : BitVec 32).toNat) := by
    simp [request, writeAll, write, writeInt, writeStr_eq name hl, pack_one]
  have he : exchange E sv deliver (Rpc.encStr name ++ toLE 4 (1 : BitVec 32).toNat) (fresh log) =
      .ok ⟨⟨[], []⟩, ⟨Rpc.encStr name ++ toLE 4 (1 : BitVec 32).toNat, [], true, true⟩, log⟩ := by
    simp only [exchange, fresh, hsend, hd0, List.append_nil]
  simp only [call, pingPong_ok E sv deliver log hd, hreq, he]
  rfl

example : ∃ sv : Rpc.Server, sv.version = 1 ∧ Rpc.Spec.Free [104] ∧
    AssocMap.find sv.funcs [104] = some ⟨some (.prim 8 true), .prim 4 true, fun _ => .ret 0⟩ :=
  ⟨⟨1, [([104], ⟨some (.prim 8 true), .prim 4 true, fun _ => .ret 0⟩)]⟩, rfl, ⟨by decide, by decide⟩, rfl⟩

/-- One `bool`, `char` or stream anywhere in one method of an interface, and no
client can be made for the whole interface. -/
theorem missing_type_fatal (tab : List (Str × List (Str × Reflect.Rep))) (fuel : Nat) (sigs : List Sig) (m : Sig) (r p : Reflect.Rep)
    (hm : m ∈ sigs) (hr : r = m.2.1 ∨ r ∈ m.2.2) (ht : Has tab r) (hp : Reflect.Spec.Part p r)
    (hb : p = .bool ∨ p = .char ∨ p = .stream) : construct tab fuel sigs = none := by
  refine mapM_none hm ?_
  have h := eval_none hp hb ht fuel
  rcases hr with rfl | hr
  · simp [evalSig, h]
  · simp only [evalSig, mapM_none hr h]
    cases eval tab fuel m.2.1 <;> rfl

example : ∃ tab : List (Str × List (Str × Reflect.Rep)), Has tab (.arr (.cls [80] [.mk [98] .bool])) ∧
    Reflect.Spec.Part .bool (.arr (.cls [80] [.mk [98] .bool])) := by
  refine ⟨[([80], [([98], .bool)])], ?_, .inside _ (.cls [80] [.mk [98] .bool]) _
    (.inside _ .bool _ (.self _) (by simp [Reflect.Spec.parts, Reflect.Spec.memType])) (by simp [Reflect.Spec.parts])⟩
  intro n ms h
  have := Reflect.Lemmas.part_traverse h
  simp [Reflect.traverse, Reflect.traverseMems, Reflect.traverseMem] at this
  obtain ⟨rfl, rfl⟩ := this
  rfl

/-- A method without any `bool` cannot be called either if another one of the
interface has one. -/
theorem one_bool_spoils : (clients [[describe ([102], .int true 4, [.int true 4]), describe ([103], .bool, [])]]).map Option.isSome = [false] ∧
    (clients [[describe ([102], .int true 4, [.int true 4])]]).map Option.isSome = [true] := by
  decide +kernel

/-- A C++ `float` has four bytes, but the client writes the eight bytes of a PHP number: the server
takes the lower half of the bits as its `float`, and the upper half as what comes next. -/
theorem single_precision_wrong (s : Bool) (b : BitVec 64) (old : Val (.prim 4 s)) (tail : List UInt8) :
    ∃ bs, write .float (.float b) = some bs ∧ Serial.read (.prim 4 s) old (archive (bs ++ tail)) =
      (BitVec.ofNat 32 b.toNat, archive (toLE 4 (b.toNat / 2 ^ 32) ++ tail)) := by
  refine ⟨toLE 8 b.toNat, by rw [write], ?_⟩
  have h : toLE 8 b.toNat = toLE 4 (b.toNat % 2 ^ 32) ++ toLE 4 (b.toNat / 2 ^ 32) := by
    rw [toLE_mod, ← toLE_split]
  have h2 := Serial.Lemmas.readPrim_toLE (n := 4) (v := b.toNat % 2 ^ 32)
    (by have := Nat.mod_lt b.toNat (show 0 < 2 ^ 32 by decide); omega) old.toNat (toLE 4 (b.toNat / 2 ^ 32) ++ tail) false
  simp only [Serial.read, archive, h, List.append_assoc, h2, Prod.mk.injEq, and_true]
  apply BitVec.eq_of_toNat_eq
  simp

/-- So 1.0 arrives as 0.0. -/
example : BitVec.ofNat 32 (0x3ff0000000000000 : BitVec 64).toNat = 0 := by decide

/-- An empty string is read as `FALSE`. -/
theorem empty_string_false (tail : List UInt8) (net : List (List UInt8)) :
    read .str ⟨Rpc.encStr [] ++ tail, net⟩ = .ok (.false, ⟨tail, net⟩) := by
  rw [encStr_eq [] (by decide)]
  simp only [read, readStr, List.length_nil, List.append_assoc, List.nil_append, unpack_size]
  rfl

/-- A string whose length comes with a first part `a`, then a second part `b` and
then the rest is cut off before the rest, which is taken for what
comes next. -/
theorem split_string_cut (a b c : List UInt8) (net : List (List UInt8)) (hc : c ≠ []) (hl : (a ++ b ++ c).length < 2 ^ 32) :
    Rpc.encStr (a ++ b ++ c) = (sizeField (a ++ b ++ c).length ++ a) ++ b ++ c ∧
    read .str ⟨sizeField (a ++ b ++ c).length ++ a, b :: c :: net⟩ = .ok (.str (a ++ b), ⟨[], c :: net⟩) := by
  refine ⟨by rw [encStr_eq _ hl]; simp only [List.append_assoc], ?_⟩
  have h1 : 0 < c.length := List.length_pos_iff.2 hc
  simp only [read, readStr, unpack_size, Nat.mod_eq_of_lt hl]
  simp only [List.length_append] at h1 ⊢
  simp only [fread, if_neg (show ¬ a.length + b.length + c.length = 0 by omega),
    if_neg (show ¬ a.length + b.length + c.length ≤ a.length by omega)]
  rw [List.take_of_length_le (show b.length ≤ a.length + b.length + c.length - a.length by omega),
    List.drop_eq_nil_of_le (show b.length ≤ a.length + b.length + c.length - a.length by omega)]

example : ([1] ++ [2] ++ [3] : List UInt8).length < 2 ^ 32 := by decide

/-- A string of more than 16384 bytes is never read whole: PHP takes at most
8192 bytes from the system at a time. -/
theorem long_string_cut (st st' : St) (s : Str) (hs : Small st) (hr : read .str st = .ok (.str s, st')) : s.length ≤ 16384 := by
  simp only [read, readStr] at hr
  split at hr
  · cases hr
  · rename_i n s' h
    have h' : Small s' := unpack_small hs h
    split at hr
    · cases hr
    · rename_i bs s'' hf
      simp only [Except.ok.injEq, Prod.mk.injEq, PV.str.injEq] at hr
      obtain ⟨rfl, -⟩ := hr
      exact fread_length h' hf
    · cases hr

example : Small ⟨List.replicate 8192 97, [List.replicate 8192 98]⟩ := by
  refine ⟨by rw [List.length_replicate]; omega, ?_⟩
  intro p hp
  rw [List.mem_singleton.1 hp, List.length_replicate]
  omega

/-- A map with classes as keys is read as an empty array: all entries are dropped. -/
theorem class_keys_dropped (n : Str) (ms : PMems) (t : PTy) (st st' : St) (p : PV) (hr : read (.map (.cls n ms) t) st = .ok (p, st')) :
    p = .arr [] := by
  simp only [read] at hr
  split at hr
  · cases hr
  · rename_i k s' _
    split at hr
    · cases hr
    · rename_i es s'' h
      simp only [Except.ok.injEq, Prod.mk.injEq] at hr
      obtain ⟨rfl, -⟩ := hr
      rw [readMap_cls n ms t k [] s' es s'' h]

example : ∃ st', read (.map (.cls [80] (.cons [105] (.int true 1) .nil)) (.int true 1)) ⟨[1, 0, 0, 0, 5, 6], []⟩ = .ok (.arr [], st') :=
  ⟨⟨[], []⟩, rfl⟩

/-- Two entries of a map whose keys are floating point numbers with the same
whole part become one. -/
theorem float_keys_merge (a b : BitVec 64) (x y : UInt8) (i : Int) (tail : List UInt8) (net : List (List UInt8))
    (ha : truncate a = some i) (hb : truncate b = some i) (hi : -2 ^ 63 ≤ i ∧ i < 2 ^ 63) :
    read (.map .float (.int false 1)) ⟨sizeField 2 ++ (toLE 8 a.toNat ++ ([x] ++ (toLE 8 b.toNat ++ ([y] ++ tail)))), net⟩ =
      .ok (.arr [(.int i, .int y.toNat)], ⟨tail, net⟩) := by
  have one : ∀ (z : UInt8) (tail : List UInt8), read (.int false 1) ⟨[z] ++ tail, net⟩ = .ok (.int z.toNat, ⟨tail, net⟩) := by
    intro z tail
    have e : [z] = toLE 1 z.toNat := by simp [toLE]
    rw [e]
    have := z.toNat_lt
    simp only [read, readInt, unpack_toLE (show 0 < 1 by decide) (show z.toNat < 256 ^ 1 by omega)]
    rfl
  have flt : ∀ (b : BitVec 64) (tail : List UInt8), read .float ⟨toLE 8 b.toNat ++ tail, net⟩ = .ok (.float b, ⟨tail, net⟩) := by
    intro b tail
    have := b.isLt
    simp only [read, unpack_toLE (show 0 < 8 by decide) (show b.toNat < 256 ^ 8 by omega), BitVec.ofNat_toNat, BitVec.setWidth_eq]
  have hk : ∀ c, truncate c = some i → asKey (.float c) = .key (.int i) := by
    intro c hc
    simp only [asKey, hc, if_pos hi]
  rw [read]
  simp only [unpack_size, show 2 % 2 ^ 32 = 2 from rfl, readMap, flt, one, hk a ha, hk b hb, put, if_true]

/-- The keys 1.25 and 1.5. -/
example : truncate 0x3ff4000000000000 = some 1 ∧ truncate 0x3ff8000000000000 = some 1 := by decide +kernel

/-- Two interfaces that are put into one file, each with a class called `P`: the
client of the first takes the members of the second one's class. -/
theorem same_name_mixed :
    (clients [[describe ([102], .cls [.name [80], .member [97] (.int true 4)], [])],
      [describe ([103], .cls [.name [80], .member [98] .str], [])]]).map (fun c => c.map fun ms => ms.map fun m =>
        match m.ret with
        | .cls n ms => (n, memNames ms)
        | _ => ([], [])) =
    [some [([80], [[98]])], some [([80], [[98]])]] := by
  decide +kernel

/-- A call of a function that the server does not have ends with the answer
`NotFound` and the name. -/
theorem not_found (E : Rpc.Encoder) (sv : Rpc.Server) (deliver : List UInt8 → List (List UInt8)) (M : Method)
    (args : List PV) (bs : List UInt8) (log : List Rpc.Call) (hl : M.name.length < 2 ^ 31)
    (hfree : Rpc.Spec.Free M.name) (hfun : AssocMap.find sv.funcs M.name = none)
    (hb : writeAll M.args args = some bs) (hd : ∀ bs, deliver bs = [bs]) :
    ∃ c, call E sv deliver M args (fresh log) = .ok (.notOk (.str (Rpc.notFoundMsg ++ 32 :: M.name)), c) ∧ c.log = log := by
  have hl' : M.name.length < 2 ^ 32 := by omega
  have hround := Rpc.Lemmas.round_notFound E sv false M.name (pack 4 1 ++ bs) hl' hfree hfun
  have hsend := Rpc.Lemmas.send_idle_closed (log := log) hround
  have hcode := readStr_piece (Rpc.notFoundMsg ++ 32 :: M.name) (by simp [Rpc.notFoundMsg])
    (by simp only [List.length_append, List.length_cons, show Rpc.notFoundMsg.length = 8 from rfl]; omega) []
  rw [List.append_nil] at hcode
  have he : exchange E sv deliver (writeStr M.name ++ pack 4 1 ++ bs) (fresh log) =
      .ok ⟨⟨[], [Rpc.encStr (Rpc.notFoundMsg ++ 32 :: M.name)]⟩, ⟨[], [], false, true⟩, log⟩ := by
    rw [writeStr_eq _ hl', List.append_assoc]
    simp only [exchange, fresh]
    rw [show (⟨[], [], true, true⟩ : Rpc.Conn) = Rpc.Lemmas.idle from rfl, hsend]
    simp only [hd, List.nil_append]
  have ht : isText (.str (Rpc.notFoundMsg ++ 32 :: M.name)) Rpc.okMsg = false := by
    simp [isText, Rpc.notFoundMsg, Rpc.okMsg]
  refine ⟨⟨⟨[], []⟩, ⟨[], [], false, true⟩, log⟩, ?_, rfl⟩
  simp only [call, pingPong_ok E sv deliver log (hd _), request, hb, Option.map_some, he, hcode, ht, Bool.false_eq_true, if_false]

example : Rpc.Spec.Free [120] ∧ AssocMap.find (increment 1).funcs [120] = none := ⟨⟨by decide, by decide⟩, rfl⟩

end Verif.GenPhp.Props
