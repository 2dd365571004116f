import Verif.RpcFault.Model
import Verif.Rpc.Spec
/-!
# Specification: calls through connections that break
-/
namespace Verif.RpcFault.Spec
open Verif.RpcFault
open Verif.Serial Verif.Serial.Spec
open Verif.Rpc (Str Encoder Server Call Fn Arg Stop Answer Outcome)
open Verif.Rpc.Spec (Request WFArg Free AnyAnswer)

/-- A client between two calls: its connection is unusable and no longer served, or everything sent has been read. -/
def Ready : Option Link → Prop
  | none => True
  | some l => (l.good = true → l.outbox = [] ∧ (l.up = true → l.inbox = [])) ∧ (l.good = false → l.up = false)

/-- Types that can be carried in part without undefined behaviour. -/
def ArgNoJunk : Option Ty → Prop
  | none => True
  | some t => NoJunk t

/-- Requests within the limits of the format, to a function that has the types the client thinks it has, does not end
with an exception other than `rpc_error`, and whose results can be carried. -/
structure Sound (sv : Server) (q : Request) : Prop where
  name : q.name.length + 9 < 2 ^ 32
  free : Free q.name
  val : WFArg q.arg q.val
  arg : ArgNoJunk q.arg
  res : NoJunk q.res
  typed : ∀ f, AssocMap.find sv.funcs q.name = some f → ∃ run : Arg q.arg → Outcome (Val q.res), f = ⟨q.arg, q.res, run⟩ ∧
    run q.val ≠ .other ∧ ∀ r, run q.val = .ret r → WF q.res r

/-- The call that a request asks for. -/
def asked (q : Request) : Call := ⟨q.name, q.arg, q.val⟩

/-- What may come of a call: the answer to the client, and what the server has done. -/
structure Explains (sv : Server) (version : BitVec 32) (q : Request) (a : Answer (Val q.res)) (l : List Call) : Prop where
  /-- The function is called once or not at all, -/
  atMostOnce : l = [] ∨ l = [asked q]
  /-- only if there is one, -/
  exists_ : l = [asked q] → ∃ f, AssocMap.find sv.funcs q.name = some f
  /-- and, if it has arguments, only if the versions agree. -/
  versions : l = [asked q] → q.arg ≠ none → version = sv.version
  /-- A result is the result of that call. -/
  value : ∀ r, a = .value r → l = [asked q] ∧ ∃ run, AssocMap.find sv.funcs q.name = some ⟨q.arg, q.res, run⟩ ∧ run q.val = .ret r
  /-- What the client is told about a call that was not made is true. -/
  noConnection : a = .noConnection → l = []
  notFound : ∀ n, a = .notFound n → l = [] ∧ AssocMap.find sv.funcs q.name = none
  mismatch : ∀ i j, a = .mismatch i j → l = [] ∧ version ≠ sv.version

/-- Which connection a call ends up with, and how many bytes it carries in each direction: the one at hand, or, if the server has closed that,
one made in the second attempt; or, if the one at hand is unusable or there is none, one made in the first attempt, or in the second if the
first was refused. -/
inductive Gets : Option Link → Plan → Plan → Nat → Nat → Prop
  | kept {l p₁ p₂ a b} : l.good = true → l.up = true → l.toServer = a → l.toClient = b → Gets (some l) p₁ p₂ a b
  | expired {l p₁ a b} : l.good = true → l.up = false → Gets (some l) p₁ (some (a, b)) a b
  | first {c p₂ a b} : (∀ l, c = some l → l.good = false) → Gets c (some (a, b)) p₂ a b
  | second {c a b} : (∀ l, c = some l → l.good = false) → Gets c none (some (a, b)) a b

/-- A step of a session: the server may close the connection at hand, as its time has run out, and then a call is made. -/
structure Step where
  E : Encoder
  q : Request
  idle : Bool
  p₁ : Plan
  p₂ : Plan
  stuck : Bool

/-- The connection at hand is closed by the server. -/
def expire (E : Encoder) (sv : Server) (w : World) : Except Stop World :=
  match w.conn with
  | none => .ok w
  | some l => do
    let (l, log) ← finish E sv l w.log
    .ok ⟨some l, log⟩

/-- What happens before the call of a step. -/
def before (s : Step) (sv : Server) (w : World) : Except Stop World := if s.idle then expire s.E sv w else .ok w

/-- A client making calls one after the other, over connections that break. -/
def session (sv : Server) (timeout : Bool) (version : BitVec 32) : List Step → World → Except Stop (List AnyAnswer × World)
  | [], w => .ok ([], w)
  | s :: ss, w => do
    let w ← before s sv w
    let (a, w) ← call s.E sv timeout s.p₁ s.p₂ s.stuck version s.q.name s.q.arg s.q.val s.q.res w
    let (as, w) ← session sv timeout version ss w
    .ok (⟨s.q.res, a⟩ :: as, w)

/-- The answers and calls of a session explained one by one. -/
inductive ExplainsAll (sv : Server) (version : BitVec 32) : List Request → List AnyAnswer → List Call → Prop
  | nil : ExplainsAll sv version [] [] []
  | cons {q qs a as l ls} : Explains sv version q a l → ExplainsAll sv version qs as ls →
      ExplainsAll sv version (q :: qs) (⟨q.res, a⟩ :: as) (l ++ ls)

end Verif.RpcFault.Spec
