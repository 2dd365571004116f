import Verif.Rpc.Model
/-!
# Specification for remote calls (C54)
-/
namespace Verif.Rpc.Spec
open Verif.Rpc Verif.Serial Verif.Serial.Spec

/-- Arguments that can be serialized. -/
def WFArg : (a : Option Ty) → Arg a → Prop
  | none, _ => True
  | some t, v => WF t v

/-- A request of a client: which function, with which arguments, expecting a result of which type. -/
structure Request where
  name : Str
  arg : Option Ty
  val : Arg arg
  res : Ty

/-- Names that are not messages of the protocol. -/
def Free (name : Str) : Prop := name ≠ pingMsg ∧ name ≠ exitMsg

/-- What a request is to give, and the invocation it is to cause on the server: the result of the function registered under the name, or the
report that there is none, or that the versions differ. -/
inductive Expects (sv : Server) (version : BitVec 32) (q : Request) : Answer (Val q.res) → List Call → Prop
  | value {f r} : AssocMap.find sv.funcs q.name = some ⟨q.arg, q.res, f⟩ → version = sv.version → f q.val = .ret r → WF q.res r →
      Expects sv version q (.value r) [⟨q.name, q.arg, q.val⟩]
  | notFound : AssocMap.find sv.funcs q.name = none → Expects sv version q (.notFound q.name) []
  | mismatch {f} : AssocMap.find sv.funcs q.name = some f → version ≠ sv.version →
      Expects sv version q (.mismatch sv.version.toInt version.toInt) []

/-- White space: tab, line feed, vertical tab, form feed, carriage return, blank. -/
def White : List UInt8 := [9, 10, 11, 12, 13, 32]

/-- Requests within the limits of the format, and whose name `gen_exception` can report: without white space. -/
structure Sound (q : Request) : Prop where
  name : q.name.length + 9 < 2 ^ 32
  free : Free q.name
  noSpace : ∀ c ∈ q.name, c ∉ White
  val : WFArg q.arg q.val

/-- A client between two calls: without a connection, or with an unusable one, or with one on which everything sent has been read. -/
def Ready : Option Conn → Prop
  | none => True
  | some c => c.good = true → c.outbox = [] ∧ (c.up = true → c.inbox = [])

/-- An answer with its type. -/
abbrev AnyAnswer := (res : Ty) × Answer (Val res)

/-- A client making calls one after the other. The bytes of values may differ from call to call. -/
def session (sv : Server) (version : BitVec 32) : List (Encoder × Request) → World → Except Stop (List AnyAnswer × World)
  | [], w => .ok ([], w)
  | (E, q) :: qs, w => do
    let (a, w) ← call E sv true version q.name q.arg q.val q.res w
    let (as, w) ← session sv version qs w
    .ok (⟨q.res, a⟩ :: as, w)

/-- The answers and invocations expected of a list of requests. -/
inductive ExpectsAll (sv : Server) (version : BitVec 32) : List Request → List AnyAnswer → List Call → Prop
  | nil : ExpectsAll sv version [] [] []
  | cons {q qs a as l ls} : Expects sv version q a l → ExpectsAll sv version qs as ls →
      ExpectsAll sv version (q :: qs) (⟨q.res, a⟩ :: as) (l ++ ls)

end Verif.Rpc.Spec
