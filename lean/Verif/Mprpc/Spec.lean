import Verif.Mprpc.Model
/-!
# Specification for MessagePack-RPC (C55)
-/
namespace Verif.Mprpc.Spec
open Verif.Mprpc

/-- Requests within the limits of the format. -/
def ReqFits (name : Str) (param : Obj) : Prop := name.length < 2 ^ 32 ∧ Fits (depth - 1) param

/-- Functions whose results and messages are within the limits of the format, if the parameter is. -/
def FuncsFit (fs : Funcs) : Prop := ∀ name f, fs name = some f → ∀ param as, Fits (depth - 1) param → paramAs f.args param = .ok as →
  (∀ r, f.run as = .ret r → Fits (depth - 1) (f.res.pack r)) ∧ ∀ what, f.run as = .exc what → what.length < 2 ^ 32

/-- What is asked of the events: calls are within the limits of the format, and are begun only while fewer than 2^32 ids are outstanding; and a
message is not given up after a part of it has been written. -/
def Clean (s : State) : Event → Prop
  | .call name param => ReqFits name param ∧ ∀ i ∈ s.pending ++ s.queue, s.calls.length < i + 2 ^ 32
  | .cut => ∀ id rest, s.phase = .writing id rest → ∃ c, s.calls.getLast? = some c ∧ rest = pack (reqObj id c.1 c.2)
  | .stake (some n) => n = 0
  | _ => True

/-- The states that such events lead to. -/
inductive Reach (fs : Funcs) : State → Prop
  | new : Reach fs new
  | step {s s' e} : Reach fs s → Clean s e → step fs s e = some s' → Reach fs s'

/-- Further such events. -/
inductive Later (fs : Funcs) : State → State → Prop
  | refl (s) : Later fs s s
  | step {s s' s'' e} : Later fs s s' → Clean s' e → step fs s' e = some s'' → Later fs s s''

/-- Types whose values survive packing and conversion. -/
def Lawful (t : Ty) : Prop := ∀ a, t.conv (t.pack a) = some a

/-- What a call of a registered function with given arguments is to give. -/
inductive Expects (f : Fn) (as : Args f.args) : Answer f.res.T → Prop
  | value {r} : f.run as = .ret r → Expects f as (.value r)
  | exc {what} : f.run as = .exc what → Expects f as (.error (.raw what))

abbrev Calls := List (Str × Obj)

/-- The functions invoked for call `i`: one, or none. -/
def invoked (fs : Funcs) (cs : Calls) (i : Nat) : List Call :=
  match cs[i]? with
  | some c =>
    match handle fs c.1 c.2 with
    | .reply _ _ l => l
    | .silent l => l
    | _ => []
  | none => []

/-- Nothing is under way, and nobody has a message to read. -/
def Quiet (s : State) : Prop := s.toServer = [] ∧ s.toClient = [] ∧ hungry s.sbuf = true ∧ hungry s.cbuf = true

end Verif.Mprpc.Spec
