import Verif.CgiRun.Model
import Verif.Cgi.Spec
/-! What a program under CGI or FastCGI should see, and what should become of its answers. -/
namespace Verif.CgiRun.Spec
open Verif Verif.AssocMap Verif.CgiServer Verif.CgiRun
open Verif.Socket (Str)
open Verif.Cgi.Spec (formText Item Holds HoldsFiles Part Entry bodyText Preamble Describes Undisturbed)

/-- A call of a program by a web server: variables and input. -/
structure Call where
  vars : List (Str × Str)
  body : Str

/-- The strings of the environment. -/
def Call.strings (c : Call) : List Str := c.vars.map fun e => e.1 ++ [61] ++ e.2

/-- A call that can be made: names without `=`, each once. -/
structure Call.Legal (c : Call) : Prop where
  names : ∀ e ∈ c.vars, 61 ∉ e.1
  once : (c.vars.map (·.1)).Nodup

/-- The value of a variable. -/
def Call.Has (c : Call) (k v : Str) : Prop := (k, v) ∈ c.vars

/-- What a call carries, as a condition on the form values that the program finds: the items of the query if it is a GET; the items of the body, or the
values and files in it, if it is a POST that is not too long; nothing otherwise. -/
inductive Carries (c : Call) (max : Nat) : (Cgi.St → Prop) → Prop where
  | get (is : List Item) (ps : List (Str × Str)) : c.Has (ascii "REQUEST_METHOD") (ascii "GET") → c.Has (ascii "QUERY_STRING") (formText is) →
      List.Forall₂ Item.Means is ps → Carries c max fun f => Holds f ps ∧ f.file = [] ∧ f.info = []
  | post (is : List Item) (ps : List (Str × Str)) (rest type : Str) : c.Has (ascii "REQUEST_METHOD") (ascii "POST") → c.body = formText is ++ rest →
      c.Has (ascii "CONTENT_LENGTH") (Decimal.digits (formText is).length) → List.Forall₂ Item.Means is ps → (formText is).length ≤ max →
      c.Has (ascii "CONTENT_TYPE") type → ¬ ascii "multipart/" <:+: type → Carries c max fun f => Holds f ps ∧ f.file = [] ∧ f.info = []
  | upload (b pre post rest : Str) (ps : List Part) (es : List Entry) : c.Has (ascii "REQUEST_METHOD") (ascii "POST") → c.body = bodyText b pre ps post ++ rest →
      c.Has (ascii "CONTENT_LENGTH") (Decimal.digits (bodyText b pre ps post).length) → (bodyText b pre ps post).length ≤ max →
      c.Has (ascii "CONTENT_TYPE") (ascii "multipart/form-data; boundary=" ++ b) → 10 ∉ b → Preamble b pre →
      List.Forall₂ Describes ps es → (∀ p ∈ ps, Undisturbed b p.text) →
      Carries c max fun f => Holds f (es.filterMap Entry.pair) ∧ HoldsFiles f ps es
  | other (m : Str) : c.Has (ascii "REQUEST_METHOD") m → m ≠ ascii "GET" → m ≠ ascii "POST" → Carries c max fun f => f = {}
  | bare : (∀ m, ¬ c.Has (ascii "REQUEST_METHOD") m) → Carries c max fun f => f = {}

/-- The variables that the program finds: those of the call, and others at most with an empty value. -/
structure Sees (c : Call) (env : Env) : Prop where
  given : ∀ k v, c.Has k v → find env k = some v
  others : ∀ k, (∀ v, ¬ c.Has k v) → find env k = none ∨ find env k = some []

/-- A request of FastCGI for a call. -/
def requestOf (c : Call) (room : Nat) : Request := ⟨c.strings, c.body, room⟩

/-- Calls one after the other, each of a program under CGI that has the state that the last left: all answers up to the first exception, and whether there was one. -/
def oneByOne {σ : Type} (p : Program σ) : σ → List Call → List Str × Bool
  | _, [] => ([], false)
  | st, c :: cs =>
    match runCgi p st c.strings c.body with
    | (_, none) => ([], true)
    | (st, some out) => (out :: (oneByOne p st cs).1, (oneByOne p st cs).2)

end Verif.CgiRun.Spec
