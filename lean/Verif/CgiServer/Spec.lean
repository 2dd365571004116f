import Verif.CgiServer.Model
import Verif.HttpMsg.Spec
import Verif.Cgi.Spec
/-! What a client of the server should get, and what the program should see. -/

namespace Verif.CgiServer.Spec
open Verif Verif.AssocMap Verif.Socket Verif.Http Verif.HttpMsg Verif.HttpMsg.Spec Verif.CgiServer
open Verif.Http.Spec (fold Space Legal)
open Verif.Socket.Spec (fresh Delivers)
open Verif.Cgi.Spec (fieldOf formText Item Holds HoldsFiles Part Entry bodyText Preamble Describes Undisturbed)

/-! ### From the program to the client -/

/-- What the header of a program says about the answer: the status it gives, or 302 if it names another location, or 200. -/
inductive Answer (h : Header) : Int → Str → Prop where
  | status (code : Int) (space reason : Str) : fieldOf h (ascii "Status") = some (Lexical.put code ++ space ++ reason) →
      (∀ c ∈ space, Space c) → (space = [] → reason = []) → (∀ c ∈ reason.head?, ¬ Space c) → 0 ∉ space ++ reason → Answer h code reason
  | found (l : Str) : fieldOf h (ascii "Status") = none → fieldOf h (ascii "Location") = some l → Answer h 302 (ascii "Found")
  | ok : fieldOf h (ascii "Status") = none → fieldOf h (ascii "Location") = none → Answer h 200 (ascii "OK")

/-- The fields of the answer: those of the program, but for the status; HTML is the default type. -/
def answered (h : Header) (n : Str) : Str :=
  if fold n = fold (ascii "Status") then []
  else if fold n = fold (ascii "Content-Type") then (fieldOf h n).getD (ascii "text/html; charset=utf-8")
  else (fieldOf h n).getD []

/-- A code and a reason that can be sent. -/
structure LegalAnswer (code : Int) (reason : Str) : Prop where
  codeFits : Lexical.Spec.Fits Lexical.int32 code
  reasonLine : 10 ∉ reason ∧ ∀ c ∈ reason.head?, ¬ Space c
  short : reason.length ≤ 4000

/-- What a client should get: the code, the reason, the fields and the body, however it reads them, over any kernel that does not fail. -/
def Gets (w : Str) (h : Header) (out : Str) (code : Int) (reason : Str) : Prop :=
  ∀ (k : Kernel) (fuel : Nat) (ops : List BOp), Delivers k → h.length + 2 < fuel →
    ∃ g, ((receiveResponse fuel ops).run (step k) (fresh w)).1 = .ok (g, .ok (Http.Spec.takes ops out)) ∧ g.version = (1, 1) ∧ g.code = some code
      ∧ g.reason = reason ∧ (∀ n, fold n ≠ fold contentLength → field g.header n = answered h n)
      ∧ (out ≠ [] → field g.header contentLength = Lexical.put out.length)

/-- The header of an error page. -/
def errorHeader : Header := [(ascii "Content-Type", ascii "text/plain; charset=utf-8"), (ascii "Status", ascii "500 Internal Server Error")]

/-! ### From the client to the program -/

/-- What a request carries, as a condition on the form values that the program finds: the items of its query if it is a GET; the items of its body, or
the values and files in it, if it is a POST that is not too long. -/
inductive Carries (q : Request) (max : Nat) : (Cgi.St → Prop) → Prop where
  | get (is : List Item) (ps : List (Str × Str)) : q.method = ascii "GET" → q.uri.query = formText is → List.Forall₂ Item.Means is ps →
      Carries q max fun f => Holds f ps ∧ f.file = [] ∧ f.info = []
  | post (is : List Item) (ps : List (Str × Str)) : q.method = ascii "POST" → q.body = formText is → List.Forall₂ Item.Means is ps →
      q.body.length ≤ max → ¬ ascii "multipart/" <:+: field q.header (ascii "Content-Type") →
      Carries q max fun f => Holds f ps ∧ f.file = [] ∧ f.info = []
  | upload (b pre post : Str) (ps : List Part) (es : List Entry) : q.method = ascii "POST" → q.body = bodyText b pre ps post →
      q.body.length ≤ max → field q.header (ascii "Content-Type") = ascii "multipart/form-data; boundary=" ++ b → 10 ∉ b → Preamble b pre →
      List.Forall₂ Describes ps es → (∀ p ∈ ps, Undisturbed b p.text) →
      Carries q max fun f => Holds f (es.filterMap Entry.pair) ∧ HoldsFiles f ps es
  | other : q.method ≠ ascii "GET" → q.method ≠ ascii "POST" → Carries q max fun f => f = {}

/-- The letters a to z in upper case. -/
def upper (s : Str) : Str := s.map fun c => if 97 ≤ c ∧ c ≤ 122 then c - 32 else c

/-- The variables of a request. -/
structure Variables (env : Env) (at_ : Place) (q : Request) : Prop where
  method : find env (ascii "REQUEST_METHOD") = some q.method
  uri : find env (ascii "REQUEST_URI") = some (if q.uri.query = [] then q.uri.path else q.uri.path ++ [63] ++ q.uri.query)
  script : find env (ascii "SCRIPT_NAME") = some q.uri.path
  query : find env (ascii "QUERY_STRING") = some q.uri.query
  length : find env (ascii "CONTENT_LENGTH") = some (field (sentHeader q.header q.body) contentLength)
  type : find env (ascii "CONTENT_TYPE") = some (field q.header (ascii "Content-Type"))
  remote : find env (ascii "REMOTE_ADDR") = some at_.remoteAddr ∧ find env (ascii "REMOTE_PORT") = some (Lexical.put at_.remotePort)
  server : find env (ascii "SERVER_PORT") = some (Lexical.put at_.port) ∧ find env (ascii "SERVER_PROTOCOL") = some (ascii "HTTP/1.1")
  fields : ∀ n, (find env (ascii "HTTP_" ++ upper n)).getD [] = field (sentHeader q.header q.body) n

end Verif.CgiServer.Spec
