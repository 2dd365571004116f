import Verif.HttpStream.Model
import Verif.HttpMsg.Spec
/-! What opening a URL should mean. -/

namespace Verif.HttpStream.Spec
open Verif Verif.Socket Verif.Http Verif.HttpMsg Verif.HttpMsg.Spec
open Verif.CgiServer (ascii)
open Verif.Uri.Spec (Split Valid KnownHost)

/-- An URL of the web: `http://[userinfo@]host[:port]path[?query][#fragment]`, legal, with a host that the parser knows. -/
structure WebUrl (sp : Split) (userinfo : Option Str) (host : Str) (port : Option Str) : Prop where
  valid : Valid sp
  scheme : sp.scheme = some (ascii "http")
  authority : sp.authority = some (userinfo, host, port)
  known : KnownHost host
  plain : Uri.Spec.ch '%' ∉ Uri.Spec.authorityText (userinfo, host, port)

/-- The port of a URL: 80 if there is none, else the number it is the decimal representation of. -/
inductive PortIs : Option Str → Nat → Prop where
  | default : PortIs none 80
  | empty : PortIs (some []) 80
  | given (ds : Str) (n : Nat) : Lexical.Spec.Digits ds n → n < 65536 → PortIs (some ds) n

/-- What the server is asked for: the URL without components that are empty, and with `/` for an empty path. -/
def asked (sp : Split) : Split := Uri.Spec.dropEmpty { sp with path := if sp.path = [] then ascii "/" else sp.path }

/-- The text of the request. -/
def requestText (sp : Split) (userinfo : Option Str) (host : Str) : Str :=
  ascii "GET " ++ Uri.Spec.compose (asked sp) ++ ascii " HTTP/1.1\r\n" ++ ascii "Host: " ++ host ++ ascii "\r\n" ++ ascii "Connection: close\r\n" ++
    (match userinfo with | none => [] | some [] => [] | some ui => ascii "Authorization: Basic " ++ Base64.encode ui ++ ascii "\r\n") ++ ascii "\r\n"

/-- What a server sends up to the end of the connection, as header and body: a body with its length or without one, in chunks, or up to the end of the
connection. -/
inductive Reply : Str → Header → Str → Prop where
  | length (p : Response) : LegalResponse p → Reply (wire (statusText p) p.header p.body) (sentHeader p.header p.body) p.body
  | chunked (p : Response) (hd : Header) (chunks : List Http.Spec.Chunk) (last : Http.Spec.Chunk) (trailer : List Str) : LegalStatus p →
      LegalHeader hd → Http.Spec.fold (field hd transferEncoding) = chunkedWord → (∀ c ∈ chunks, Http.Spec.LegalChunk c) →
      Http.Spec.LegalLine last.digits last.ext → Http.Spec.hexValue last.digits = 0 → (∀ l ∈ trailer, Http.Spec.LegalTrailer l) →
      255 ∉ Http.Spec.content chunks →
      Reply (statusText p ++ [13, 10] ++ Http.Spec.text hd ++ Http.Spec.bodyText chunks last trailer) hd (Http.Spec.content chunks)
  | close (p : Response) (hd : Header) (body : Str) : LegalStatus p → LegalHeader hd → Http.Spec.fold (field hd transferEncoding) ≠ chunkedWord →
      field hd contentLength = [] → Reply (statusText p ++ [13, 10] ++ Http.Spec.text hd ++ body) hd body

end Verif.HttpStream.Spec
