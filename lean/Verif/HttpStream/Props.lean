import Verif.HttpStream.LemmasServer
/-! C66: a stream made from a URL gives the resource. -/

namespace Verif.HttpStream.Props
open Verif Verif.AssocMap Verif.Socket Verif.Http Verif.HttpMsg Verif.HttpStream Verif.HttpStream.Spec Verif.HttpStream.Lemmas
open Verif.HttpMsg.Spec hiding requestText
open Verif.CgiServer (ascii Program Place serve startHeader)
open Verif.CgiServer.Spec (Answer LegalAnswer answered)
open Verif.Cgi.Spec (formText Item Holds)
open Verif.Socket.Spec (fresh Accepts Delivers)
open Verif.Uri.Spec (Split compose)

/-- C66, part: opening a URL connects to its host at its port, asks it for the URL and nothing else, and then gives the header fields and, however it is
read, the body that the server sends. A part, as the host must be one that the parser knows (see C46), and for chunks see C53. -/
theorem fetched_partial (net : Str → Nat → Net) (k : Kernel) (ha : Accepts k) (hd : Delivers k) (sp : Split) (userinfo : Option Str) (host : Str)
    (port : Option Str) (n : Nat) (h : WebUrl sp userinfo host port) (hp : PortIs port n) (hn : (net host n).answers = true) (header : Header) (body : Str)
    (hr : Reply (net host n).incoming header body) (fuel : Nat) (hf : (net host n).incoming.length < fuel) (ops : List BOp) :
    ∃ g s, visit net k fuel (compose sp) ops = (.ok (g, Http.Spec.takes ops body), some s) ∧ (∀ name, field g name = field header name)
      ∧ s.wire = requestText sp userinfo host ∧ s.wr = [] := by
  obtain ⟨g, t, r1, r2, r3⟩ := reply_received hr fuel hf
  obtain ⟨s, h1, h2, h3⟩ := visited ha hd h hp hn fuel r1 r3 ops
  exact ⟨g.header, s, h1, r2, h2, h3⟩

/-- C66: if the host does not answer, there is an exception. -/
theorem no_answer (net : Str → Nat → Net) (k : Kernel) (sp : Split) (userinfo : Option Str) (host : Str)
    (port : Option Str) (n : Nat) (h : WebUrl sp userinfo host port) (hp : PortIs port n) (hn : (net host n).answers = false) (fuel : Nat) (ops : List BOp) :
    visit net k fuel (compose sp) ops = (.error .connect, none) := by
  obtain ⟨m1, m2, m3, m4⟩ := members h
  have hcon : (Socket.connect (net host n) Socket.new).1 = false := by
    unfold Socket.connect Socket.dial
    rw [hn]
    rfl
  have hc : construct net k fuel (compose sp) = (.error .connect, none) := by
    unfold construct
    rw [parsed h]
    dsimp only
    rw [if_neg (by rw [m1]; simp), port_of m4 hp]
    dsimp only
    rw [m3]
    rcases hx : Socket.connect (net host n) Socket.new with ⟨b, s⟩
    rw [hx] at hcon
    cases hcon
    rfl
  unfold visit
  rw [hc]

/-- C66: a URL with another scheme is refused, without any connection. -/
theorem other_scheme (net : Str → Nat → Net) (k : Kernel) (sp : Split) (hv : Uri.Spec.Valid sp) (scheme : Str) (hs : sp.scheme = some scheme)
    (hne : scheme ≠ ascii "http")
    (ha : ∀ ui h po, sp.authority = some (ui, h, po) → Uri.Spec.KnownHost h ∧ Uri.Spec.ch '%' ∉ Uri.Spec.authorityText (ui, h, po)) (fuel : Nat)
    (ops : List BOp) : visit net k fuel (compose sp) ops = (.error .scheme, none) := by
  have hc : construct net k fuel (compose sp) = (.error .scheme, none) := by
    unfold construct Uri.uri
    rw [Uri.Props.parse_complete_partial sp hv ha]
    have : (Uri.Spec.parts sp).scheme = scheme := by unfold Uri.Spec.parts; rw [hs]; rfl
    have hn : scheme ≠ [] := by
      obtain ⟨c, t, rfl, _⟩ := hv.1 scheme hs
      simp
    dsimp only
    rw [this, if_pos ⟨hne, hn⟩]
  unfold visit
  rw [hc]

/-- C66: client and server of the library together. When the URL names a web server of the library that runs the program `p`, whatever requests came
before, the program is called with the path, the host and the form values of the URL, and what it writes is what the reader of the stream gets. -/
theorem from_server_partial {σ : Type} (p : Program σ) (hmax : p.maxLength < 2 ^ 64) (st0 : σ) (earlier : List (Place × Kernel × Str)) (at_ : Place)
    (ks kc : Kernel) (has : Accepts ks) (hds : Delivers ks) (hac : Accepts kc) (hdc : Delivers kc) (sp : Split) (userinfo : Option Str) (host : Str)
    (port : Option Str) (n : Nat) (h : WebUrl sp userinfo host port) (hp : PortIs port n) (hlen : (compose (asked sp)).length ≤ 2000)
    (is : List Item) (ps : List (Str × Str)) (hq : sp.query.getD [] = formText is) (hi : List.Forall₂ Item.Means is ps)
    (net : Str → Nat → Net) (hn : (net host n).answers = true)
    (hnet : serve p st0 (earlier ++ [(at_, ks, requestText sp userinfo host)]) = serve p st0 earlier ++ [(net host n).incoming]) :
    ∃ st v, (∀ cs, serve p st0 (earlier ++ cs) = serve p st0 earlier ++ serve p st cs)
      ∧ Holds v.form ps ∧ v.method = ascii "GET"
      ∧ find v.env (ascii "SCRIPT_NAME") = some (if sp.path = [] then ascii "/" else sp.path)
      ∧ find v.env (ascii "QUERY_STRING") = some (sp.query.getD [])
      ∧ (find v.env (ascii "HTTP_HOST")).getD [] = host
      ∧ ∀ hd out code reason, (p.run st v startHeader).2 = some (hd, out) → LegalMessage hd out → Answer hd code reason → LegalAnswer code reason →
        ∀ fuel ops, hd.length + 2 < fuel →
          ∃ g s, visit net kc fuel (compose sp) ops = (.ok (g, Http.Spec.takes ops out), some s)
            ∧ (∀ name, Http.Spec.fold name ≠ Http.Spec.fold contentLength → field g name = answered hd name)
            ∧ s.wire = requestText sp userinfo host := by
  have e : Uri.Spec.parts (asked sp) = Uri.Spec.parts (slashed sp) := Uri.Lemmas.parts_dropEmpty _
  have equery : (seen sp).uri.query = sp.query.getD [] := by
    show (Uri.Spec.parts (asked sp)).query = _
    rw [e]
    rfl
  have epath : (seen sp).uri.path = if sp.path = [] then ascii "/" else sp.path := by
    show (Uri.Spec.parts (asked sp)).path = _
    rw [e]
    rfl
  obtain ⟨m1, m2, m3, m4⟩ := members h
  have ehost : field (sentHeader (seen sp).header (seen sp).body) (ascii "Host") = host := by
    have hb : sentHeader (seen sp).header (seen sp).body = (seen sp).header := by
      unfold sentHeader
      exact if_pos (.inl rfl)
    rw [hb, seen_header]
    unfold requestFor
    dsimp only
    rw [m2, m3]
    split <;> rfl
  obtain ⟨st, v, s1, s2, s3, s4, s5⟩ := CgiServer.Props.served_partial p hmax st0 earlier [] at_ ks has hds (seen sp) (asked sp) (seen_legal h hlen) [] _
    (.get is ps rfl (by rw [equery, hq]) hi)
  refine ⟨st, v, s1, s2.1, s3, by rw [s4.script, epath], by rw [s4.query, equery], ?_, fun hd out code reason h1 h2 h3 h4 fuel ops hf => ?_⟩
  · have hf := s4.fields (ascii "Host")
    have he : ascii "HTTP_" ++ CgiServer.Spec.upper (ascii "Host") = ascii "HTTP_HOST" := by decide +kernel
    rw [he, ehost] at hf
    exact hf
  · obtain ⟨w, g1, g2⟩ := s5 hd out code reason h1 h2 h3 h4
    rw [List.append_nil, seen_wire h, hnet] at g2
    have hw : (net host n).incoming = w := by
      have := List.append_cancel_left g2
      simpa [serve] using this
    have hg : ∀ ops, ∃ g, ((receiveResponse fuel ops).flat w).1 = .ok (g, .ok (Http.Spec.takes ops out))
        ∧ ∀ name, Http.Spec.fold name ≠ Http.Spec.fold contentLength → field g.header name = answered hd name := by
      intro ops
      obtain ⟨g, e1, _, _, _, e5, _⟩ := g1 ks fuel ops hds hf
      refine ⟨g, ?_, e5⟩
      rw [← e1]
      exact ((Prog.socket_eq_flat ks hds (HttpMsg.Lemmas.reads_recvResponse fuel ops) w).1).symm
    obtain ⟨g, t, r1, r2, r3⟩ := received hg
    rw [← hw] at r1
    obtain ⟨s, v1, v2, _⟩ := visited hac hdc h hp hn fuel r1 r3 ops
    exact ⟨g.header, s, v1, r2, v2⟩

/-! ### Concrete cases -/

/-- `http://me:pw@10.0.0.1:8080?a=1`. -/
def url : Split := ⟨some (ascii "http"), some (some (ascii "me:pw"), ascii "10.0.0.1", some (ascii "8080")), [], some (ascii "a=1"), none⟩

theorem url_host : Uri.Spec.Ipv4 (ascii "10.0.0.1") :=
  ⟨ascii "10", ascii "0", ascii "0", ascii "1", ⟨10, by decide, by decide +kernel⟩, ⟨0, by decide, by decide +kernel⟩,
    ⟨0, by decide, by decide +kernel⟩, ⟨1, by decide, by decide +kernel⟩, by decide +kernel⟩

theorem url_web : WebUrl url (some (ascii "me:pw")) (ascii "10.0.0.1") (some (ascii "8080")) := by
  refine ⟨⟨?_, ⟨?_, .inr (.inl url_host), ?_, ?_, .nil⟩, ?_, ?_⟩, rfl, rfl, .inr (.inl url_host), by decide +kernel⟩
  · rintro s ⟨⟩
    exact ⟨Uri.Spec.ch 'h', ascii "ttp", by decide +kernel, by decide +kernel, fun d hd => (Uri.Lemmas.scheme_iff d).mp (by revert d; decide +kernel)⟩
  · rintro s ⟨⟩
    exact Uri.Lemmas.coded_of_all (fun c hc => (Uri.Lemmas.infoChar_iff c).mp (by revert c; decide +kernel))
  · rintro s ⟨⟩
    intro c hc
    exact (Uri.Lemmas.isDigit_iff c).mp (by revert c; decide +kernel)
  · intro c hc
    cases hc
  · rintro s ⟨⟩
    exact .char (Uri.Spec.ch 'a') (Or.inl (by decide +kernel)) (.char (Uri.Spec.ch '=') (Or.inl (by decide +kernel))
      (.char (Uri.Spec.ch '1') (Or.inl (by decide +kernel)) .nil))
  · rintro s ⟨⟩

example : PortIs (some (ascii "8080")) 8080 :=
  .given _ _ (.more (s := ascii "808") (n := 808) 48 (.more (s := ascii "80") (n := 80) 56 (.more (s := ascii "8") (n := 8) 48 (.one 56 (by decide) (by decide))
    (by decide) (by decide)) (by decide) (by decide)) (by decide) (by decide)) (by decide)

example : compose url = ascii "http://me:pw@10.0.0.1:8080?a=1"
    ∧ requestText url (some (ascii "me:pw")) (ascii "10.0.0.1")
      = ascii "GET http://me:pw@10.0.0.1:8080/?a=1 HTTP/1.1\r\nHost: 10.0.0.1\r\nConnection: close\r\nAuthorization: Basic bWU6cHc=\r\n\r\n" := by
  decide +kernel

example : url.query.getD [] = formText [Cgi.Spec.encoded (ascii "a", ascii "1")] ∧ (compose (asked url)).length ≤ 2000 := by decide +kernel

/-- A network in which one host answers, at one port. -/
def only (host : Str) (port : Nat) (text : Str) : Str → Nat → Net := fun h p =>
  if h = host ∧ p = port then { incoming := text } else { answers := false }

/-- A kernel that moves 7 bytes at a time. -/
def k7 : Kernel := ⟨fun _ => 7, fun _ => 7⟩

example : Accepts k7 ∧ Delivers k7 := ⟨fun _ => (by decide : (0 : Int) < 7), fun _ => (by decide : (0 : Int) < 7)⟩

/-- What a visit gives, and what it sends. -/
def view (r : Except Fail (Header × List (Option UInt8)) × Option St) : Except Fail (List (Option UInt8)) × Option Str := (r.1.map (·.2), r.2.map (·.wire))

/-- A response with the length, one in chunks, and one up to the end of the connection. -/
example : (["Content-Length: 2\r\n\r\nhi", "Transfer-Encoding: chunked\r\n\r\n1\r\nh\r\n1\r\ni\r\n0\r\n\r\n", "X: y\r\n\r\nhi"].map fun t =>
      view (visit (only (ascii "a") 80 (ascii "HTTP/1.1 200 OK\r\n" ++ ascii t)) k7 99 (ascii "http://a/") [.take, .peek, .take, .take]))
    = List.replicate 3 (.ok [some 104, some 105, some 105, none],
      some (ascii "GET http://a/ HTTP/1.1\r\nHost: a\r\nConnection: close\r\n\r\n")) := by decide +kernel

/-- The server of the library, and the stream. -/
example : (serve CgiServer.Props.echo 0 [(CgiServer.Props.here, k7, requestText url (some (ascii "me:pw")) (ascii "10.0.0.1"))]).map (fun w =>
      (view (visit (only (ascii "10.0.0.1") 8080 w) k7 99 (compose url) [.take, .take])).1) = [.ok [some 49, none]] := by
  decide +kernel

example : view (visit (only (ascii "a") 80 []) k7 9 (ascii "http://b/") []) = (.error .connect, none)
    ∧ view (visit (only (ascii "a") 80 []) k7 9 (ascii "https://a/") []) = (.error .scheme, none)
    ∧ view (visit (only (ascii "a") 80 []) k7 9 (ascii "http://a:99999999999/") []) = (.error .port, none) := by decide +kernel

/-! ### What goes wrong -/

/-- Finding: the port is taken modulo 65536: `http://a:65616/` is got from port 80. -/
theorem port_wraps : (view (visit (only (ascii "a") 80 (ascii "HTTP/1.1 200 OK\r\n\r\nx")) k7 9 (ascii "http://a:65616/") [.take])).1 = .ok [some 120] := by
  decide +kernel

/-- Finding: the fragment is sent, and so is the user information, in clear. -/
theorem too_much_sent : (view (visit (only (ascii "a") 80 (ascii "HTTP/1.1 200 OK\r\n\r\nx")) k7 9 (ascii "http://u:p@a/#f") [])).2
    = some (ascii "GET http://u:p@a/#f HTTP/1.1\r\nHost: a\r\nConnection: close\r\nAuthorization: Basic dTpw\r\n\r\n") := by decide +kernel

/-- Finding: a URL without scheme is taken, and its request line is not a legal one. -/
theorem no_scheme : view (visit (only (ascii "a") 80 (ascii "HTTP/1.1 200 OK\r\n\r\nx")) k7 9 (ascii "//a/b") [.take])
    = (.ok [some 120], some (ascii "GET a/b HTTP/1.1\r\nHost: a\r\nConnection: close\r\n\r\n")) := by decide +kernel

/-- Finding: a scheme in capitals, which is the same, is refused. -/
theorem capitals_refused : (view (visit (only (ascii "a") 80 (ascii "HTTP/1.1 200 OK\r\n\r\nx")) k7 9 (ascii "HTTP://a/") [.take])).1 = .error .scheme := by
  decide +kernel

/-- Finding: the host is sent without its port. -/
theorem host_without_port : (view (visit (only (ascii "a") 8080 (ascii "HTTP/1.1 200 OK\r\n\r\nx")) k7 9 (ascii "http://a:8080/") [])).2
    = some (ascii "GET http://a:8080/ HTTP/1.1\r\nHost: a\r\nConnection: close\r\n\r\n") := by decide +kernel

/-- Finding: a text that is no URL is taken for an empty one: the host with the empty name is asked, if there is one. -/
theorem bad_url : (view (visit (only [] 80 (ascii "HTTP/1.1 200 OK\r\n\r\nx")) k7 9 (ascii "http://a b") [.take])).1 = .ok [some 120] := by decide +kernel

/-- Finding: a body that is cut short is read as if it were whole. -/
theorem cut_short : (view (visit (only (ascii "a") 80 (ascii "HTTP/1.1 200 OK\r\nContent-Length: 5\r\n\r\nx")) k7 9 (ascii "http://a/") [.take, .take])).1
    = .ok [some 120, none] := by decide +kernel

/-- Finding: an error page is read as if it were the resource: the caller cannot see the status. -/
theorem error_page : (view (visit (only (ascii "a") 80 (ascii "HTTP/1.1 404 Not Found\r\n\r\nx")) k7 9 (ascii "http://a/") [.take])).1 = .ok [some 120] := by
  decide +kernel

/-- Finding: the host of an IPv6 address is looked for with its brackets. -/
theorem brackets : (view (visit (only (ascii "[0001:0002::0003:0004:0005:10.0.0.1]") 80 (ascii "HTTP/1.1 200 OK\r\n\r\nx")) k7 9 (ascii "http://[0001:0002::0003:0004:0005:10.0.0.1]/") [.take])).1 = .ok [some 120] := by
  decide +kernel

end Verif.HttpStream.Props
