import Verif.HttpMsg.LemmasSend
import Verif.Http.Props
import Verif.Util
/-! C63: HTTP messages survive the wire. -/

namespace Verif.HttpMsg.Props
open Verif.Socket Verif.Http Verif.HttpMsg Verif.HttpMsg.Spec Verif.HttpMsg.Lemmas

def str (s : String) : Str := s.toList.map Uri.Spec.ch

/-- `send` on a new connection. -/
def sendingRequest (k : Kernel) (q : Request) : Except SendErr Unit × St := (sendRequest q).run (step k) (Socket.Spec.fresh [])

/-- `send` on a new connection. -/
def sendingResponse (k : Kernel) (p : Response) : Except SendErr Unit × St := (sendResponse p).run (step k) (Socket.Spec.fresh [])

/-! ### Sending -/

/-- If the kernel takes what it is given, in whatever pieces, `send` succeeds and the message is on the wire: its first line, the header with the
length of the body, the body. -/
theorem message_on_wire (k : Kernel) (hk : Socket.Spec.Accepts k) (q : Request) (p : Response) :
    ((sendingRequest k q).1 = .ok () ∧ (sendingRequest k q).2.wire = wire (requestText q) q.header q.body)
      ∧ ((sendingResponse k p).1 = .ok () ∧ (sendingResponse k p).2.wire = wire (statusText p) p.header p.body) := by
  unfold sendingRequest sendRequest sendingResponse sendResponse
  rw [requestLine_eq, statusLine_eq]
  exact ⟨sent_accepts k hk _ _ _ _, sent_accepts k hk _ _ _ _⟩

/-- Whatever the kernel does, the other side gets a beginning of the message and nothing else. -/
theorem beginning_on_wire (k : Kernel) (q : Request) (p : Response) :
    (sendingRequest k q).2.wire <+: wire (requestText q) q.header q.body
      ∧ (sendingResponse k p).2.wire <+: wire (statusText p) p.header p.body := by
  unfold sendingRequest sendRequest sendingResponse sendResponse
  rw [requestLine_eq, statusLine_eq]
  exact ⟨sent_beginning k _ _ _ _, sent_beginning k _ _ _ _⟩

/-- Whatever the kernel does: if `send` does not throw, the whole message is on the wire. Proved for messages with a body; for others it is false,
see `lost_unreported`. -/
theorem success_partial (k : Kernel) (q : Request) (p : Response) :
    (q.body ≠ [] → (sendingRequest k q).1 = .ok () → (sendingRequest k q).2.wire = wire (requestText q) q.header q.body)
      ∧ (p.body ≠ [] → (sendingResponse k p).1 = .ok () → (sendingResponse k p).2.wire = wire (statusText p) p.header p.body) := by
  unfold sendingRequest sendRequest sendingResponse sendResponse
  rw [requestLine_eq, statusLine_eq]
  exact ⟨fun hb hk => sent_ok_body k _ _ _ _ hb hk, fun hb hk => sent_ok_body k _ _ _ _ hb hk⟩

/-- Finding: `header::send` does not look at the result of its last call. A message without a body whose text has 8192 or 8193 bytes is lost on a
connection that is broken, and `send` reports success. -/
theorem lost_unreported (q : Request) (hb : q.body = [])
    (hl : (wire (requestText q) q.header q.body).length = 8192 ∨ (wire (requestText q) q.header q.body).length = 8193) :
    (sendingRequest refuses q).1 = .ok () ∧ (sendingRequest refuses q).2.wire = [] := by
  rw [hb] at hl
  have e : Socket.bufSize = 8192 := rfl
  unfold sendingRequest sendRequest
  rw [requestLine_eq, hb]
  exact message_lost _ _ _ (by omega) (by omega)

example : ∃ q : Request, q.body = [] ∧ (wire (requestText q) q.header q.body).length = 8192 := by
  refine ⟨⟨str "GET", { path := str "/" }, (1, 0), [(str "A", List.replicate 4000 65), (str "B", List.replicate 4000 66), (str "C", List.replicate 159 67)], []⟩, rfl, ?_⟩
  have h1 : (requestText ⟨str "GET", { path := str "/" }, (1, 0), [(str "A", List.replicate 4000 65), (str "B", List.replicate 4000 66), (str "C", List.replicate 159 67)], []⟩).length = 14 := by
    simp only [requestText]
    decide +kernel
  simp only [wire, List.length_append, h1, sentHeader, true_or, if_true, Http.Spec.text, List.length_replicate]
  decide +kernel

/-! ### Receiving -/

/-- A request that was sent is received: method, URI, version, every field, and the body, however it is read; what follows on the connection stays
there. Proved for messages with a body, or at the end of the stream; otherwise it is false, see `empty_body_wrong`. -/
theorem request_received_partial (q : Request) (sp : Uri.Spec.Split) (h : LegalRequest q sp) (rest : Str) (hr : q.body ≠ [] ∨ rest = [])
    (ops : List BOp) (fuel : Nat) (hf : q.header.length + 1 < fuel) :
    ∃ g s, (receiveRequest fuel ops).flat (wire (requestText q) q.header q.body ++ rest) = (.ok (g, .ok (Http.Spec.takes ops q.body)), s)
      ∧ g.method = q.method ∧ g.uri = q.uri ∧ g.version = q.version
      ∧ (∀ n, field g.header n = field (sentHeader q.header q.body) n)
      ∧ (∃ x, s = x ++ rest) ∧ (none ∈ Http.Spec.takes ops q.body → s = rest) :=
  recv_request h rest hr ops fuel hf

/-- The same for a response: version, code, reason. -/
theorem response_received_partial (p : Response) (h : LegalResponse p) (rest : Str) (hr : p.body ≠ [] ∨ rest = [])
    (ops : List BOp) (fuel : Nat) (hf : p.header.length + 1 < fuel) :
    ∃ g s, (receiveResponse fuel ops).flat (wire (statusText p) p.header p.body ++ rest) = (.ok (g, .ok (Http.Spec.takes ops p.body)), s)
      ∧ g.version = p.version ∧ g.code = some p.code ∧ g.reason = p.reason
      ∧ (∀ n, field g.header n = field (sentHeader p.header p.body) n)
      ∧ (∃ x, s = x ++ rest) ∧ (none ∈ Http.Spec.takes ops p.body → s = rest) :=
  recv_response h rest hr ops fuel hf

/-- From end to end, over two sockets with any kernels that cut the data into any pieces: if `send` does not throw (and there is a body, or the
sending kernel does not fail), and the receiving kernel does not fail, the request arrives. -/
theorem request_end_to_end_partial (q : Request) (sp : Uri.Spec.Split) (h : LegalRequest q sp) (ops : List BOp) (fuel : Nat)
    (hf : q.header.length + 1 < fuel) (k k' : Kernel) (hk : (sendingRequest k q).1 = .ok ()) (hb : q.body ≠ [] ∨ Socket.Spec.Accepts k)
    (hk' : Socket.Spec.Delivers k') :
    ∃ g, ((receiveRequest fuel ops).run (step k') (Socket.Spec.fresh (sendingRequest k q).2.wire)).1 = .ok (g, .ok (Http.Spec.takes ops q.body))
      ∧ g.method = q.method ∧ g.uri = q.uri ∧ g.version = q.version ∧ (∀ n, field g.header n = field (sentHeader q.header q.body) n) := by
  have hw : (sendingRequest k q).2.wire = wire (requestText q) q.header q.body := by
    rcases hb with hb | ha
    · exact (success_partial k q ⟨(1, 0), 0, [], [], []⟩).1 hb hk
    · exact (message_on_wire k ha q ⟨(1, 0), 0, [], [], []⟩).1.2
  obtain ⟨g, s, h1, h2, h3, h4, h5, _⟩ := request_received_partial q sp h [] (.inr rfl) ops fuel hf
  refine ⟨g, ?_, h2, h3, h4, h5⟩
  rw [hw, (Prog.socket_eq_flat k' hk' (reads_recvRequest fuel ops) _).1]
  rw [List.append_nil] at h1
  rw [h1]

/-- The same for a response. -/
theorem response_end_to_end_partial (p : Response) (h : LegalResponse p) (ops : List BOp) (fuel : Nat)
    (hf : p.header.length + 1 < fuel) (k k' : Kernel) (hk : (sendingResponse k p).1 = .ok ()) (hb : p.body ≠ [] ∨ Socket.Spec.Accepts k)
    (hk' : Socket.Spec.Delivers k') :
    ∃ g, ((receiveResponse fuel ops).run (step k') (Socket.Spec.fresh (sendingResponse k p).2.wire)).1 = .ok (g, .ok (Http.Spec.takes ops p.body))
      ∧ g.version = p.version ∧ g.code = some p.code ∧ g.reason = p.reason
      ∧ (∀ n, field g.header n = field (sentHeader p.header p.body) n) := by
  have hw : (sendingResponse k p).2.wire = wire (statusText p) p.header p.body := by
    rcases hb with hb | ha
    · exact (success_partial k ⟨[], {}, (1, 0), [], []⟩ p).2 hb hk
    · exact (message_on_wire k ha ⟨[], {}, (1, 0), [], []⟩ p).2.2
  obtain ⟨g, s, h1, h2, h3, h4, h5, _⟩ := response_received_partial p h [] (.inr rfl) ops fuel hf
  refine ⟨g, ?_, h2, h3, h4, h5⟩
  rw [hw, (Prog.socket_eq_flat k' hk' (reads_recvResponse fuel ops) _).1]
  rw [List.append_nil] at h1
  rw [h1]

/-- A response in chunks is received, with its body, however the sender has cut it; what follows stays on the connection. The byte 255 must not be
in the body, see `Http.Props.chunked_eof_wrong`. -/
theorem response_chunked_partial (p : Response) (h : LegalStatus p) (hd : Header) (hl : LegalHeader hd)
    (ht : Http.Spec.fold (field hd transferEncoding) = chunkedWord) (chunks : List Http.Spec.Chunk) (last : Http.Spec.Chunk) (trailer : List Str)
    (rest : Str) (ops : List BOp) (fuel : Nat) (hc : ∀ c ∈ chunks, Http.Spec.LegalChunk c) (hlast : Http.Spec.LegalLine last.digits last.ext)
    (hz : Http.Spec.hexValue last.digits = 0) (htr : ∀ l ∈ trailer, Http.Spec.LegalTrailer l) (h255 : 255 ∉ Http.Spec.content chunks)
    (hf : hd.length < fuel ∧ trailer.length < fuel) :
    ∃ g s, (receiveResponse fuel ops).flat (statusText p ++ [13, 10] ++ Http.Spec.text hd ++ Http.Spec.bodyText chunks last trailer ++ rest)
        = (.ok (g, .ok (Http.Spec.takes ops (Http.Spec.content chunks))), s)
      ∧ g.version = p.version ∧ g.code = some p.code ∧ g.reason = p.reason ∧ (∀ n, field g.header n = field hd n)
      ∧ (none ∈ Http.Spec.takes ops (Http.Spec.content chunks) → s = rest) := by
  obtain ⟨h', e1, e2⟩ := bodyOf_chunked ht
  obtain ⟨b, s, r1, r2⟩ := Http.Props.chunked_body_partial chunks last trailer rest ops fuel hc hlast hz htr hf.2 h255
  have r3 : (Body.run fuel ops (.chunked {})).flat (Http.Spec.bodyText chunks last trailer ++ rest)
      = (.ok (Http.Spec.takes ops (Http.Spec.content chunks)), s) := by
    unfold Body.run
    rw [Http.Lemmas.flat_bind_eq r1]
    rfl
  refine ⟨⟨p.version, some p.code, p.reason, h', .chunked {}⟩, s, ?_, rfl, rfl, rfl, e2, r2⟩
  have := recv_response_at h hl e1 _ ops fuel hf.1 r3
  rw [← this]
  simp

/-- The same for a request. -/
theorem request_chunked_partial (q : Request) (sp : Uri.Spec.Split) (h : LegalFirst q sp) (hsh : (requestText q).length + 2 ≤ 4096) (hd : Header)
    (hl : LegalHeader hd) (ht : Http.Spec.fold (field hd transferEncoding) = chunkedWord) (chunks : List Http.Spec.Chunk) (last : Http.Spec.Chunk)
    (trailer : List Str) (rest : Str) (ops : List BOp) (fuel : Nat) (hc : ∀ c ∈ chunks, Http.Spec.LegalChunk c)
    (hlast : Http.Spec.LegalLine last.digits last.ext) (hz : Http.Spec.hexValue last.digits = 0) (htr : ∀ l ∈ trailer, Http.Spec.LegalTrailer l)
    (h255 : 255 ∉ Http.Spec.content chunks) (hf : hd.length < fuel ∧ trailer.length < fuel) :
    ∃ g s, (receiveRequest fuel ops).flat (requestText q ++ [13, 10] ++ Http.Spec.text hd ++ Http.Spec.bodyText chunks last trailer ++ rest)
        = (.ok (g, .ok (Http.Spec.takes ops (Http.Spec.content chunks))), s)
      ∧ g.method = q.method ∧ g.uri = q.uri ∧ g.version = q.version ∧ (∀ n, field g.header n = field hd n)
      ∧ (none ∈ Http.Spec.takes ops (Http.Spec.content chunks) → s = rest) := by
  obtain ⟨h', e1, e2⟩ := bodyOf_chunked ht
  obtain ⟨b, s, r1, r2⟩ := Http.Props.chunked_body_partial chunks last trailer rest ops fuel hc hlast hz htr hf.2 h255
  have r3 : (Body.run fuel ops (.chunked {})).flat (Http.Spec.bodyText chunks last trailer ++ rest)
      = (.ok (Http.Spec.takes ops (Http.Spec.content chunks)), s) := by
    unfold Body.run
    rw [Http.Lemmas.flat_bind_eq r1]
    rfl
  refine ⟨⟨q.method, q.uri, q.version, h', .chunked {}⟩, s, ?_, rfl, rfl, rfl, e2, r2⟩
  have := recv_request_at h hsh hl e1 _ ops fuel hf.1 r3
  rw [← this]
  simp

/-- A response that tells neither a length nor chunks: its body is everything up to the end of the connection. -/
theorem response_until_close (p : Response) (h : LegalStatus p) (hd : Header) (hl : LegalHeader hd)
    (ht : Http.Spec.fold (field hd transferEncoding) ≠ chunkedWord) (hn : field hd contentLength = []) (body : Str) (ops : List BOp) (fuel : Nat)
    (hf : hd.length < fuel) :
    ∃ g, ((receiveResponse fuel ops).flat (statusText p ++ [13, 10] ++ Http.Spec.text hd ++ body)).1 = .ok (g, .ok (Http.Spec.takes ops body))
      ∧ g.version = p.version ∧ g.code = some p.code ∧ g.reason = p.reason ∧ (∀ n, field g.header n = field hd n) := by
  obtain ⟨h', e1, e2⟩ := bodyOf_raw ht hn
  refine ⟨⟨p.version, some p.code, p.reason, h', .raw none⟩, ?_, rfl, rfl, rfl, e2⟩
  have := recv_response_at h hl e1 body ops fuel hf (r := .ok (Http.Spec.takes ops body)) (s := ((Body.run fuel ops (.raw none)).flat body).2)
    (Prod.ext (raw_all fuel ops body) rfl)
  rw [List.append_assoc, this]

example : Http.Spec.fold (field [(str "A", str "b"), (str "transfer-encoding", str "Chunked")] transferEncoding) = chunkedWord := by decide +kernel

example : ((receiveResponse 9 [.take, .take, .take]).flat (str "HTTP/1.1 200 OK\r\nTransfer-Encoding: chunked\r\n\r\n2\r\nab\r\n0\r\n\r\n")).1
    = .ok (⟨(1, 1), some 200, str "OK", [(str "Transfer-Encoding", str "chunked")], .chunked {}⟩, .ok [some 97, some 98, none]) := by decide +kernel

example : ((receiveResponse 9 [.peek, .take, .take]).flat (str "HTTP/1.1 200 OK\r\n\r\na")).1
    = .ok (⟨(1, 1), some 200, str "OK", [(str "Transfer-Encoding", []), (str "Content-Length", [])], .raw none⟩, .ok [some 97, some 97, none]) := by
  decide +kernel

/-- A request with everything in it. -/
def sampleRequest : Request :=
  ⟨str "POST", Uri.Spec.parts Uri.Props.sample, (1, 1), [(str "Host", str "a:80"), (str "Accept", str "*/*")], str "x=1\r\n"⟩

theorem sample_message : LegalMessage sampleRequest.header sampleRequest.body := by
  refine ⟨⟨?_, by decide +kernel⟩, by decide +kernel, by decide +kernel, by decide +kernel⟩
  have h1 : Http.Spec.Legal (str "Host", str "a:80") :=
    ⟨by decide +kernel, by unfold Http.Spec.Space; decide +kernel, by decide +kernel, by unfold Http.Spec.Space; decide +kernel, by decide +kernel⟩
  have h2 : Http.Spec.Legal (str "Accept", str "*/*") :=
    ⟨by decide +kernel, by unfold Http.Spec.Space; decide +kernel, by decide +kernel, by unfold Http.Spec.Space; decide +kernel, by decide +kernel⟩
  intro e he
  rcases List.mem_cons.1 he with rfl | he
  · exact h1
  · rw [List.mem_singleton.1 he]; exact h2

example : LegalRequest sampleRequest Uri.Props.sample :=
  ⟨⟨⟨by decide +kernel, by unfold Http.Spec.Space; decide +kernel⟩, ⟨rfl, Uri.Props.sample_valid.1⟩, Uri.Props.sample_valid.2,
    ⟨rfl, by decide +kernel⟩, by unfold Lexical.Spec.Fits; decide +kernel⟩, by decide +kernel, sample_message⟩

example : wire (requestText sampleRequest) sampleRequest.header sampleRequest.body
    = str "POST http://me@[0001:0002::0003:0004:0005:10.0.0.1]:80/%41?b HTTP/1.1\r\nHost: a:80\r\nAccept: */*\r\nContent-Length: 5\r\n\r\nx=1\r\n" := by
  decide +kernel

example : LegalResponse ⟨(1, 1), 404, str "Not Found", sampleRequest.header, sampleRequest.body⟩ :=
  ⟨⟨by unfold Lexical.Spec.Fits; decide +kernel, by unfold Lexical.Spec.Fits; decide +kernel, by unfold Http.Spec.Space; decide +kernel,
    by decide +kernel⟩, sample_message⟩

example : statusText ⟨(1, 1), 404, str "Not Found", [], []⟩ = str "HTTP/1.1 404 Not Found" := by decide +kernel

/-! ### What goes wrong -/

/-- Finding: receiving a message adds two empty fields to its header, which are sent when it is passed on. -/
theorem fields_added :
    (recvRequest 9).flat (str "GET / HTTP/1.0\r\nA: 1\r\n\r\n")
      = (.ok ⟨str "GET", { path := str "/" }, (1, 0), [(str "A", str "1"), (str "Transfer-Encoding", []), (str "Content-Length", [])], .raw none⟩, []) := by
  decide +kernel

/-- Finding: an empty body with its length does not end: the next request on the connection is read as body. -/
theorem empty_body_wrong :
    ((receiveRequest 9 [.take]).flat (wire (str "GET / HTTP/1.0") [(str "Content-Length", str "0")] [] ++ str "GET")).1
      = .ok (⟨str "GET", { path := str "/" }, (1, 0), [(str "Content-Length", str "0"), (str "Transfer-Encoding", [])], .fixed { rest := 0 }⟩, .ok [some 71]) := by
  decide +kernel

/-- Finding: a first line of 4095 or 4096 bytes is cut by the receiver so that its end is taken for the end of the header: the request is accepted
without its header, and its header is read as body. -/
theorem long_line_drops_header (q : Request) (sp : Uri.Spec.Split) (h : LegalFirst q sp)
    (hl : (requestText q).length = 4095 ∨ (requestText q).length = 4096) (fuel : Nat) :
    (recvRequest fuel).flat (wire (requestText q) q.header q.body)
      = (.ok ⟨q.method, q.uri, q.version, [(transferEncoding, []), (contentLength, [])], .raw none⟩,
          Http.Spec.text (sentHeader q.header q.body) ++ q.body) := by
  have := recv_long h hl (Http.Spec.text (sentHeader q.header q.body) ++ q.body) fuel
  rw [← this]
  simp [wire]

/-- There are such requests. -/
example : ∃ q sp, LegalFirst q sp ∧ (requestText q).length = 4095 := by
  obtain ⟨w, hw, hl⟩ : ∃ w : Str, (∀ c ∈ w, c = 97) ∧ w.length = 4081 :=
    ⟨List.replicate 4081 97, fun c hc => List.eq_of_mem_replicate hc, List.length_replicate⟩
  refine ⟨⟨str "GET", Uri.Spec.parts { path := 47 :: w }, (1, 0), [], []⟩, { path := 47 :: w }, ?_, ?_⟩
  · have h1 : str "GET" ≠ [] ∧ ∀ c ∈ str "GET", ¬ Http.Spec.Space c := by unfold Http.Spec.Space; decide +kernel
    have h2 : Lexical.Spec.Fits Lexical.int32 1 ∧ Lexical.Spec.Fits Lexical.int32 0 := by unfold Lexical.Spec.Fits; decide +kernel
    refine ⟨h1, ⟨rfl, ?_⟩, by simp, ⟨rfl, by simp⟩, h2⟩
    refine ⟨by simp, Or.inl ⟨w, rfl, ?_, ?_⟩, by simp, by simp⟩
    · intro c hc
      rw [hw c (List.mem_of_mem_head? hc)]
      decide +kernel
    · exact Uri.Lemmas.coded_of_all fun c hc => by
        rw [hw c hc]
        exact Or.inl (by decide +kernel)
  · have h1 : (str "GET").length = 3 := by decide +kernel
    have h2 : (Lexical.put 1).length = 1 ∧ (Lexical.put 0).length = 1 := by decide +kernel
    simp [requestText, Uri.print, Uri.Spec.parts, Uri.authorityText, h1, h2, hl, httpSlash]

/-- Finding: a URI that the parser refuses, such as one with an IPv6 address, becomes an empty one without notice. -/
theorem uri_dropped : (recvRequest 9).flat (str "GET http://[::1]/ HTTP/1.1\r\n\r\n")
    = (.ok ⟨str "GET", {}, (1, 1), [(str "Transfer-Encoding", []), (str "Content-Length", [])], .raw none⟩, []) := by decide +kernel

/-- Finding: a response without a code is accepted, and the code is what the memory held before. -/
theorem code_indeterminate : (recvResponse 9).flat (str "HTTP/1.1\r\n\r\n")
    = (.ok ⟨(1, 1), none, [], [(str "Transfer-Encoding", []), (str "Content-Length", [])], .raw none⟩, []) := by decide +kernel

/-- Finding: a version that no `int` has is undefined behaviour. -/
theorem version_overflow : ((recvRequest 9).flat (str "GET / HTTP/2147483648.0\r\n\r\n")).1 = .error .overflow := by decide +kernel

/-- Finding: a length that is no number is refused, but one with junk behind it is not. -/
theorem length_junk : ((recvRequest 9).flat (str "GET / HTTP/1.0\r\nContent-Length: x\r\n\r\n")).1 = .error .cast
    ∧ ((receiveRequest 9 [.take, .take]).flat (str "GET / HTTP/1.0\r\nContent-Length: 1x\r\n\r\nab")).1
      = .ok (⟨str "GET", { path := str "/" }, (1, 0), [(str "Content-Length", str "1x"), (str "Transfer-Encoding", [])], .fixed { rest := 1 }⟩,
          .ok [some 97, none]) := by decide +kernel

/-- C63: the case of the letters in the version does not matter. -/
theorem version_any_case (v : Int × Int) (h1 : Lexical.Spec.Fits Lexical.int32 v.1) (h2 : Lexical.Spec.Fits Lexical.int32 v.2) (s : Str)
    (h : Http.Spec.fold s = Http.Spec.fold (versionText v)) : scanVersion s = .ok v := by
  have key : ∀ c d : UInt8, (if 65 ≤ c ∧ c ≤ 90 then c + 32 else c) = (if 65 ≤ d ∧ d ≤ 90 then d + 32 else d) → toupper c = toupper d := by
    intro c d
    have hc := c.toNat_lt
    have hd := d.toNat_lt
    unfold toupper
    simp only [UInt8.le_iff_toNat_le, UInt8.reduceToNat]
    split <;> split <;> split <;> split <;> simp [← UInt8.toNat_inj, UInt8.toNat_add, UInt8.toNat_sub] <;> omega
  have hm : ∀ a b : Str, Http.Spec.fold a = Http.Spec.fold b → a.map toupper = b.map toupper := by
    intro a
    induction a with
    | nil => intro b hb; cases b with
      | nil => rfl
      | cons => simp [Http.Spec.fold] at hb
    | cons c a ih => intro b hb; cases b with
      | nil => simp [Http.Spec.fold] at hb
      | cons d b =>
        simp only [Http.Spec.fold, List.map_cons, List.cons.injEq] at hb ⊢
        exact ⟨key c d hb.1, ih b hb.2⟩
  have := scanVersion_text v h1 h2
  unfold scanVersion at this ⊢
  rw [hm s _ h]
  exact this

example : Http.Spec.fold (str "hTtp/1.1") = Http.Spec.fold (versionText (1, 1)) ∧ scanVersion (str "hTtp/1.1") = .ok (1, 1) := by decide +kernel

/-- The words of the headers and of the version as text. -/
theorem words : [contentLength, transferEncoding, chunkedWord, httpSlash] = ["Content-Length", "Transfer-Encoding", "chunked", "HTTP/"].map str := by decide +kernel

end Verif.HttpMsg.Props
