import Verif.CgiServer.LemmasRun
/-! C65: the web server answers each request with what the CGI program makes of it. -/

namespace Verif.CgiServer.Props
open Verif Verif.AssocMap Verif.Socket Verif.Http Verif.HttpMsg Verif.HttpMsg.Spec Verif.CgiServer Verif.CgiServer.Spec Verif.CgiServer.Lemmas
open Verif.Http.Spec (fold)
open Verif.Socket.Spec (fresh Accepts Delivers)

/-! ### The answer -/

/-- The output of a program becomes a response with the status, the fields and the body that the program gave, and it can be sent. -/
theorem answer_of_output (h : Header) (out : Str) (hm : LegalMessage h out) (code : Int) (reason : Str) (ha : Answer h code reason)
    (hl : LegalAnswer code reason) :
    ∃ resp, genResp (output h out) = .ok resp ∧ resp.version = (1, 1) ∧ resp.code = code ∧ resp.reason = reason ∧ resp.body = out
      ∧ (∀ n, field resp.header n = answered h n) ∧ LegalResponse resp :=
  ⟨_, genResp_eq hm.header ha hl, rfl, rfl, rfl, rfl, response_field hm.header.once, response_legal hm hl⟩

theorem gets_of_sent (h : Header) (out : Str) (hm : LegalMessage h out) (code : Int) (reason : Str) (ha : Answer h code reason)
    (hl : LegalAnswer code reason) :
    ∃ resp, genResp (output h out) = .ok resp ∧ Gets (wire (statusText resp) resp.header resp.body) h out code reason := by
  refine ⟨_, genResp_eq hm.header ha hl, fun k fuel ops hk hf => ?_⟩
  have hlen : (plainFields h ++ [(ascii "Content-Type", typeOf h)]).length ≤ h.length + 1 := by
    have : ∀ (k : Str) (h : Header), (Http.erase k h).length ≤ h.length := by
      intro k h
      induction h with
      | nil => exact Nat.le_refl _
      | cons e h ih =>
        unfold Http.erase
        split
        · simp
        · simpa using ih
    have h1 := this (ascii "status") (Http.erase (ascii "content-type") h)
    have h2 := this (ascii "content-type") h
    simp only [plainFields, List.length_append, List.length_singleton]
    omega
  have hr := response_legal hm hl
  obtain ⟨g, s, g1, g2, g3, g4, g5, _⟩ := HttpMsg.Props.response_received_partial _ hr [] (.inr rfl) ops fuel (by simp only; omega)
  refine ⟨g, ?_, g2, g3, g4, fun n hn => ?_, fun hne => ?_⟩
  · rw [(Prog.socket_eq_flat k hk (HttpMsg.Lemmas.reads_recvResponse fuel ops) _).1]
    rw [List.append_nil] at g1
    rw [g1]
  · rw [g5, sent_other _ _ _ hn]
    exact response_field hm.header.once n
  · rw [g5, HttpMsg.Lemmas.field_eq]
    rcases HttpMsg.Lemmas.sent_length hr.message with h | ⟨h, _⟩
    · rw [h]; rfl
    · exact absurd h hne

/-! ### The server -/

/-- C65, part: whatever came before, a client that sends a request over a connection that does not fail makes `run` see the request: its method, its
variables, and the form values or files it carries; and what `run` then writes is what the client gets. `st` is the state that the earlier requests
left, and the next request finds the state that this one leaves. A part, as a request must have at most 4096 characters per line, and so on: see
`LegalRequest`, and `Undisturbed` for files. -/
theorem served_partial {σ : Type} (p : Program σ) (hmax : p.maxLength < 2 ^ 64) (st0 : σ) (earlier later : List (Place × Kernel × Str)) (at_ : Place)
    (k : Kernel) (ha : Accepts k) (hd : Delivers k) (q : Request) (sp : Uri.Spec.Split) (hq : LegalRequest q sp) (rest : Str) (P : Cgi.St → Prop)
    (hc : Carries q p.maxLength P) :
    ∃ st v, (∀ cs, serve p st0 (earlier ++ cs) = serve p st0 earlier ++ serve p st cs)
      ∧ P v.form ∧ v.method = q.method ∧ Variables v.env at_ q
      ∧ ∀ h out code reason, (p.run st v startHeader).2 = some (h, out) → LegalMessage h out → Answer h code reason → LegalAnswer code reason →
        ∃ w, Gets w h out code reason
          ∧ serve p st0 (earlier ++ (at_, k, wire (requestText q) q.header q.body ++ rest) :: later)
            = serve p st0 earlier ++ w :: serve p (p.run st v startHeader).1 later := by
  obtain ⟨st, hst⟩ := serve_append p earlier st0
  obtain ⟨env, hv, hrun, _⟩ := process_run p at_ ha hd hq rest _ (fuel_enough q rest) st
  obtain ⟨f, hf, hex⟩ := carried p hq hv hmax hc
  refine ⟨st, ⟨q.method, env, f⟩, hst, hf, rfl, hv, fun h out code reason hr hm han hla => ?_⟩
  obtain ⟨resp, g1, g2⟩ := gets_of_sent h out hm code reason han hla
  have he : exec p st env (inputFor q p.maxLength) = ((p.run st ⟨q.method, env, f⟩ startHeader).1, some (output h out)) := by
    unfold exec
    rw [hex, hv.method]
    simp only [Option.getD_some, hr, Option.map_some]
  obtain ⟨r1, r2⟩ := hrun _ _ _ he g1
  refine ⟨_, g2, ?_⟩
  rw [hst, ← r2]
  have e : ∀ (c : Place × Kernel × Str) (cs : List (Place × Kernel × Str)), serve p st (c :: cs)
      = (Socket.flush c.2.1 ((process p c.1 (c.2.2.length + 2) st).run (step c.2.1) (fresh c.2.2)).2).2.wire
        :: serve p ((process p c.1 (c.2.2.length + 2) st).run (step c.2.1) (fresh c.2.2)).1.1 cs := fun _ _ => rfl
  rw [e]
  simp only [r1]

/-- C65: if the program throws an exception, the client gets nothing at all (finding: not even a status), and the server goes on with the next. -/
theorem exception_unanswered {σ : Type} (p : Program σ) (hmax : p.maxLength < 2 ^ 64) (st : σ) (later : List (Place × Kernel × Str)) (at_ : Place)
    (k : Kernel) (ha : Accepts k) (hd : Delivers k) (q : Request) (sp : Uri.Spec.Split) (hq : LegalRequest q sp) (rest : Str) (P : Cgi.St → Prop)
    (hc : Carries q p.maxLength P) (hx : ∀ v, (p.run st v startHeader).2 = none) :
    ∃ v, serve p st ((at_, k, wire (requestText q) q.header q.body ++ rest) :: later) = [] :: serve p (p.run st v startHeader).1 later := by
  obtain ⟨env, hv, _, hrun⟩ := process_run p at_ ha hd hq rest _ (fuel_enough q rest) st
  obtain ⟨f, _, hex⟩ := carried p hq hv hmax hc
  have he : exec p st env (inputFor q p.maxLength) = ((p.run st ⟨q.method, env, f⟩ startHeader).1, none) := by
    unfold exec
    rw [hex, hv.method]
    simp only [Option.getD_some, hx, Option.map_none]
  obtain ⟨r1, r2⟩ := hrun _ he
  refine ⟨⟨q.method, env, f⟩, ?_⟩
  have e : ∀ (c : Place × Kernel × Str) (cs : List (Place × Kernel × Str)), serve p st (c :: cs)
      = (Socket.flush c.2.1 ((process p c.1 (c.2.2.length + 2) st).run (step c.2.1) (fresh c.2.2)).2).2.wire
        :: serve p ((process p c.1 (c.2.2.length + 2) st).run (step c.2.1) (fresh c.2.2)).1.1 cs := fun _ _ => rfl
  rw [e]
  simp only [r1, r2]

/-- C65: a POST with a body beyond the limit is answered with status 500 and the error page; `run` is not called, and the body is not read. -/
theorem too_long {σ : Type} (p : Program σ) (st : σ) (later : List (Place × Kernel × Str)) (at_ : Place)
    (k : Kernel) (ha : Accepts k) (hd : Delivers k) (q : Request) (sp : Uri.Spec.Split) (hq : LegalRequest q sp) (rest : Str)
    (hm : q.method = ascii "POST") (hl : p.maxLength < q.body.length) (hp : (p.page .tooLong).length < 2 ^ 63) :
    ∃ w, Gets w errorHeader (p.page .tooLong) 500 (ascii "Internal Server Error")
      ∧ serve p st ((at_, k, wire (requestText q) q.header q.body ++ rest) :: later) = w :: serve p st later := by
  obtain ⟨env, hv, hrun, _⟩ := process_run p at_ ha hd hq rest _ (fuel_enough q rest) st
  obtain ⟨f1, _, f3, _⟩ := formEnv_of hv
  obtain ⟨_, l2⟩ := length_field hq.message
  have hb : q.body ≠ [] := by rintro h; rw [h] at hl; simp at hl
  have hs := hq.message.size
  have hpost : ascii "POST" = Cgi.Props.str "POST" := by decide +kernel
  have hex := Cgi.Props.exec_limit (formEnv env) p.maxLength q.body.length (inputFor q p.maxLength) (by rw [f1, hm, hpost]) (by rw [f3, l2 hb])
    (by omega) hl
  have hh : Http.set (ascii "Status") (ascii "500 Internal Server Error") startHeader = errorHeader := by decide +kernel
  have he : exec p st env (inputFor q p.maxLength) = (st, some (output errorHeader (p.page .tooLong))) := by
    unfold exec
    rw [hex]
    simp only [hh]
  have hmsg : LegalMessage errorHeader (p.page .tooLong) := by
    refine ⟨⟨?_, by decide +kernel⟩, ?_, by decide +kernel, hp⟩
    · intro e he
      simp only [errorHeader, List.mem_cons, List.not_mem_nil, or_false] at he
      rcases he with rfl | rfl
      · exact ⟨by decide +kernel, by unfold Http.Spec.Space; decide +kernel, by decide +kernel, by unfold Http.Spec.Space; decide +kernel, by decide +kernel⟩
      · exact ⟨by decide +kernel, by unfold Http.Spec.Space; decide +kernel, by decide +kernel, by unfold Http.Spec.Space; decide +kernel, by decide +kernel⟩
    · intro e he hf
      exfalso
      simp only [errorHeader, List.mem_cons, List.not_mem_nil, or_false] at he
      rcases he with rfl | rfl <;> revert hf <;> decide +kernel
  have hans : Answer errorHeader 500 (ascii "Internal Server Error") :=
    .status 500 [32] _ (by decide +kernel) (by unfold Http.Spec.Space; decide +kernel) (by decide +kernel) (by unfold Http.Spec.Space; decide +kernel)
      (by decide +kernel)
  have hla : LegalAnswer 500 (ascii "Internal Server Error") :=
    ⟨by unfold Lexical.Spec.Fits; decide +kernel, by unfold Http.Spec.Space; decide +kernel, by decide +kernel⟩
  obtain ⟨resp, g1, g2⟩ := gets_of_sent _ _ hmsg _ _ hans hla
  obtain ⟨r1, r2⟩ := hrun _ _ _ he g1
  refine ⟨_, g2, ?_⟩
  rw [← r2]
  have e : ∀ (c : Place × Kernel × Str) (cs : List (Place × Kernel × Str)), serve p st (c :: cs)
      = (Socket.flush c.2.1 ((process p c.1 (c.2.2.length + 2) st).run (step c.2.1) (fresh c.2.2)).2).2.wire
        :: serve p ((process p c.1 (c.2.2.length + 2) st).run (step c.2.1) (fresh c.2.2)).1.1 cs := fun _ _ => rfl
  rw [e]
  simp only [r1]

/-! ### Examples -/

/-- A program that counts its requests, and answers with the value of `a`; without one it throws an exception. -/
def echo : Program Nat where
  run st v h := (st + 1, (find v.form.query (ascii "a")).map fun x => (Http.set (ascii "X-Count") (Lexical.put st) h, x))
  page _ := ascii "error"
  maxLength := 5

def here : Place := ⟨ascii "10.0.0.1", 5, 80, ascii "1.0"⟩

/-- A kernel that moves 7 bytes at a time. -/
def k7 : Kernel := ⟨fun _ => 7, fun _ => 7⟩

example : Accepts k7 ∧ Delivers k7 := ⟨fun _ => (by decide : (0 : Int) < 7), fun _ => (by decide : (0 : Int) < 7)⟩

example : serve echo 0 [(here, k7, ascii "GET /x?a=1 HTTP/1.0\r\nUser-Agent: me\r\n\r\n"), (here, k7, ascii "bad"), (here, k7, ascii "GET / HTTP/1.0\r\n\r\n"),
      (here, k7, ascii "POST /x HTTP/1.0\r\nContent-Length: 3\r\n\r\na=2")]
    = [ascii "HTTP/1.1 200 OK\r\nX-Count: 0\r\nContent-Type: text/plain; charset=utf-8\r\nContent-Length: 1\r\n\r\n1", [], [],
      ascii "HTTP/1.1 200 OK\r\nX-Count: 2\r\nContent-Type: text/plain; charset=utf-8\r\nContent-Length: 1\r\n\r\n2"] := by decide +kernel

/-- A request of the theorem. -/
def sample : Request := ⟨ascii "POST", Uri.Spec.parts Uri.Props.sample, (1, 1), [(ascii "Host", ascii "a:80")], ascii "a=2"⟩

theorem sample_legal : LegalRequest sample Uri.Props.sample := by
  refine ⟨⟨⟨by decide +kernel, by unfold Http.Spec.Space; decide +kernel⟩, ⟨rfl, Uri.Props.sample_valid.1⟩, Uri.Props.sample_valid.2,
    ⟨rfl, by decide +kernel⟩, by unfold Lexical.Spec.Fits; decide +kernel⟩, by decide +kernel, ?_⟩
  refine ⟨⟨?_, by decide +kernel⟩, by decide +kernel, by decide +kernel, by decide +kernel⟩
  intro e he
  rw [List.mem_singleton.1 he]
  exact ⟨by decide +kernel, by unfold Http.Spec.Space; decide +kernel, by decide +kernel, by unfold Http.Spec.Space; decide +kernel, by decide +kernel⟩

example : Carries sample echo.maxLength fun f => Cgi.Spec.Holds f [(ascii "a", ascii "2")] ∧ f.file = [] ∧ f.info = [] := by
  refine .post [Cgi.Spec.encoded (ascii "a", ascii "2")] _ rfl (by decide +kernel) (.cons (Cgi.Lemmas.encoded_means _) .nil) (by decide +kernel) ?_
  decide +kernel

example : Answer [(ascii "status", ascii "404 Not Found")] 404 (ascii "Not Found") ∧ LegalAnswer 404 (ascii "Not Found") :=
  ⟨.status 404 [32] _ (by decide +kernel) (by unfold Http.Spec.Space; decide +kernel) (by decide +kernel) (by unfold Http.Spec.Space; decide +kernel)
    (by decide +kernel), by unfold Lexical.Spec.Fits; decide +kernel, by unfold Http.Spec.Space; decide +kernel, by decide +kernel⟩

example : Answer [(ascii "Location", ascii "/")] 302 (ascii "Found") := .found (ascii "/") (by decide +kernel) (by decide +kernel)

example : answered [(ascii "Status", ascii "404"), (ascii "X", ascii "y")] (ascii "x") = ascii "y"
    ∧ answered [(ascii "Status", ascii "404")] (ascii "content-type") = ascii "text/html; charset=utf-8" := by decide +kernel

/-! ### What goes wrong -/

/-- Finding: `-` in the name of a field is kept, so a program that looks for `HTTP_USER_AGENT`, as CGI has it, does not find it; and two fields that
the client has not sent are there. -/
theorem variables_wrong : ∃ r, ((recvRequest 9).flat (ascii "GET / HTTP/1.0\r\nUser-Agent: me\r\n\r\n")).1 = .ok r
    ∧ find (envOf here r) (ascii "HTTP_USER_AGENT") = none ∧ find (envOf here r) (ascii "HTTP_USER-AGENT") = some (ascii "me")
    ∧ find (envOf here r) (ascii "HTTP_TRANSFER-ENCODING") = some [] ∧ find (envOf here r) (ascii "HTTP_CONTENT-LENGTH") = some [] :=
  ⟨⟨ascii "GET", { path := ascii "/" }, (1, 0), [(ascii "User-Agent", ascii "me"), (transferEncoding, []), (contentLength, [])], .raw none⟩,
    by decide +kernel⟩

/-- Finding: the form values of a POST in chunks are lost: the program is called without any. -/
theorem chunked_form_lost : ((process ⟨fun st v h => (v.form :: st, some (h, [])), fun _ => [], 100⟩ here 9 []).run (step k7)
      (fresh (ascii "POST / HTTP/1.1\r\nTransfer-Encoding: chunked\r\n\r\n3\r\na=2\r\n0\r\n\r\n"))).1 = ([{}], .sent) := by decide +kernel

/-- The same for every POST in chunks that tells no length, as HTTP has it, whatever is in its chunks: the program is called, and finds no values at all. -/
theorem chunked_form_always_lost {σ : Type} (p : Program σ) (at_ : Place) (k : Kernel) (hk : Delivers k) (q : Request) (sp : Uri.Spec.Split)
    (h : LegalFirst q sp) (hs : (requestText q).length + 2 ≤ 4096) (hm : q.method = ascii "POST") (hd : Header) (hl : LegalHeader hd)
    (ht : fold (field hd transferEncoding) = chunkedWord) (hn : field hd contentLength = [])
    (hmp : ¬ ascii "multipart/" <:+: field hd (ascii "Content-Type")) (body : Str) (fuel : Nat) (hf : hd.length < fuel) (st : σ) :
    ∃ v, v.form = {} ∧ v.method = q.method
      ∧ ((process p at_ fuel st).run (step k) (fresh (requestText q ++ [13, 10] ++ (Http.Spec.text hd ++ body)))).1.1 = (p.run st v startHeader).1 := by
  obtain ⟨h', e1, e2⟩ := HttpMsg.Lemmas.bodyOf_chunked ht
  have hflat := recv_at h hs hl e1 (body ++ [0]) fuel hf
  have hin : (fresh (requestText q ++ [13, 10] ++ (Http.Spec.text hd ++ body))).rd ++ (fresh (requestText q ++ [13, 10] ++ (Http.Spec.text hd ++ body))).incoming ++ [0]
      = requestText q ++ [13, 10] ++ (Http.Spec.text hd ++ (body ++ [0])) := by
    simp [fresh]
  rw [← hin] at hflat
  obtain ⟨r1, _⟩ := Prog.run_alive hk (reads_recv fuel) _ body [0] _ (by simp) rfl hflat
  obtain ⟨v1, _, _, v4, v5, v6, _⟩ := envOf_fixed at_ ⟨q.method, q.uri, q.version, h', .chunked {}⟩
  generalize hg : (⟨q.method, q.uri, q.version, h', .chunked {}⟩ : GotRequest) = g at *
  have hgm : g.method = q.method := by rw [← hg]
  have hgh : g.header = h' := by rw [← hg]
  rw [hgm] at v1
  rw [hgh, e2, hn] at v5
  rw [hgh, e2] at v6
  have f1 : (formEnv (envOf at_ g)).method = ascii "POST" := by simp only [formEnv, v1, Option.getD_some, hm]
  have f3 : (formEnv (envOf at_ g)).contentLength = [] := by simp only [formEnv, v5, Option.getD_some]
  have f4 : (formEnv (envOf at_ g)).contentType = field hd (ascii "Content-Type") := by simp only [formEnv, v6, Option.getD_some]
  have hcl : Cgi.contentLength [] = 0 := by decide
  have hw : wanted (formEnv (envOf at_ g)) p.maxLength = 0 := by simp [wanted, f3, hcl]
  have hex : (Cgi.exec (formEnv (envOf at_ g)) p.maxLength []).1 = .ok (.run {}) := by
    have hne : (formEnv (envOf at_ g)).method ≠ [71, 69, 84] := by rw [f1]; decide +kernel
    have hpm : (formEnv (envOf at_ g)).method = [80, 79, 83, 84] := by rw [f1]; decide +kernel
    have hms : ¬ Cgi.multipartSlash <:+: field hd (ascii "Content-Type") := by
      have : Cgi.multipartSlash = ascii "multipart/" := by decide +kernel
      rwa [this]
    unfold Cgi.exec
    rw [if_neg hne, if_pos hpm, f3, hcl, f4]
    simp [Cgi.Lemmas.findStr_none hms]
    decide +kernel
  refine ⟨⟨q.method, envOf at_ g, {}⟩, rfl, rfl, ?_⟩
  have hexec : exec p st (envOf at_ g) [] = ((p.run st ⟨q.method, envOf at_ g, {}⟩ startHeader).1,
      (p.run st ⟨q.method, envOf at_ g, {}⟩ startHeader).2.map fun r => output r.1 r.2) := by
    unfold exec
    rw [hex, v1]
    rfl
  unfold process
  rw [Prog.run_bind', r1]
  dsimp only
  rw [Prog.run_bind', hw]
  simp only [readBody, Prog.run, inputOf]
  rw [if_neg (by simp), hexec]
  cases (p.run st ⟨q.method, envOf at_ g, {}⟩ startHeader).2 with
  | none => rfl
  | some r =>
    simp only [Option.map_some]
    split
    · rfl
    · rw [Prog.run_bind']; rfl

example : ∃ hd, LegalHeader hd ∧ fold (field hd transferEncoding) = chunkedWord ∧ field hd contentLength = []
    ∧ ¬ ascii "multipart/" <:+: field hd (ascii "Content-Type") := by
  refine ⟨[(transferEncoding, ascii "Chunked")], ⟨fun e he => ?_, by decide +kernel⟩, by decide +kernel, by decide +kernel, by decide +kernel⟩
  rw [List.mem_singleton.1 he]
  exact ⟨by decide +kernel, by unfold Http.Spec.Space; decide +kernel, by decide +kernel, by unfold Http.Spec.Space; decide +kernel, by decide +kernel⟩

/-- Finding: a broken body in chunks is no error if the request has a length as well: what could not be read is taken for 0 characters. -/
theorem broken_chunks_accepted : ((process ⟨fun st v h => (v.form.query :: st, some (h, [])), fun _ => [], 100⟩ here 9 []).run (step k7)
      (fresh (ascii "POST / HTTP/1.1\r\nTransfer-Encoding: chunked\r\nContent-Length: 6\r\n\r\n3\r\na=2\r\n1\r\nbzz"))).1
    = ([[(ascii "a", [50, 0, 0, 0])]], .sent) := by decide +kernel

/-- Finding: a status that is no number becomes 0, and one that no `int` has becomes another. -/
theorem status_wrong : ((genResp (output [(ascii "Status", ascii "Not Found")] [])).toOption.map fun r => (r.code, r.reason)) = some (0, ascii "Not Found")
    ∧ ((genResp (output [(ascii "Status", ascii "4294967496 OK")] [])).toOption.map fun r => (r.code, r.reason)) = some (200, ascii "OK") := by
  decide +kernel

/-- Finding: a value with a line end makes a field of its own, or ends the header: what a program puts there without care, the client takes for
header fields or for the body. -/
theorem header_split : ((genResp (output [(ascii "X", ascii "1\nSet-Cookie: id=2\n\nevil")] [])).toOption.map fun r => (r.header, r.body))
    = some ([(ascii "X", ascii "1"), (ascii "Set-Cookie", ascii "id=2"), (ascii "Content-Type", ascii "text/html; charset=utf-8")], ascii "evil\n\n") := by
  decide +kernel

end Verif.CgiServer.Props
