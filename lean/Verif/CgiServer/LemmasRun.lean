import Verif.CgiServer.LemmasEnv
import Verif.Socket.Alive
import Verif.HttpMsg.Props
import Verif.Cgi.Props
/-! Lemmas about a connection from its beginning to its end. -/

namespace Verif.CgiServer.Lemmas
open Verif Verif.AssocMap Verif.Socket Verif.Http Verif.HttpMsg Verif.CgiServer Verif.CgiServer.Spec
open Verif.HttpMsg.Spec hiding names
open Verif.Http.Spec (fold Space Legal)
open Verif.Http.Lemmas (names lookup flat_bind_eq)
open Verif.Socket.Spec (fresh Accepts Delivers)

/-! ### Receiving -/

theorem recv_at {q : Request} {sp : Uri.Spec.Split} (h : LegalFirst q sp) (hs : (requestText q).length + 2 ≤ 4096) {hd : Header}
    (hl : LegalHeader hd) {b : Body} {h' : Header} (hb : bodyOf hd = .ok (b, h')) (rest : Str) (fuel : Nat) (hf : hd.length < fuel) :
    (recvRequest fuel).flat (requestText q ++ [13, 10] ++ (Http.Spec.text hd ++ rest)) = (.ok ⟨q.method, q.uri, q.version, h', b⟩, rest) := by
  obtain ⟨h1, h2⟩ := HttpMsg.Lemmas.read_request h [] (by simp)
  rw [List.append_nil] at h1
  unfold recvRequest
  rw [flat_bind_eq (Http.Lemmas.flat_line _ _ h2 hs)]
  simp only [Option.getD_some, h1]
  rw [flat_bind_eq (Http.Lemmas.header_text _ _ fuel hf hl.fields hl.once)]
  simp only [hb]
  rfl

theorem reads_recv (fuel : Nat) : (recvRequest fuel).Reads := by
  refine Prog.reads_bind (Prog.reads_getline _) fun l => ?_
  split
  · exact .ret _
  · refine Prog.reads_bind (Http.Lemmas.reads_header fuel) fun h => ?_
    split <;> exact .ret _

/-- A request is received, and the connection is alive. -/
theorem receives {k : Kernel} (hk : Delivers k) {q : Request} {sp : Uri.Spec.Split} (hq : LegalRequest q sp) (rest : Str) (fuel : Nat)
    (hf : (sentHeader q.header q.body).length < fuel) (s : St) (hc : s.connected = true) (hw : s.wr = [] ∧ s.wire = [])
    (hi : s.rd ++ s.incoming = wire (requestText q) q.header q.body ++ rest) :
    ∃ g s', (recvRequest fuel).run (step k) s = (.ok g, s') ∧ s'.connected = true ∧ (s'.wr = [] ∧ s'.wire = []) ∧ s'.rd ++ s'.incoming = q.body ++ rest
      ∧ g.method = q.method ∧ g.uri = q.uri ∧ (∀ n, field g.header n = field (sentHeader q.header q.body) n) ∧ (names g.header).Nodup
      ∧ (g.body = .fixed { rest := q.body.length } ∨ q.body = [] ∧ g.body = .raw none) := by
  obtain ⟨l1, l2, _⟩ := HttpMsg.Lemmas.sent_legal hq.message
  obtain ⟨b, h', e1, e2, e3⟩ := HttpMsg.Lemmas.bodyOf_sent hq.message
  have hflat := recv_at hq.first hq.short ⟨l1, l2⟩ e1 (q.body ++ rest ++ [0]) fuel hf
  have hin : s.rd ++ s.incoming ++ [0] = requestText q ++ [13, 10] ++ (Http.Spec.text (sentHeader q.header q.body) ++ (q.body ++ rest ++ [0])) := by
    rw [hi, HttpMsg.Lemmas.wire_split]
    simp
  rw [← hin] at hflat
  obtain ⟨r1, r2, r3, r4, r5⟩ := Prog.run_alive hk (reads_recv fuel) s (q.body ++ rest) [0] _ (by simp) hc hflat
  exact ⟨_, _, Prod.ext r1 rfl, r2, ⟨r3.trans hw.1, r4.trans hw.2⟩, r5, rfl, rfl, e2, bodyOf_nodup e1 l2, e3⟩

/-! ### The body -/

theorem reads_fixed_take (b : Fixed) (fuel : Nat) : (Body.take fuel (.fixed b)).Reads := by
  refine Prog.reads_bind (Prog.reads_bind ?_ fun _ => .ret _) fun _ => .ret _
  unfold Fixed.underflow
  split
  · exact .ret _
  · split
    · exact .ret _
    · exact Prog.reads_bind Prog.reads_getc fun _ => .ret _

theorem take_end (fuel : Nat) (b : Fixed) (hs : b.sock = true) (hb : b.buf = none) (c : UInt8) (s : Str) :
    (Body.take fuel (.fixed b)).flat (c :: s) = (.ok (some c, .fixed { sock := if b.rest - 1 = 0 then false else true, rest := b.rest - 1 }), s) := by
  obtain ⟨sock, r, buf⟩ := b
  simp only at hs hb
  subst hs hb
  rfl

/-- Reading as much as there is announced, on any socket. -/
theorem body_read {k : Kernel} (hk : Delivers k) (fuel : Nat) (rest : Str) : ∀ (d : Str) (b : Fixed) (s : St), b.rest = d.length → b.buf = none →
    (d = [] ∨ b.sock = true) → s.connected = true → s.rd ++ s.incoming = d ++ rest →
    ∃ s', (readBody fuel d.length (.fixed b)).run (step k) s = ((d, false), s') ∧ s'.connected = true ∧ s'.wr = s.wr ∧ s'.wire = s.wire := by
  intro d
  induction d with
  | nil => intro b s _ _ _ hc _; exact ⟨s, rfl, hc, rfl, rfl⟩
  | cons c d ih =>
    intro b s hr hb hsock hc hi
    have hsock : b.sock = true := hsock.resolve_left (by simp)
    have hflat := take_end fuel b hsock hb c (d ++ rest ++ [0])
    have hin : s.rd ++ s.incoming ++ [0] = c :: (d ++ rest ++ [0]) := by rw [hi]; rfl
    rw [← hin] at hflat
    obtain ⟨r1, r2, r3, r4, r5⟩ := Prog.run_alive hk (reads_fixed_take b fuel) s (d ++ rest) [0] _ (by simp) hc hflat
    simp only [List.length_cons] at hr
    obtain ⟨s', h1, h2, h3, h4⟩ := ih { sock := if b.rest - 1 = 0 then false else true, rest := b.rest - 1 }
      ((Body.take fuel (.fixed b)).run (step k) s).2 (by simp only; omega) rfl (by
        cases d with
        | nil => exact .inl rfl
        | cons c d =>
          right
          simp only [List.length_cons] at hr
          simp only
          rw [if_neg (by omega)]) r2 r5
    refine ⟨s', ?_, h2, h3.trans r3, h4.trans r4⟩
    rw [List.length_cons]
    unfold readBody
    rw [Prog.run_bind', r1]
    dsimp only
    rw [Prog.run_bind', h1]
    rfl

/-! ### Sending -/

theorem message_from (k : Kernel) (hk : Accepts k) (line : Str) (h : Header) (dat : Str) (s : St) (hw : s.wr = []) (hc : s.connected = true) :
    ((sendMessage line h dat).run (step k) s).1 = .ok () := by
  have hb : (0 : Nat) < Socket.bufSize := by decide
  obtain ⟨h1, h2, h3⟩ := HttpMsg.Lemmas.puts_accepts k hk line s (by rw [hw]; exact hb) hc
  obtain ⟨g1, g2, g3⟩ := HttpMsg.Lemmas.fields_accepts k hk (withLength h dat) _ h2 h3
  unfold sendMessage
  rw [Prog.run_bind', HttpMsg.Lemmas.puts_run, h1]
  simp only [not_true_eq_false, if_false]
  rw [Prog.run_bind', g1]
  dsimp only
  unfold sendBody
  by_cases hd : dat = []
  · subst hd
    have := HttpMsg.Lemmas.flush_accepts k hk _ g2 g3
    rw [if_neg (by simp), Prog.run_bind']
    simp only [Prog.run, not_true_eq_false, if_false]
    rw [Prog.run_bind', HttpMsg.Lemmas.flush_run, this]
    rfl
  · obtain ⟨p1, p2, p3⟩ := HttpMsg.Lemmas.puts_accepts k hk dat _ g2 g3
    have := HttpMsg.Lemmas.flush_accepts k hk _ p2 p3
    rw [if_pos (List.length_pos_iff.2 hd), Prog.run_bind', HttpMsg.Lemmas.puts_run, p1]
    simp only [not_true_eq_false, if_false]
    rw [Prog.run_bind', HttpMsg.Lemmas.flush_run, this]
    rfl

theorem sent_from (k : Kernel) (hk : Accepts k) (line : Str) (h : Header) (dat : Str) (s : St) (hw : s.wr = [] ∧ s.wire = []) (hc : s.connected = true) :
    ∃ s', (sendMessage (line ++ [13, 10]) h dat).run (step k) s = (.ok (), s') ∧ s'.wr = [] ∧ s'.wire = wire line h dat := by
  have hb : (0 : Nat) < Socket.bufSize := by decide
  have hok := message_from k hk (line ++ [13, 10]) h dat s hw.1 hc
  obtain ⟨done, _, h2, h3⟩ := HttpMsg.Lemmas.message_sent k (line ++ [13, 10]) h dat s
  rw [h3 hok] at h2
  have hc' := Socket.Lemmas.run_accepts k hk _ (HttpMsg.Lemmas.writing_full (line ++ [13, 10]) h dat) s (by rw [hw.1]; exact hb) hc
  obtain ⟨_, _, _, _, o5, o6⟩ := Socket.Lemmas.run_output k (HttpMsg.Lemmas.fullOps (line ++ [13, 10]) h dat) s (by rw [hw.1]; exact hb)
  have ho := o5 (o6 hc')
  rw [HttpMsg.Lemmas.written_full, hw.1, hw.2] at ho
  have hwr : (Socket.run k (HttpMsg.Lemmas.fullOps (line ++ [13, 10]) h dat) s).2.wr = [] := by
    unfold HttpMsg.Lemmas.fullOps
    rw [← List.append_assoc, ← List.append_assoc, HttpMsg.Lemmas.run_append]
    obtain ⟨n, _, _, h2, _⟩ := Socket.Lemmas.flush_spec k
      (Socket.run k ([Op.puts (line ++ [13, 10])] ++ sendOps (withLength h dat) ++ if dat = [] then [] else [Op.puts dat]) s).2
    exact h2
  rw [hwr, List.append_nil] at ho
  refine ⟨_, Prod.ext hok rfl, ?_, ?_⟩
  · exact (congrArg St.wr h2).trans hwr
  · refine (congrArg St.wire h2).trans (ho.trans ?_)
    simp

/-! ### A connection -/

/-- The body as `exec` gets it. -/
def inputFor (q : Request) (max : Nat) : Str := if q.method = ascii "POST" ∧ q.body.length ≤ max then q.body else []

theorem length_put (n : Nat) (hn : n < 2 ^ 64) : Cgi.contentLength (Lexical.put (n : Int)) = n := by
  rw [HttpMsg.Lemmas.put_nat]
  exact Cgi.Props.contentLength_digits n hn

theorem length_field {q : Request} (hm : LegalMessage q.header q.body) :
    Cgi.contentLength (field (sentHeader q.header q.body) contentLength) = q.body.length
      ∧ (q.body ≠ [] → field (sentHeader q.header q.body) contentLength = Decimal.digits q.body.length) := by
  have hs := hm.size
  rw [HttpMsg.Lemmas.field_eq]
  rcases HttpMsg.Lemmas.sent_length hm with h | ⟨hb, h⟩
  · rw [h]
    exact ⟨length_put _ (by omega), fun _ => HttpMsg.Lemmas.put_nat _⟩
  · rw [h, hb]
    exact ⟨by decide, fun h => absurd rfl h⟩

theorem formEnv_of {env : Env} {at_ : Place} {q : Request} (hv : Variables env at_ q) :
    (formEnv env).method = q.method ∧ (formEnv env).queryString = q.uri.query
      ∧ (formEnv env).contentLength = field (sentHeader q.header q.body) contentLength
      ∧ (formEnv env).contentType = field q.header (ascii "Content-Type") := by
  unfold formEnv
  simp only [hv.method, hv.query, hv.length, hv.type, Option.getD_some]
  trivial

/-- What happens on the connection of a client that sends a request, up to the answer. -/
theorem process_run {σ : Type} (p : Program σ) (at_ : Place) {k : Kernel} (ha : Accepts k) (hd : Delivers k) {q : Request} {sp : Uri.Spec.Split}
    (hq : LegalRequest q sp) (rest : Str) (fuel : Nat) (hf : (sentHeader q.header q.body).length < fuel) (st : σ) :
    let r := (process p at_ fuel st).run (step k) (fresh (wire (requestText q) q.header q.body ++ rest))
    ∃ env, Variables env at_ q
      ∧ (∀ st' out resp, exec p st env (inputFor q p.maxLength) = (st', some out) → genResp out = .ok resp →
        r.1 = (st', .sent) ∧ (Socket.flush k r.2).2.wire = wire (statusText resp) resp.header resp.body)
      ∧ ∀ st', exec p st env (inputFor q p.maxLength) = (st', none) → r.1 = (st', .none) ∧ (Socket.flush k r.2).2.wire = [] := by
  obtain ⟨g, s1, r1, r2, r3, r4, g1, g2, g3, g4, g5⟩ := receives hd hq rest fuel hf (fresh (wire (requestText q) q.header q.body ++ rest)) rfl ⟨rfl, rfl⟩ rfl
  have hv := variables_of (at_ := at_) g1 g2 g3 g4
  obtain ⟨f1, f2, f3, f4⟩ := formEnv_of hv
  obtain ⟨l1, l2⟩ := length_field hq.message
  have hread : ∃ s2, (readBody fuel (wanted (formEnv (envOf at_ g)) p.maxLength) g.body).run (step k) s1 = ((inputFor q p.maxLength, false), s2)
      ∧ s2.connected = true ∧ (s2.wr = [] ∧ s2.wire = []) := by
    unfold wanted inputFor
    rw [f1, f3, l1]
    by_cases hm : q.method = ascii "POST" ∧ q.body.length ≤ p.maxLength
    · rw [if_pos hm, if_pos hm]
      rcases g5 with g5 | ⟨g5, g6⟩
      · rw [g5]
        obtain ⟨s2, b1, b2, b3, b4⟩ := body_read hd fuel rest q.body { rest := q.body.length } s1 rfl rfl (.inr rfl) r2 r4
        exact ⟨s2, b1, b2, b3.trans r3.1, b4.trans r3.2⟩
      · rw [g5]
        exact ⟨s1, rfl, r2, r3⟩
    · rw [if_neg hm, if_neg hm]
      exact ⟨s1, rfl, r2, r3⟩
  obtain ⟨s2, b1, b2, b3⟩ := hread
  have hi : inputOf (wanted (formEnv (envOf at_ g)) p.maxLength) (inputFor q p.maxLength, false) = inputFor q p.maxLength := rfl
  refine ⟨envOf at_ g, hv, fun st' out resp he hg => ?_, fun st' he => ?_⟩
  rotate_left
  · have hp : (process p at_ fuel st).run (step k) (fresh (wire (requestText q) q.header q.body ++ rest)) = ((st', .none), s2) := by
      unfold process
      rw [Prog.run_bind', r1]
      dsimp only
      rw [Prog.run_bind', b1]
      dsimp only
      rw [hi, he]
      rfl
    rw [hp]
    refine ⟨rfl, ?_⟩
    unfold Socket.flush
    rw [if_neg (by simp [b3.1])]
    exact b3.2
  obtain ⟨s3, d1, d2, d3⟩ := sent_from k ha (statusText resp) resp.header resp.body s2 b3 b2
  have hsend : (sendResponse resp).run (step k) s2 = (.ok (), s3) := by
    unfold sendResponse
    rw [HttpMsg.Lemmas.statusLine_eq]
    exact d1
  have hp : (process p at_ fuel st).run (step k) (fresh (wire (requestText q) q.header q.body ++ rest)) = ((st', .sent), s3) := by
    unfold process
    rw [Prog.run_bind', r1]
    dsimp only
    rw [Prog.run_bind', b1]
    dsimp only
    rw [hi, he]
    dsimp only
    rw [hg]
    dsimp only
    rw [Prog.run_bind', hsend]
    rfl
  rw [hp]
  refine ⟨rfl, ?_⟩
  unfold Socket.flush
  rw [if_neg (by simp [d2])]
  exact d3

/-- The form values that the program is given. -/
theorem carried {σ : Type} (p : Program σ) {env : Env} {at_ : Place} {q : Request} {sp : Uri.Spec.Split} (hq : LegalRequest q sp)
    (hv : Variables env at_ q) (hmax : p.maxLength < 2 ^ 64) {P : Cgi.St → Prop} (hc : Carries q p.maxLength P) :
    ∃ f, P f ∧ (Cgi.exec (formEnv env) p.maxLength (inputFor q p.maxLength)).1 = .ok (.run f) := by
  obtain ⟨f1, f2, f3, f4⟩ := formEnv_of hv
  obtain ⟨l1, l2⟩ := length_field hq.message
  have hget : ascii "GET" = Cgi.Props.str "GET" := by decide +kernel
  have hpost : ascii "POST" = Cgi.Props.str "POST" := by decide +kernel
  cases hc with
  | get is ps m1 m2 m3 =>
    obtain ⟨f, e1, e2⟩ := Cgi.Props.exec_get (formEnv env) p.maxLength (inputFor q p.maxLength) is ps (by rw [f1, m1, hget]) (by rw [f2, m2]) m3
    exact ⟨f, e2, by rw [e1]⟩
  | post is ps m1 m2 m3 m4 m5 =>
    have hi : inputFor q p.maxLength = q.body := if_pos ⟨m1, m4⟩
    rw [hi]
    by_cases hb : q.body = []
    · -- an empty body
      have hne : (formEnv env).method ≠ [71, 69, 84] := by rw [f1, m1]; decide +kernel
      have hpm : (formEnv env).method = [80, 79, 83, 84] := by rw [f1, m1]; decide +kernel
      rw [hb] at m2
      obtain ⟨h1, h2⟩ := Cgi.Props.query_decode is ps m3
      refine ⟨Cgi.parseInput (Cgi.Spec.formText is) {}, ⟨h1, h2⟩, ?_⟩
      have hms : ¬ Cgi.multipartSlash <:+: field q.header (ascii "Content-Type") := by
        have : Cgi.multipartSlash = ascii "multipart/" := by decide +kernel
        rwa [this]
      unfold Cgi.exec
      rw [if_neg hne, if_pos hpm, f3, l1, hb, f4, ← m2]
      simp [Cgi.Lemmas.findStr_none hms]
    · have := Cgi.Props.exec_post (formEnv env) p.maxLength [] is ps (by rw [f1, m1, hpost]) (by rw [f3, l2 hb, m2]) (by rw [← m2]; exact m4) hmax
        (by rw [f4]; have : Cgi.Props.str "multipart/" = ascii "multipart/" := by decide +kernel
            rwa [this]) m3
      obtain ⟨f, e1, e2⟩ := this
      rw [List.append_nil, ← m2] at e1
      exact ⟨f, e2, by rw [e1]⟩
  | upload b pre post ps es m1 m2 m3 m4 m5 m6 m7 m8 =>
    have hi : inputFor q p.maxLength = q.body := if_pos ⟨m1, m3⟩
    rw [hi]
    have hb : q.body ≠ [] := by rw [m2]; simp [Cgi.Spec.bodyText]
    have hs : Cgi.Props.str "multipart/form-data; boundary=" = ascii "multipart/form-data; boundary=" := by decide +kernel
    have := Cgi.Props.exec_multipart_partial (formEnv env) p.maxLength [] b pre post ps es (by rw [f1, m1, hpost]) (by rw [f3, l2 hb, m2])
      (by rw [← m2]; exact m3) hmax (by rw [f4, m4, hs]) m5 m6 m7 m8
    obtain ⟨f, e1, e2⟩ := this
    rw [List.append_nil, ← m2] at e1
    exact ⟨f, e2, by rw [e1]⟩
  | other m1 m2 =>
    refine ⟨{}, rfl, ?_⟩
    have h1 : (formEnv env).method ≠ [71, 69, 84] := by
      rw [f1]; intro h; apply m1; rw [h]; decide +kernel
    have h2 : (formEnv env).method ≠ [80, 79, 83, 84] := by
      rw [f1]; intro h; apply m2; rw [h]; decide +kernel
    unfold Cgi.exec
    rw [if_neg h1, if_neg h2]

/-! ### The loop -/

theorem serve_append {σ : Type} (p : Program σ) : ∀ (earlier : List (Place × Kernel × Str)) (st0 : σ),
    ∃ st, ∀ cs, serve p st0 (earlier ++ cs) = serve p st0 earlier ++ serve p st cs := by
  intro earlier
  induction earlier with
  | nil => intro st0; exact ⟨st0, fun cs => rfl⟩
  | cons c earlier ih =>
    intro st0
    obtain ⟨at_, k, incoming⟩ := c
    obtain ⟨st, h⟩ := ih ((process p at_ (incoming.length + 2) st0).run (step k) { opened := true, connected := true, incoming := incoming }).1.1
    refine ⟨st, fun cs => ?_⟩
    show _ :: serve p _ (earlier ++ cs) = _
    rw [h]
    rfl

theorem fuel_enough (q : Request) (rest : Str) :
    (sentHeader q.header q.body).length < (wire (requestText q) q.header q.body ++ rest).length + 2 := by
  have := Cgi.Lemmas.length_text (sentHeader q.header q.body)
  rw [HttpMsg.Lemmas.wire_split]
  simp only [List.length_append]
  omega

end Verif.CgiServer.Lemmas
