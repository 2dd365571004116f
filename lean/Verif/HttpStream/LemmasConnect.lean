import Verif.HttpStream.Lemmas
/-! Lemmas about the constructor. -/

namespace Verif.HttpStream.Lemmas
open Verif Verif.Socket Verif.Http Verif.HttpMsg Verif.HttpStream Verif.HttpStream.Spec
open Verif.HttpMsg.Spec hiding requestText
open Verif.CgiServer (ascii Body.take)
open Verif.Socket.Spec (fresh Accepts Delivers Writing Reading)
open Verif.Http.Lemmas (flat_bind_eq)
open Verif.Uri.Spec (Split Valid KnownHost)

/-! ### The response -/

theorem reads_response (fuel : Nat) : (recvResponse fuel).Reads := reads_left (HttpMsg.Lemmas.reads_recvResponse fuel [])

/-- A response that is received with every way of reading its body is received before that. -/
theorem received {fuel : Nat} {w body : Str} {Q : GotResponse → Prop}
    (h : ∀ ops, ∃ g, ((receiveResponse fuel ops).flat w).1 = .ok (g, .ok (Http.Spec.takes ops body)) ∧ Q g) :
    ∃ g s, (recvResponse fuel).flat w = (.ok g, s) ∧ Q g ∧ Stands fuel g.body s body := by
  have e : ∀ ops, (receiveResponse fuel ops).flat w = match (recvResponse fuel).flat w with
      | (.error e, s) => (.error e, s)
      | (.ok g, s) => (.ok (g, ((g.body.run fuel ops).flat s).1), ((g.body.run fuel ops).flat s).2) := by
    intro ops
    unfold receiveResponse
    simp only [Prog.flat, Prog.run_bind']
    rcases (recvResponse fuel).run Socket.Spec.readStep w with ⟨_ | g, s⟩
    · rfl
    · dsimp only
      rw [Prog.run_bind']
      rfl
  rcases hr : (recvResponse fuel).flat w with ⟨er | g, s⟩
  · obtain ⟨g, h1, _⟩ := h []
    rw [e, hr] at h1
    cases h1
  · refine ⟨g, s, rfl, ?_, fun ops => ?_⟩
    · obtain ⟨g', h1, h2⟩ := h []
      rw [e, hr] at h1
      simp only [Except.ok.injEq, Prod.mk.injEq] at h1
      rwa [h1.1]
    · obtain ⟨g', h1, h2⟩ := h ops
      rw [e, hr] at h1
      simp only [Except.ok.injEq, Prod.mk.injEq] at h1
      exact h1.2

theorem text_length : ∀ h : Header, h.length + 2 ≤ (Http.Spec.text h).length := by
  intro h
  induction h with
  | nil => decide
  | cons e h ih =>
    obtain ⟨a, b⟩ := e
    simp only [Http.Spec.text, List.length_append, List.length_cons, List.length_nil]
    omega

theorem lines_length : ∀ l : List Str, l.length ≤ ((l.map (· ++ [13, 10])).flatten).length := by
  intro l
  induction l with
  | nil => exact Nat.le_refl _
  | cons a l ih =>
    simp only [List.map_cons, List.flatten_cons, List.length_append, List.length_cons, List.length_nil]
    omega

/-- Every kind of reply is received. -/
theorem reply_received {w body : Str} {hd : Header} (h : Reply w hd body) (fuel : Nat) (hf : w.length < fuel) :
    ∃ g s, (recvResponse fuel).flat w = (.ok g, s) ∧ (∀ n, field g.header n = field hd n) ∧ Stands fuel g.body s body := by
  apply received
  intro ops
  cases h with
  | length p hp =>
    have hl := text_length (sentHeader p.header p.body)
    have hs : p.header.length ≤ (sentHeader p.header p.body).length := by
      unfold sentHeader
      split
      · exact Nat.le_refl _
      · simp
    obtain ⟨g, s, h1, _, _, _, h5, _⟩ := HttpMsg.Props.response_received_partial p hp [] (.inr rfl) ops fuel (by
      unfold wire at hf
      simp only [List.length_append] at hf
      omega)
    rw [List.append_nil] at h1
    exact ⟨g, by rw [h1], h5⟩
  | chunked p _ chunks last trailer h1 h2 h3 h4 h5 h6 h7 h8 =>
    have hl := text_length hd
    have ht := lines_length trailer
    obtain ⟨g, s, g1, _, _, _, g5, _⟩ := HttpMsg.Props.response_chunked_partial p h1 hd h2 h3 chunks last trailer [] ops fuel h4 h5 h6 h7 h8 (by
      unfold Http.Spec.bodyText at hf
      simp only [List.length_append] at hf
      omega)
    rw [List.append_nil] at g1
    exact ⟨g, by rw [g1], g5⟩
  | close p _ _ h1 h2 h3 h4 =>
    have hl := text_length hd
    obtain ⟨g, g1, _, _, _, g5⟩ := HttpMsg.Props.response_until_close p h1 hd h2 h3 h4 body ops fuel (by
      simp only [List.length_append] at hf
      omega)
    exact ⟨g, g1, g5⟩

/-! ### The URL -/

/-- The URL with the path that the server is asked for. -/
def slashed (sp : Split) : Split := { sp with path := if sp.path = [] then ascii "/" else sp.path }

theorem slashed_valid {sp : Split} (h : Valid sp) (ha : sp.authority.isSome = true) : Valid (slashed sp) := by
  obtain ⟨sc, au, pa, qu, fr⟩ := sp
  obtain ⟨h1, h2, h3, h4⟩ := h
  refine ⟨h1, ?_, h3, h4⟩
  cases au with
  | none => cases ha
  | some a =>
    obtain ⟨ui, ho, po⟩ := a
    obtain ⟨g1, g2, g3, g4⟩ := h2
    refine ⟨g1, g2, g3, ?_⟩
    show Uri.Spec.PathAbempty (if pa = [] then ascii "/" else pa)
    split
    · refine ⟨fun c hc => ?_, ?_⟩
      · simpa using (show some (Uri.Spec.ch '/') = some c from hc).symm
      · exact .char 47 (.inr (by unfold Uri.Spec.In; decide)) .nil
    · exact g4

theorem slashed_print (sp : Split) : Uri.print (Uri.Spec.parts (slashed sp)) = Uri.print (Uri.Spec.parts sp) := by
  obtain ⟨sc, au, pa, qu, fr⟩ := sp
  unfold slashed
  dsimp only
  by_cases hp : pa = []
  · subst hp
    rw [if_pos rfl]
    rfl
  · rw [if_neg hp]

theorem print_asked {sp : Split} {ui po : Option Str} {ho : Str} (h : WebUrl sp ui ho po) :
    Uri.print (Uri.Spec.parts sp) = Uri.Spec.compose (asked sp) := by
  rw [← slashed_print]
  refine Uri.Lemmas.print_dropEmpty (slashed sp) (slashed_valid h.valid (by rw [h.authority]; rfl)) ?_ ?_
  · show sp.scheme.isSome = sp.authority.isSome
    rw [h.scheme, h.authority]; rfl
  · show (if sp.path = [] then ascii "/" else sp.path) ≠ []
    split
    · decide
    · assumption

theorem parsed {sp : Split} {ui po : Option Str} {ho : Str} (h : WebUrl sp ui ho po) :
    Uri.uri (Uri.Spec.compose sp) = .ok (Uri.Spec.parts sp) := by
  unfold Uri.uri
  rw [Uri.Props.parse_complete_partial sp h.valid (fun a b c e => by
    rw [h.authority] at e
    simp only [Option.some.injEq, Prod.mk.injEq] at e
    obtain ⟨rfl, rfl, rfl⟩ := e
    exact ⟨h.known, h.plain⟩)]

theorem members {sp : Split} {ui po : Option Str} {ho : Str} (h : WebUrl sp ui ho po) :
    (Uri.Spec.parts sp).scheme = ascii "http" ∧ (Uri.Spec.parts sp).userinfo = ui.getD [] ∧ (Uri.Spec.parts sp).host = ho
      ∧ (Uri.Spec.parts sp).port = po.getD [] := by
  unfold Uri.Spec.parts
  rw [h.scheme, h.authority]
  exact ⟨rfl, rfl, rfl, rfl⟩

theorem digits_ne {ds : Str} {n : Nat} (h : Lexical.Spec.Digits ds n) : ds ≠ [] := by
  cases h <;> simp

theorem port_of {u : Uri.Parts} {po : Option Str} {n : Nat} (hu : u.port = po.getD []) (h : PortIs po n) : portOf u = some n := by
  unfold portOf
  rw [hu]
  cases h with
  | default => rfl
  | empty => rfl
  | given ds n hd hn =>
    have hne := digits_ne hd
    have hb : Lexical.Spec.Begins ds (n : Int) := ⟨[], ds, [], by simp, by simp, .plain hd, by simp⟩
    have hf : Lexical.Spec.Fits Lexical.int32 (n : Int) := by
      show -((2 ^ 31 : Nat) : Int) ≤ n ∧ (n : Int) < ((2 ^ 31 : Nat) : Int)
      omega
    simp only [Option.getD_some]
    rw [if_neg hne]
    have := @Lexical.Props.signed_cast Lexical.int32 rfl ds n hb (.isTrue hf)
    rw [this, if_pos hf]
    simp only [Option.map_some]
    congr 1
    omega

theorem request_text {sp : Split} {ui po : Option Str} {ho : Str} (h : WebUrl sp ui ho po) :
    wire (HttpMsg.Spec.requestText (requestFor (Uri.Spec.parts sp))) (requestFor (Uri.Spec.parts sp)).header (requestFor (Uri.Spec.parts sp)).body
      = Spec.requestText sp ui ho := by
  obtain ⟨_, m2, m3, _⟩ := members h
  have hp := print_asked h
  have hb : (requestFor (Uri.Spec.parts sp)).body = [] := rfl
  rw [hb]
  unfold wire sentHeader
  rw [if_pos (.inl rfl)]
  have hr : HttpMsg.Spec.requestText (requestFor (Uri.Spec.parts sp)) = ascii "GET " ++ Uri.Spec.compose (asked sp) ++ ascii " HTTP/1.1" := by
    unfold HttpMsg.Spec.requestText
    show ascii "GET" ++ [32] ++ Uri.print (Uri.Spec.parts sp) ++ [32] ++ httpSlash ++ Lexical.put 1 ++ [46] ++ Lexical.put 1 = _
    rw [hp]
    have e1 : ascii "GET " = ascii "GET" ++ [32] := by decide
    have e2 : ascii " HTTP/1.1" = [32] ++ httpSlash ++ Lexical.put 1 ++ [46] ++ Lexical.put 1 := by decide +kernel
    rw [e1, e2]
    simp only [List.append_assoc]
  have hh : (requestFor (Uri.Spec.parts sp)).header = [(ascii "Host", ho), (ascii "Connection", ascii "close")] ++
      (if ui.getD [] ≠ [] then [(ascii "Authorization", ascii "Basic " ++ Base64.encode (ui.getD []))] else []) := by
    unfold requestFor
    dsimp only
    rw [m2, m3]
    split <;> rfl
  rw [hr, hh]
  unfold Spec.requestText
  have e1 : ascii " HTTP/1.1\r\n" = ascii " HTTP/1.1" ++ [13, 10] := by decide
  have e2 : ascii "Host: " = ascii "Host" ++ [58, 32] := by decide
  have e3 : ascii "\r\n" = [13, 10] := by decide
  have e4 : ascii "Connection: close\r\n" = ascii "Connection" ++ [58, 32] ++ ascii "close" ++ [13, 10] := by decide
  have e5 : ascii "Authorization: Basic " = ascii "Authorization" ++ [58, 32] ++ ascii "Basic " := by decide
  rw [e1, e2, e3, e4, e5]
  rcases ui with _ | ui
  · simp [Http.Spec.text]
  · rcases ui with _ | ⟨c, ui⟩
    · simp [Http.Spec.text]
    · simp [Http.Spec.text]

/-! ### The constructor -/

theorem visited {net : Str → Nat → Net} {k : Kernel} (ha : Accepts k) (hd : Delivers k) {sp : Split} {ui po : Option Str} {ho : Str} {n : Nat}
    (h : WebUrl sp ui ho po) (hp : PortIs po n) (hn : (net ho n).answers = true) {body : Str} (fuel : Nat) {g : GotResponse} {t : Str}
    (r1 : (recvResponse fuel).flat (net ho n).incoming = (.ok g, t)) (r3 : Stands fuel g.body t body) (ops : List BOp) :
    ∃ s, visit net k fuel (Uri.Spec.compose sp) ops = (.ok (g.header, Http.Spec.takes ops body), some s)
      ∧ s.wire = Spec.requestText sp ui ho ∧ s.wr = [] := by
  obtain ⟨m1, m2, m3, m4⟩ := members h
  obtain ⟨s, s1, s2, s3, s4, s5⟩ := sent k ha (HttpMsg.Spec.requestText (requestFor (Uri.Spec.parts sp))) (requestFor (Uri.Spec.parts sp)).header
    (requestFor (Uri.Spec.parts sp)).body (net ho n).incoming
  have hopen : s.connected = false → s.incoming = [] := by intro h; rw [s2] at h; cases h
  obtain ⟨q1, q2⟩ := run_eq_flat hd (reads_response fuel) s hopen
  rw [s5, r1] at q1 q2
  have q3 := Prog.run_socket_open k hd (reads_response fuel) s hopen
  obtain ⟨q4, q5⟩ := run_keeps k (reads_response fuel) s
  have hex : (exchange fuel (Uri.Spec.parts sp)).run (step k) (fresh (net ho n).incoming) = (.ok g, ((recvResponse fuel).run (step k) s).2) := by
    unfold exchange sendRequest
    rw [HttpMsg.Lemmas.requestLine_eq, Prog.run_bind', s1]
    dsimp only
    rw [Prog.run_bind', q1]
    rfl
  have hcon : Socket.connect (net ho n) Socket.new = (true, fresh (net ho n).incoming) := by
    unfold Socket.connect Socket.dial
    rw [hn]
    rfl
  have hc : construct net k fuel (Uri.Spec.compose sp) = (.ok { resp := g }, some ((recvResponse fuel).run (step k) s).2) := by
    unfold construct
    rw [parsed h]
    dsimp only
    rw [if_neg (by rw [m1]; simp), port_of m4 hp]
    dsimp only
    rw [m3, hcon]
    dsimp only
    rw [hex]
    rfl
  obtain ⟨t', s', e⟩ := stream_run fuel ops { resp := g } t body (.next body rfl rfl r3)
  obtain ⟨w1, _⟩ := run_eq_flat hd (reads_stream fuel ops { resp := g }) _ q3
  obtain ⟨w2, w3⟩ := run_keeps k (reads_stream fuel ops { resp := g }) ((recvResponse fuel).run (step k) s).2
  rw [q2, e] at w1
  refine ⟨((Stream.run fuel ops { resp := g }).run (step k) ((recvResponse fuel).run (step k) s).2).2, ?_, ?_, ?_⟩
  · unfold visit
    rw [hc]
    dsimp only
    rw [w1]
  · rw [w2, q4, s4, request_text h]
  · rw [w3, q5, s3]

end Verif.HttpStream.Lemmas
