import Verif.CgiRun.Lemmas
/-! C83: a program sees the same calls and gives the same answers under CGI and FastCGI. -/
namespace Verif.CgiRun.Props
open Verif Verif.AssocMap Verif.Http Verif.CgiServer Verif.CgiRun Verif.CgiRun.Spec Verif.CgiRun.Lemmas
open Verif.Socket (Str)

theorem carried (c : Call) (h : c.Legal) (max : Nat) (hmax : max < 2 ^ 64) (P : Cgi.St → Prop) (hc : Carries c max P) :
    ∃ f, P f ∧ (Cgi.exec (formEnv (getEnv c.strings)) max c.body).1 = .ok (.run f) := by
  have hget : ascii "GET" = Cgi.Props.str "GET" := by decide +kernel
  have hpost : ascii "POST" = Cgi.Props.str "POST" := by decide +kernel
  have var : ∀ k v, c.Has k v → (find (getEnv c.strings) k).getD [] = v := fun k v hv => by rw [(has_iff c h k v).1 hv]; rfl
  cases hc with
  | get is ps h1 h2 h3 =>
    obtain ⟨f, e1, e2⟩ := Cgi.Props.exec_get (formEnv (getEnv c.strings)) max c.body is ps ((var _ _ h1).trans hget) (var _ _ h2) h3
    exact ⟨f, e2, by rw [e1]⟩
  | post is ps rest type h1 h2 h3 h4 h5 h6 h7 =>
    have hm : ¬ Cgi.Props.str "multipart/" <:+: (formEnv (getEnv c.strings)).contentType := by
      have : Cgi.Props.str "multipart/" = ascii "multipart/" := by decide +kernel
      rw [this]
      show ¬ _ <:+: (find (getEnv c.strings) (ascii "CONTENT_TYPE")).getD []
      rwa [var _ _ h6]
    obtain ⟨f, e1, e2⟩ := Cgi.Props.exec_post (formEnv (getEnv c.strings)) max rest is ps ((var _ _ h1).trans hpost) (var _ _ h3) h5 hmax hm h4
    exact ⟨f, e2, by rw [h2, e1]⟩
  | upload b pre post rest ps es h1 h2 h3 h4 h5 h6 h7 h8 h9 =>
    have ht : (formEnv (getEnv c.strings)).contentType = Cgi.Props.str "multipart/form-data; boundary=" ++ b := by
      have : Cgi.Props.str "multipart/form-data; boundary=" = ascii "multipart/form-data; boundary=" := by decide +kernel
      rw [this]
      exact var _ _ h5
    obtain ⟨f, e1, e2⟩ := Cgi.Props.exec_multipart_partial (formEnv (getEnv c.strings)) max rest b pre post ps es ((var _ _ h1).trans hpost) (var _ _ h3) h4 hmax ht
      h6 h7 h8 h9
    exact ⟨f, e2, by rw [h2, e1]⟩
  | other m h1 h2 h3 =>
    have hm : (formEnv (getEnv c.strings)).method = m := var _ _ h1
    refine ⟨{}, rfl, ?_⟩
    unfold Cgi.exec
    rw [hm, if_neg (fun e => h2 (e.trans (by decide))), if_neg (fun e => h3 (e.trans (by decide)))]
  | bare h1 =>
    have hm : (formEnv (getEnv c.strings)).method = [] := by
      show (find (getEnv c.strings) (ascii "REQUEST_METHOD")).getD [] = []
      rw [(hasnt_iff c h _).1 h1]
      rfl
    refine ⟨{}, rfl, ?_⟩
    unfold Cgi.exec
    rw [hm, if_neg (by decide), if_neg (by decide)]

/-- C83, CGI: `run` sees the method, exactly the variables of the call (others are at most there with an empty value) and the form values or files that the
call carries, and what it writes is what is written to standard output. Missing as in C58: some uploads are not understood, see `Undisturbed`. -/
theorem cgi_served_partial {σ : Type} (p : Program σ) (hmax : p.maxLength < 2 ^ 64) (st : σ) (c : Call) (h : c.Legal) (P : Cgi.St → Prop)
    (hc : Carries c p.maxLength P) :
    ∃ v : View, P v.form ∧ (c.Has (ascii "REQUEST_METHOD") v.method ∨ (∀ m, ¬ c.Has (ascii "REQUEST_METHOD") m) ∧ v.method = []) ∧ Sees c v.env ∧
      runCgi p st c.strings c.body = ((p.run st v startHeader).1, (p.run st v startHeader).2.map fun r => output r.1 r.2) := by
  obtain ⟨f, hf, he⟩ := carried c h p.maxLength hmax P hc
  have hs := sees c h p.maxLength c.body
  refine ⟨⟨(find (touched p.maxLength (getEnv c.strings) c.body) (ascii "REQUEST_METHOD")).getD [], touched p.maxLength (getEnv c.strings) c.body, f⟩, hf, ?_, hs, ?_⟩
  · show c.Has _ ((find (touched _ _ _) _).getD []) ∨ _ ∧ (find (touched _ _ _) _).getD [] = []
    cases hm : find (getEnv c.strings) (ascii "REQUEST_METHOD") with
    | some m =>
      have := (has_iff c h _ _).2 hm
      rw [hs.given _ _ this]
      exact .inl this
    | none =>
      have := (hasnt_iff c h _).2 hm
      refine .inr ⟨this, ?_⟩
      rcases hs.others _ this with e | e <;> rw [e] <;> rfl
  · unfold runCgi answer
    rw [he]

/-- A POST that is longer than allowed is answered with status 500 and the error page; `run` is not called. -/
theorem too_long {σ : Type} (p : Program σ) (st : σ) (c : Call) (h : c.Legal) (n : Nat) (hm : c.Has (ascii "REQUEST_METHOD") (ascii "POST"))
    (hl : c.Has (ascii "CONTENT_LENGTH") (Decimal.digits n)) (hn : n < 2 ^ 64) (hmax : p.maxLength < n) :
    runCgi p st c.strings c.body
      = (st, some (output [(ascii "Content-Type", ascii "text/plain; charset=utf-8"), (ascii "Status", ascii "500 Internal Server Error")] (p.page .tooLong))) := by
  have hpost : ascii "POST" = Cgi.Props.str "POST" := by decide +kernel
  have var : ∀ k v, c.Has k v → (find (getEnv c.strings) k).getD [] = v := fun k v hv => by rw [(has_iff c h k v).1 hv]; rfl
  have := Cgi.Props.exec_limit (formEnv (getEnv c.strings)) p.maxLength n c.body ((var _ _ hm).trans hpost) (var _ _ hl) hn hmax
  have hh : Http.set (ascii "Status") (ascii "500 Internal Server Error") startHeader
      = [(ascii "Content-Type", ascii "text/plain; charset=utf-8"), (ascii "Status", ascii "500 Internal Server Error")] := by decide +kernel
  unfold runCgi answer
  rw [this]
  simp only [hh, Option.map_some]

/-! ### FastCGI -/

theorem execF_eq {σ : Type} (p : Program σ) (st : σ) (c : Call) (room : Nat) :
    (runCgi p st c.strings c.body = ((execF p st (requestOf c room)).1, none) ∧ (execF p st (requestOf c room)).2 = .error .exception) ∨
    (∃ h body, runCgi p st c.strings c.body = ((execF p st (requestOf c room)).1, some (output h body)) ∧
      (execF p st (requestOf c room)).2 = match (pieces h body).foldlM write (false, ⟨[], room⟩) with
        | none => .error .undefined
        | some (_, o) => .ok o.sent) := by
  have e : (read (wanted (formEnv (getEnv c.strings)) p.maxLength) ⟨c.body, -1⟩).1 = c.body.take (wanted (formEnv (getEnv c.strings)) p.maxLength) := by rw [read_eq]
  unfold runCgi execF requestOf
  simp only [e, answer_take]
  cases ha : answer p st (getEnv c.strings) c.body with
  | mk st' r =>
    cases r with
    | none => exact .inl ⟨rfl, rfl⟩
    | some hb =>
      obtain ⟨h, body⟩ := hb
      refine .inr ⟨h, body, ?_⟩
      dsimp only
      cases (pieces h body).foldlM write (false, ⟨[], room⟩) <;> exact ⟨rfl, rfl⟩

theorem execF_sent {h : Header} {body : Str} (hs : (output h body).length < 2 ^ 31) (room : Nat) :
    ∃ b o, (pieces h body).foldlM write (false, ⟨[], room⟩) = some (b, o) ∧ o.sent <+: output h body ∧ ((output h body).length ≤ room → o.sent = output h body) := by
  have def_ : ∀ (xs : List Piece) (s : Bool × Out), (∀ x ∈ xs, (Piece.text x).length < 2 ^ 31) → ∃ s', xs.foldlM write s = some s' := by
    intro xs
    induction xs with
    | nil => intro s _; exact ⟨s, rfl⟩
    | cons x xs ih =>
      intro s hx
      obtain ⟨s1, h1⟩ : ∃ s1, write s x = some s1 := by
        obtain ⟨bad, o⟩ := s
        cases bad with
        | true => exact ⟨(true, o), by cases x <;> rfl⟩
        | false =>
          cases x with
          | endl => exact ⟨_, rfl⟩
          | str t =>
            have ht : ¬ ((t.length : Int) < 0) := by omega
            have : t.length < 2 ^ 31 := hx (.str t) (by simp)
            by_cases hr : (t.length : Int) ≤ o.room
            · exact ⟨_, by simp only [write, xsputn, putStr, toInt_small this, ht, hr, if_false, if_true, Bool.false_eq_true]; rfl⟩
            · exact ⟨_, by simp only [write, xsputn, putStr, toInt_small this, ht, hr, if_false, Bool.false_eq_true]; rfl⟩
      rw [List.foldlM_cons, h1]
      exact ih s1 fun y hy => hx y (List.mem_cons_of_mem _ hy)
  obtain ⟨⟨b, o⟩, hbo⟩ := def_ (pieces h body) (false, ⟨[], room⟩) (pieces_small hs)
  refine ⟨b, o, hbo, ?_, fun hr => ?_⟩
  · obtain ⟨t, e1, e2⟩ := writes_prefix _ _ _ hbo
    rw [pieces_text] at e2
    rw [show o.sent = t by simpa using e1]
    exact e2
  · rw [writes_ok _ _ (pieces_small hs) (by rw [pieces_text]; exact hr), pieces_text] at hbo
    cases hbo
    rfl

/-- C83, FastCGI: the answers are those that calls under CGI give, one after the other, each of a program in the state that the last call left; a web server
that stops taking an answer gets the beginning of it, and the calls after it are not affected. A part: answers have to be shorter than 2³¹ bytes
(`large_undefined`), and an exception ends everything (`exception_ends`). -/
theorem fcgi_partial {σ : Type} (p : Program σ) (st : σ) (cs : List (Call × Nat)) (hs : ∀ out ∈ (oneByOne p st (cs.map (·.1))).1, out.length < 2 ^ 31) :
    (loop p st (cs.map fun c => requestOf c.1 c.2)).2 = (if (oneByOne p st (cs.map (·.1))).2 then .exception else .done) ∧
    List.Forall₂ (fun got out => got <+: out) (loop p st (cs.map fun c => requestOf c.1 c.2)).1 (oneByOne p st (cs.map (·.1))).1 ∧
    ((∀ (i : Nat) (c : Call × Nat), cs[i]? = some c → ∀ out : Str, (oneByOne p st (cs.map (·.1))).1[i]? = some out → out.length ≤ c.2) →
      (loop p st (cs.map fun c => requestOf c.1 c.2)).1 = (oneByOne p st (cs.map (·.1))).1) := by
  induction cs generalizing st with
  | nil => exact ⟨rfl, .nil, fun _ => rfl⟩
  | cons c cs ih =>
    rw [List.map_cons, List.map_cons]
    rw [List.map_cons] at hs
    unfold oneByOne loop
    unfold oneByOne at hs
    have he := execF_eq p st c.1 c.2
    cases hx : execF p st (requestOf c.1 c.2) with
    | mk st' r =>
      rw [hx] at he
      rcases he with ⟨h1, h2⟩ | ⟨h, body, h1, h2⟩
      · rw [h1]
        dsimp only at h2 ⊢
        rw [h2]
        exact ⟨rfl, .nil, fun _ => rfl⟩
      · rw [h1] at hs ⊢
        dsimp only at h2 hs ⊢
        obtain ⟨b, o, e1, e2, e3⟩ := execF_sent (hs (output h body) List.mem_cons_self) c.2
        rw [e1] at h2
        dsimp only at h2
        rw [h2]
        dsimp only
        obtain ⟨i1, i2, i3⟩ := ih st' fun out ho => hs out (List.mem_cons_of_mem _ ho)
        refine ⟨i1, .cons e2 i2, fun hroom => ?_⟩
        rw [e3 (hroom 0 c rfl _ rfl), i3 fun i c' hc out ho => hroom (i + 1) c' (by simpa using hc) out (by simpa using ho)]

/-- So a program that keeps no state answers every request just as if it were called for this one alone under CGI. -/
theorem fcgi_stateless_partial (p : Program Unit) (cs : List (Call × Nat)) (f : Call → Str)
    (hf : ∀ c ∈ cs, runCgi p () c.1.strings c.1.body = ((), some (f c.1)) ∧ (f c.1).length < 2 ^ 31 ∧ (f c.1).length ≤ c.2) :
    loop p () (cs.map fun c => requestOf c.1 c.2) = (cs.map fun c => f c.1, .done) := by
  have e : oneByOne p () (cs.map (·.1)) = (cs.map fun c => f c.1, false) := by
    induction cs with
    | nil => rfl
    | cons c cs ih =>
      rw [List.map_cons, oneByOne, (hf c (by simp)).1]
      dsimp only
      rw [ih fun c hc => hf c (List.mem_cons_of_mem _ hc)]
      rfl
  obtain ⟨h1, _, h3⟩ := fcgi_partial p () cs (by
    rw [e]
    intro out ho
    obtain ⟨c, hc, rfl⟩ := List.mem_map.1 ho
    exact (hf c hc).2.1)
  rw [e] at h1 h3
  have h3 := h3 fun i c hc out ho => by
    have : (cs.map fun c => f c.1)[i]? = some (f c.1) := by rw [List.getElem?_map, hc]; rfl
    rw [this] at ho
    cases ho
    exact (hf c (List.mem_of_getElem? hc)).2.2
  exact Prod.ext h3 h1

/-! ### Examples -/

/-- A program that counts its calls, and answers with the value of `a`; without one it throws an exception. -/
def echo : Program Nat where
  run st v h := (st + 1, (find v.form.query (ascii "a")).map fun x => (Http.set (ascii "X-Count") (Lexical.put st) h, x))
  page _ := ascii "error"
  maxLength := 5

def getCall : Call := ⟨[(ascii "PATH", ascii "a=b"), (ascii "REQUEST_METHOD", ascii "GET"), (ascii "QUERY_STRING", ascii "a=%FF1")], []⟩

def postCall : Call := ⟨[(ascii "REQUEST_METHOD", ascii "POST"), (ascii "CONTENT_LENGTH", ascii "3"), (ascii "CONTENT_TYPE", ascii "text/plain")], [97, 61, 255]⟩

theorem getCall_legal : getCall.Legal := ⟨by decide +kernel, by decide +kernel⟩

theorem postCall_legal : postCall.Legal := ⟨by decide +kernel, by decide +kernel⟩

example : Carries postCall 5 fun f => Cgi.Spec.Holds f [([97], [255])] ∧ f.file = [] ∧ f.info = [] :=
  .post [.pair [97] [255]] _ [] (ascii "text/plain") (by unfold Call.Has; decide +kernel) (by decide +kernel) (by unfold Call.Has; decide +kernel)
    (.cons (.pair (by decide) (by decide) (.plain _ (by decide) (by decide) .nil) (.plain _ (by decide) (by decide) .nil)) .nil) (by decide +kernel)
    (by unfold Call.Has; decide +kernel) (by decide +kernel)

example : (runCgi echo 7 getCall.strings getCall.body).2
    = some (ascii "Content-Type: text/plain; charset=utf-8\nX-Count: 7\n\n" ++ [255, 49]) := by decide +kernel

example : loop echo 0 [requestOf getCall 1000, requestOf postCall 45, requestOf getCall 1000]
    = ([ascii "Content-Type: text/plain; charset=utf-8\nX-Count: 0\n\n" ++ [255, 49], ascii "Content-Type: text/plain; charset=utf-8\nX-Cou",
      ascii "Content-Type: text/plain; charset=utf-8\nX-Count: 2\n\n" ++ [255, 49]], .done) := by decide +kernel

example : ∀ out ∈ (oneByOne echo 0 [getCall, postCall, getCall]).1, out.length < 2 ^ 31 := by decide +kernel

/-! ### What goes wrong -/

/-- A call with an exception ends the program: its web server gets no answer, and all later calls get none either. The web server of this library goes on
(`CgiServer.Props.exception_unanswered`). -/
theorem exception_ends {σ : Type} (p : Program σ) (st : σ) (c : Call) (room : Nat) (later : List Request) (hx : (runCgi p st c.strings c.body).2 = none) :
    loop p st (requestOf c room :: later) = ([], .exception) := by
  unfold loop
  have he := execF_eq p st c room
  cases h : execF p st (requestOf c room) with
  | mk st' r =>
    rw [h] at he
    rcases he with ⟨_, h2⟩ | ⟨_, _, h1, _⟩
    · dsimp only at h2
      rw [h2]
    · rw [h1] at hx
      cases hx

/-- A POST that calls itself multipart, without any parts. -/
def badUpload : Call :=
  ⟨[(ascii "REQUEST_METHOD", ascii "POST"), (ascii "CONTENT_LENGTH", ascii "0"), (ascii "CONTENT_TYPE", ascii "multipart/form-data; boundary=x")], []⟩

/-- And anybody can send such a call, whatever the program is. -/
theorem anybody_ends {σ : Type} (p : Program σ) (st : σ) (room : Nat) (later : List Request) :
    loop p st (requestOf badUpload room :: later) = ([], .exception) := by
  apply exception_ends
  have hf : formEnv (getEnv badUpload.strings) = ⟨ascii "POST", [], ascii "0", ascii "multipart/form-data; boundary=x"⟩ := by
    have h : ∀ a b c d : Str, (formEnv (getEnv badUpload.strings)).method = a → (formEnv (getEnv badUpload.strings)).queryString = b →
      (formEnv (getEnv badUpload.strings)).contentLength = c → (formEnv (getEnv badUpload.strings)).contentType = d → formEnv (getEnv badUpload.strings) = ⟨a, b, c, d⟩ := by
      intro a b c d h1 h2 h3 h4
      rw [← h1, ← h2, ← h3, ← h4]
    exact h _ _ _ _ (by decide +kernel) (by decide +kernel) (by decide +kernel) (by decide +kernel)
  have : (Cgi.exec ⟨ascii "POST", [], ascii "0", ascii "multipart/form-data; boundary=x"⟩ p.maxLength []).1 = .error .invalidHeader := by
    have h0 : Cgi.contentLength (ascii "0") = 0 := by decide +kernel
    have h1 : (Cgi.findStr Cgi.multipartSlash (ascii "multipart/form-data; boundary=x")).isSome = true := by decide +kernel
    have h2 : (do
          let b ← Cgi.boundaryOf (ascii "multipart/form-data; boundary=x")
          let st ← Cgi.parseMultipart [] b {}
          .ok (if (Cgi.findStr Cgi.boundaryEq (ascii "multipart/form-data; boundary=x")).isSome then Cgi.Answer.run st else .page .protocol) : Except Cgi.Err Cgi.Answer)
        = .error .invalidHeader := by decide +kernel
    unfold Cgi.exec
    rw [if_neg (by decide), if_pos (by decide)]
    simp only [h0, Nat.not_lt_zero, if_false, List.length_nil, List.take_nil]
    rw [if_pos h1]
    exact h2
  unfold runCgi answer
  rw [hf, show badUpload.body = [] from rfl, this]
  rfl

/-- An answer whose body has 2³¹ bytes or more (up to 2³²) is undefined behaviour: its length is negative as an `int`. -/
theorem large_undefined (h : Header) (body : Str) (hh : (output h []).length < 2 ^ 31) (hb : 2 ^ 31 ≤ body.length) (hb' : body.length < 2 ^ 32) (room : Nat)
    (hr : (output h []).length ≤ room) : (pieces h body).foldlM write (false, ⟨[], room⟩) = none := by
  have e : pieces h body = (h.map fun e => [Piece.str e.1, .str (ascii ": "), .str e.2, .endl]).flatten ++ [.endl] ++ [.str body] := rfl
  have e0 : (pieces h []).flatMap Piece.text
      = ((h.map fun e : Str × Str => [Piece.str e.1, .str (ascii ": "), .str e.2, .endl]).flatten ++ [Piece.endl] : List Piece).flatMap Piece.text := by
    unfold pieces
    rw [List.flatMap_append]
    simp [Piece.text]
  rw [e, List.foldlM_append, writes_ok _ _ (fun x hx => pieces_small hh x (List.mem_append_left _ hx)) (by rw [← e0, pieces_text]; exact hr)]
  have : toInt body.length < 0 := by unfold toInt; omega
  simp [write, xsputn, putStr, this]

/-- A string of 2³¹ bytes is one. -/
example : (List.replicate (2 ^ 31) (0 : UInt8)).length = 2 ^ 31 ∧ (output startHeader []).length ≤ 1000 := ⟨List.length_replicate, by decide +kernel⟩

end Verif.CgiRun.Props
