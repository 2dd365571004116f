import Verif.Http.LemmasBody
import Verif.Socket.Props
import Verif.Util
/-! Properties C51, C52 and C53: HTTP headers and bodies. -/

namespace Verif.Http.Props
open Verif.Socket Verif.Http Verif.Http.Spec Verif.Http.Lemmas

/-- ASCII text as bytes. -/
def str (s : String) : Str := s.toUTF8.toList

/-! ### C51: the header as a map -/

/-- After any history, `has_key` and both ways of reading a value answer as a map does whose names do not distinguish case. Missing from
C51: reading with `get` is not without effect, see `get_inserts`. -/
theorem header_map_partial (ops : List HOp) (n : Str) :
    hasKey n (after ops) = (value ops n).isSome ∧ getConst n (after ops) = (value ops n).getD []
      ∧ (get n (after ops)).1 = (value ops n).getD [] := by
  refine ⟨by rw [hasKey_iff, lookup_after], by rw [getConst_eq, lookup_after], ?_⟩
  show getConst n (update n id (after ops)) = _
  rw [getConst_eq, lookup_update, lookup_after, if_pos rfl]
  rfl

/-- The names stay in the order of their arrival, and no name occurs twice. -/
theorem header_order (ops : List HOp) :
    (after ops).map (fun e => fold e.1) = order ops ∧ ((after ops).map fun e => fold e.1).Nodup :=
  ⟨(names_after ops).2, (names_after ops).1⟩

/-- Setting a value keeps every other field, with the spelling of its name. -/
theorem set_keeps (k v : Str) (ops : List HOp) :
    set k v (after ops) = if fold k ∈ order ops
      then (after ops).map (fun e => if fold e.1 = fold k then (e.1, v) else e) else after ops ++ [(k, v)] := by
  obtain ⟨h1, h2⟩ := names_after ops
  rw [← h2]
  generalize after ops = h at h1
  clear h2
  split
  · rename_i hk
    induction h with
    | nil => simp [names] at hk
    | cons e h ih =>
      have e1 : names (e :: h) = fold e.1 :: names h := rfl
      rw [e1, List.nodup_cons] at h1
      unfold set update
      by_cases hc : fold e.1 = fold k
      · rw [if_pos ((cicmp_iff _ _).2 hc), List.map_cons, if_pos hc]
        congr 1
        symm
        rw [List.map_congr_left (g := id), List.map_id]
        intro x hx
        rw [if_neg]
        · rfl
        · intro h'
          exact h1.1 (hc ▸ h' ▸ List.mem_map_of_mem hx)
      · rw [if_neg (fun h' => hc ((cicmp_iff _ _).1 h')), List.map_cons, if_neg hc]
        rw [e1, List.mem_cons] at hk
        exact congrArg (e :: ·) (ih h1.2 (hk.resolve_left (Ne.symm hc)))
  · rename_i hk
    exact set_new k v h hk

example : after [.set (str "HOST") (str "b"), .set (str "Accept") (str "x"), .set (str "Host") (str "a")]
    = [(str "Host", str "b"), (str "Accept", str "x")] := by decide +kernel

example : value [.set (str "HOST") (str "b"), .erase (str "host"), .set (str "Host") (str "a")] (str "hOst") = some (str "b") := by
  decide +kernel

/-- Not a map: asking for a name creates it, so a header that was only read has a field more, which is then sent. -/
theorem get_inserts :
    hasKey (str "Content-Length") [] = false
      ∧ (get (str "Content-Length") []).2 = [(str "Content-Length", [])]
      ∧ hasKey (str "Content-Length") (get (str "Content-Length") []).2 = true := by decide +kernel

/-! ### C52: the header on the wire -/

/-- Reading what was sent gives the header back, and leaves what follows it. -/
theorem header_roundtrip (h : Header) (hl : ∀ e ∈ h, Legal e) (hn : (h.map fun e => fold e.1).Nodup) (rest : Str) (fuel : Nat)
    (hf : h.length < fuel) :
    (headerOfSocket fuel).flat (text h ++ rest) = (.ok h, rest) :=
  header_text h rest fuel hf hl hn

/-- `header::send` writes that text: with any kernel that accepts, flushed, it is what arrives. -/
theorem header_sent (h : Header) (k : Kernel) (hk : Socket.Spec.Accepts k) :
    (run k (sendOps h ++ [.flush]) (Socket.Spec.fresh [])).2.wire = text h := by
  have ho : ∀ o ∈ sendOps h ++ [Op.flush], Socket.Spec.Writing o := by
    intro o ho
    rw [List.mem_append] at ho
    rcases ho with ho | ho
    · exact writing_sendOps h o ho
    · rw [List.mem_singleton.1 ho]; trivial
  rw [Socket.Props.output_flushed k [] (sendOps h) (Socket.Props.output_accepts k hk [] _ ho).1]
  exact written_sendOps h

/-- From socket to socket, whatever pieces the kernels of both sides make of the stream. -/
theorem header_end_to_end (h : Header) (hl : ∀ e ∈ h, Legal e) (hn : (h.map fun e => fold e.1).Nodup) (rest : Str)
    (k k' : Kernel) (hk : Socket.Spec.Accepts k) (hk' : Socket.Spec.Delivers k') :
    let wire := (run k (sendOps h ++ [.flush]) (Socket.Spec.fresh [])).2.wire
    let r := (headerOfSocket (h.length + 1)).run (step k') (Socket.Spec.fresh (wire ++ rest))
    r.1 = .ok h ∧ r.2.rd ++ r.2.incoming = rest := by
  dsimp only
  rw [header_sent h k hk]
  obtain ⟨h1, h2⟩ := Prog.socket_eq_flat k' hk' (reads_header (h.length + 1)) (text h ++ rest)
  rw [header_roundtrip h hl hn rest _ (Nat.lt_succ_self _)] at h1 h2
  exact ⟨h1, h2⟩

/-- A value that goes on in a second line that begins with spaces: the line end and the spaces become one space. -/
theorem header_folded (k a w b : Str) (c : UInt8) (rest : Str) (hl : Legal (k, a)) (ha : ∀ x ∈ a.getLast?, ¬ Space x) (hne : a ≠ [])
    (hc : Space c ∧ c ≠ 10) (hw : ∀ x ∈ w, Space x ∧ x ≠ 10) (hb : single true b) (hb0 : b ≠ []) (hb1 : 10 ∉ b)
    (hs : w.length + b.length + 3 ≤ 4096) :
    (headerOfSocket 3).flat (k ++ [58, 32] ++ a ++ [13, 10] ++ (c :: w ++ b ++ [13, 10]) ++ ([13, 10] ++ rest))
      = (.ok [(k, a ++ c :: b)], rest) := by
  obtain ⟨g1, g2, g3, _, x, l, g5, _, _⟩ := legal_line hl
  have hlast : (32 :: a).getLast?.any isspace = false := by
    have : (32 :: a).getLast? = a.getLast? := by
      cases a with
      | nil => exact absurd rfl hne
      | cons y a => rfl
    rw [this]
    cases hx : a.getLast? with
    | none => rfl
    | some y =>
      cases hy : isspace y with
      | false => simp [hy]
      | true => exact absurd ((isspace_iff y).1 hy) (ha y (by simp [hx]))
  have e : k ++ [58, 32] ++ a ++ [13, 10] ++ (c :: w ++ b ++ [13, 10]) ++ ([13, 10] ++ rest)
      = fieldLine (k, a) ++ [13, 10] ++ ((c :: w ++ b) ++ [13, 10] ++ ([] ++ [13, 10] ++ rest)) := by simp [fieldLine]
  have h1 := flat_line (fieldLine (k, a)) ((c :: w ++ b) ++ [13, 10] ++ ([] ++ [13, 10] ++ rest)) g1 g2
  have h2 := flat_line (c :: w ++ b) ([] ++ [13, 10] ++ rest)
    (by
      simp only [List.cons_append, List.mem_cons, List.mem_append, not_or]
      exact ⟨Ne.symm hc.2, fun h => (hw 10 h).2 rfl, hb1⟩)
    (by simp; omega)
  have h3 := flat_line [] rest (by simp) (by decide)
  have hj : joinLws (32 :: a) (c :: w ++ b) = 32 :: (a ++ c :: b) := by
    rw [List.cons_append, joinLws, hlast, Bool.false_and, if_neg (by simp), joinLws_spaces, joinLws_single]
    · simp
    · have : ((32 :: a ++ [c]).getLast?.any isspace) = true := by
        rw [List.getLast?_append]; simp [(isspace_iff c).2 hc.1]
      rw [this]
      exact hb
    · exact fun x hx => (isspace_iff x).2 (hw x hx).1
    · rw [List.getLast?_append]; simp [(isspace_iff c).2 hc.1]
  have h13 : ¬ (c :: (w ++ b) = [13]) := by
    intro h
    have := (List.cons.inj h).2
    rw [List.append_eq_nil_iff] at this
    exact hb0 this.2
  have hr : (readLws (Prog.getline (lineLimit : Nat)) 3 (32 :: a)).flat ((c :: w ++ b) ++ [13, 10] ++ ([] ++ [13, 10] ++ rest))
      = (some (none, 32 :: (a ++ c :: b)), rest) := by
    unfold readLws
    rw [flat_bind_eq h2, List.cons_append]
    dsimp only
    rw [if_neg h13, if_pos ((isspace_iff c).2 hc.1), ← List.cons_append, hj]
    unfold readLws
    rw [flat_bind_eq h3]
    rfl
  have hd : (32 :: (a ++ c :: b)).dropWhile isspace = a ++ c :: b := by
    rw [List.dropWhile_cons, if_pos (by decide), dropWhile_head]
    intro y hy
    cases a with
    | nil => exact absurd rfl hne
    | cons z a =>
      obtain rfl : z = y := Option.some.inj hy
      cases hx : isspace z with
      | false => rfl
      | true => exact absurd ((isspace_iff z).1 hx) (hl.start z rfl)
  unfold headerOfSocket readHeader
  rw [e, flat_bind_eq h1, g5]
  dsimp only
  rw [← g5]
  unfold readFields
  rw [g3]
  dsimp only
  rw [flat_bind_eq hr]
  dsimp only
  rw [hd]
  rfl

example : Legal (str "Host", str "example.com:80 ") :=
  ⟨by decide +kernel, by unfold Space; decide +kernel, by decide +kernel, by unfold Space; decide +kernel, by decide +kernel⟩

example : text [(str "Host", str "a"), (str "X", [])] = str "Host: a\r\nX: \r\n\r\n" := by decide +kernel

example : (headerOfSocket 9).flat (str "A: 1\r\nb : x\r\n \t y\r\n\r\nbody") = (.ok [(str "A", str "1"), (str "b", str "x y")], str "body") := by
  decide +kernel

/-- Beyond legal fields: spaces at the beginning of a value are lost, a line without a colon is taken for a name. -/
theorem header_lenient :
    (headerOfSocket 9).flat (text [(str "A", str " 1")] ++ str "x") = (.ok [(str "A", str "1")], str "x")
      ∧ (headerOfSocket 9).flat (str "no colon \r\n\r\nx") = (.ok [(str "no colon ", [])], str "x") := by decide +kernel

/-- A header read from an `istream` keeps the carriage returns, and an empty one swallows the body. -/
theorem header_istream :
    headerOfStream (str "A: 1\r\n\r\nbody") = (.ok [(str "A", str "1\r")], str "body")
      ∧ headerOfStream (str "\r\nbody\n\n") = (.ok [(str "\r", []), (str "body", [])], []) := by decide +kernel

/-! ### C53: bodies -/

/-- A body with a positive length: the characters delivered are those of the first `n` bytes, however they are asked for; nothing behind
them is taken from the stream, and once the end is reached nothing of them is left there. -/
theorem fixed_body_partial (n : Nat) (hn : 0 < n) (stream : Str) (ops : List BOp) :
    ((Fixed.run ops { rest := n }).flat stream).1.1 = takes ops (stream.take n)
      ∧ (∃ x, ((Fixed.run ops { rest := n }).flat stream).2 = x ++ stream.drop n)
      ∧ (left ops (stream.take n) = [] → ((Fixed.run ops { rest := n }).flat stream).2 = stream.drop n) := by
  obtain ⟨b', s', h1, h2⟩ := fixed_run ops { rest := n } stream (stream.take n) (stream.drop n)
    (Or.inl ⟨rfl, by show (0 : Int) < n; omega, by simp, by simp⟩)
  rw [h1]
  refine ⟨rfl, ?_, fun hl => ?_⟩
  · rcases h2 with ⟨_, _, _, h⟩ | ⟨_, _, h⟩
    · exact ⟨s'.take b'.rest.toNat, by rw [h, List.take_append_drop]⟩
    · exact ⟨[], by rw [h]; rfl⟩
  · rw [hl] at h2
    rcases h2 with ⟨_, h3, h4, h⟩ | ⟨_, _, h⟩
    · have h5 : s'.take b'.rest.toNat = [] := (List.append_eq_nil_iff.1 h4.symm).2
      have : s' = [] := by
        rcases List.take_eq_nil_iff.1 h5 with h6 | h6
        · omega
        · exact h6
      show s' = _
      rw [h, this]
      simp
    · exact h.symm

/-- A body of length 0, or negative, does not end: it delivers whatever follows. -/
theorem fixed_endless (n : Int) (hn : n ≤ 0) (stream : Str) (ops : List BOp) :
    ((Fixed.run ops { rest := n }).flat stream).1.1 = takes ops stream :=
  endless_run ops _ stream stream ⟨rfl, hn, rfl⟩

/-- A chunked body without the byte 255: the characters delivered are those of the chunks, and at its end the stream stands behind the
body, whatever the chunks, the sizes of reading, extensions and trailers. -/
theorem chunked_body_partial (chunks : List Chunk) (last : Chunk) (trailer : List Str) (rest : Str) (ops : List BOp) (fuel : Nat)
    (hc : ∀ c ∈ chunks, LegalChunk c) (hl : LegalLine last.digits last.ext) (hz : hexValue last.digits = 0)
    (ht : ∀ l ∈ trailer, LegalTrailer l) (hf : trailer.length < fuel) (h255 : 255 ∉ content chunks) :
    ∃ b s, (Chunked.run fuel ops {}).flat (bodyText chunks last trailer ++ rest) = (.ok (takes ops (content chunks), b), s)
      ∧ (none ∈ takes ops (content chunks) → s = rest) := by
  obtain ⟨b', s', h1, _, h3⟩ := chunked_run hl hz ht hf ops {} (bodyText chunks last trailer ++ rest) (content chunks) (.between [] chunks hc)
  have hm : ∀ (ops : List BOp) (v : Str), 255 ∉ v → (takes ops v).map (·.bind asInt) = takes ops v := by
    intro ops
    have hh : ∀ v : Str, 255 ∉ v → v.head?.bind asInt = v.head? := by
      intro v hv
      cases v with
      | nil => rfl
      | cons c v =>
        have : c ≠ 255 := by rintro rfl; exact hv (by simp)
        simp [asInt, this]
    induction ops with
    | nil => intro v _; rfl
    | cons o ops ih =>
      intro v hv
      cases o with
      | peek => simp only [takes, List.map_cons, hh v hv, ih v hv]
      | take => simp only [takes, List.map_cons, hh v hv, ih v.tail (fun h => hv (List.mem_of_mem_tail h))]
  rw [hm ops _ h255] at h1
  exact ⟨b', s', h1, h3⟩

/-- With the byte 255 the rest is right, but that byte reads as the end of the body. -/
theorem chunked_body_eof (chunks : List Chunk) (last : Chunk) (trailer : List Str) (rest : Str) (ops : List BOp) (fuel : Nat)
    (hc : ∀ c ∈ chunks, LegalChunk c) (hl : LegalLine last.digits last.ext) (hz : hexValue last.digits = 0)
    (ht : ∀ l ∈ trailer, LegalTrailer l) (hf : trailer.length < fuel) :
    ∃ b s, (Chunked.run fuel ops {}).flat (bodyText chunks last trailer ++ rest)
      = (.ok ((takes ops (content chunks)).map fun c => if c = some 255 then none else c, b), s) := by
  obtain ⟨b', s', h1, _, _⟩ := chunked_run hl hz ht hf ops {} (bodyText chunks last trailer ++ rest) (content chunks) (.between [] chunks hc)
  refine ⟨b', s', ?_⟩
  rw [h1]
  have : (fun c : Option UInt8 => c.bind asInt) = fun c => if c = some 255 then none else c := by
    funext c
    cases c with
    | none => rfl
    | some c =>
      by_cases h : c = 255
      · subst h; rfl
      · simp [asInt, h]
  rw [this]

/-- A chunk with the byte 255: the reader is told that the body ends before it. -/
theorem chunked_eof_wrong :
    ∃ b s, (Chunked.run 1 [.take, .take, .take] {}).flat (str "3\r\n" ++ [65, 255, 66] ++ str "\r\n0\r\n\r\n") = (.ok ([some 65, none, some 66], b), s) :=
  ⟨⟨true, 0, []⟩, str "0\r\n\r\n", by decide +kernel⟩

/-- A negative chunk size is not refused: the next read has a negative size. -/
theorem chunked_negative (ops : List BOp) (rest : Str) :
    ((Chunked.run 1 (.take :: ops) {}).flat (str "-5\r\n" ++ rest)).1 = .error .negative := by
  have h1 : (Prog.getline (lineLimit : Nat)).flat (str "-5\r\n" ++ rest) = (some (str "-5"), rest) := by
    have e : str "-5\r\n" = str "-5" ++ [13, 10] := by decide +kernel
    rw [e]
    exact flat_line (str "-5") rest (by decide +kernel) (by decide +kernel)
  have h2 : (fill 1 {}).flat (str "-5\r\n" ++ rest) = (.error .negative, rest) := by
    unfold fill
    rw [if_neg (by decide), if_pos rfl]
    have h3 : (readChunkSize {}).flat (str "-5\r\n" ++ rest) = ({ rest := -5 }, rest) := by
      unfold readChunkSize
      rw [if_neg (by decide), flat_bind_eq h1]
      have : hexInt (str "-5") = -5 := by decide +kernel
      dsimp only
      rw [this]
      rfl
    rw [flat_bind_eq h3]
    rfl
  have h4 : (Chunked.uflow 1 {}).flat (str "-5\r\n" ++ rest) = (.error .negative, rest) := by
    unfold Chunked.uflow
    have : (Chunked.underflow 1 {}).flat (str "-5\r\n" ++ rest) = (.error .negative, rest) := by
      unfold Chunked.underflow
      rw [if_pos rfl, flat_bind_eq h2]
      rfl
    rw [flat_bind_eq this]
    rfl
  unfold Chunked.run
  rw [flat_bind_eq h4]
  rfl

/-- On a socket whose kernel delivers, bodies read as on the stream, however the kernel cuts it. -/
theorem body_socket (k : Kernel) (hk : Socket.Spec.Delivers k) (incoming : Str) (ops : List BOp) (n : Int) (fuel : Nat) :
    ((Fixed.run ops { rest := n }).run (step k) (Socket.Spec.fresh incoming)).1 = ((Fixed.run ops { rest := n }).flat incoming).1
      ∧ ((Chunked.run fuel ops {}).run (step k) (Socket.Spec.fresh incoming)).1 = ((Chunked.run fuel ops {}).flat incoming).1 :=
  ⟨(Prog.socket_eq_flat k hk (reads_fixed ops _) incoming).1, (Prog.socket_eq_flat k hk (reads_chunked fuel ops _) incoming).1⟩

example : LegalChunk ⟨str "00a", str ";name=1", str "0123456789"⟩ :=
  ⟨⟨by decide +kernel, by decide +kernel, Or.inr (Or.inl (by decide +kernel)), by decide +kernel, by decide +kernel⟩,
    by decide +kernel, by decide +kernel, by decide +kernel⟩

example : (Chunked.run 2 [.take, .peek, .take, .take, .take, .take] {}).flat (str "2;x\r\nab\r\n1\r\nc\r\n0\r\nT: 1\r\n\r\nnext")
    = (.ok ([some 97, some 98, some 98, some 99, none, none], ⟨false, 0, []⟩), str "next") := by decide +kernel

example : (Fixed.run [.take, .peek, .take, .take] { rest := 2 }).flat (str "abcd")
    = (([some 97, some 98, some 98, none], ⟨false, 0, none⟩), str "cd") := by decide +kernel

/-- Finding: the size of a chunk may have a sign and the prefix of C, which RFC 7230 does not know: a relay that reads `0x2` as 0 and this library see
different bodies. -/
theorem chunked_prefix : ((Chunked.run 9 [.take, .take, .take] {}).flat (str "+0x2\r\nab\r\n0\r\n\r\n")).1.map (·.1) = .ok [some 97, some 98, none] := by
  decide +kernel

end Verif.Http.Props
