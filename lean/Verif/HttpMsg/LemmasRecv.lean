import Verif.HttpMsg.Lemmas
import Verif.HttpMsg.Spec
/-! Lemmas about receiving messages. -/

namespace Verif.HttpMsg.Lemmas
open Verif.Socket Verif.Http Verif.HttpMsg Verif.HttpMsg.Spec

/-! ### The header -/

theorem names_eq (h : Header) : Http.Lemmas.names h = names h := rfl

theorem field_eq (h : Header) (n : Str) : field h n = (Http.Lemmas.lookup h n).getD [] := rfl

theorem withLength_eq (h : Header) (dat : Str) : withLength h dat = sentHeader h dat := by
  unfold withLength sentHeader
  by_cases hd : dat = []
  · simp [hd]
  · have hl : dat.length > 0 := List.length_pos_iff.2 hd
    by_cases hk : Http.Spec.fold contentLength ∈ names h
    · have : hasKey contentLength h = true := by
        rw [Http.Lemmas.hasKey_iff]
        cases hx : Http.Lemmas.lookup h contentLength with
        | none => exact absurd hk (Http.Lemmas.lookup_none.1 hx)
        | some v => rfl
      rw [if_neg (by simp [this]), if_pos (.inr hk)]
    · have : hasKey contentLength h = false := by
        rw [Http.Lemmas.hasKey_iff, Http.Lemmas.lookup_none.2 hk]
        rfl
      rw [if_pos (by simp [this, hl]), if_neg (by simp [hd, hk])]
      exact Http.Lemmas.set_new _ _ _ hk

theorem digits_length (k : Nat) : ∀ n, n < 10 ^ (k + 1) → (Decimal.digits n).length ≤ k + 1 := by
  induction k with
  | zero =>
    intro n hn
    rw [Decimal.digits]
    split
    · simp
    · omega
  | succ k ih =>
    intro n hn
    rw [Decimal.digits]
    split
    · simp
    · have h1 : n / 10 < 10 ^ (k + 1) := by
        rw [Nat.div_lt_iff_lt_mul (by decide)]
        rw [Nat.pow_succ] at hn
        exact hn
      have := ih _ h1
      simp only [List.length_append, List.length_singleton]
      omega

theorem put_nat (n : Nat) : Lexical.put (n : Int) = Decimal.digits n := by
  unfold Lexical.put
  rw [if_neg (by omega)]
  simp

theorem put_nat_legal (n : Nat) (h : n < 2 ^ 63) : Http.Spec.Legal (contentLength, Lexical.put (n : Int)) := by
  have hc := put_chars (n : Int)
  refine ⟨(by decide : contentLength ≠ []), ?_, ?_, ?_, ?_⟩
  · show ∀ c ∈ contentLength, _
    unfold Http.Spec.Space; decide
  · intro h10
    exact (number_char 10 (hc 10 h10)).2.2.2.1 rfl
  · intro c hx hs
    have := (number_char c (hc c (List.mem_of_mem_head? hx))).1
    rw [isspace_eq, Bool.eq_false_iff] at this
    exact this ((Http.Lemmas.isspace_iff c).2 hs)
  · have := digits_length 18 n (Nat.lt_trans h (by decide))
    show contentLength.length + (Lexical.put (n : Int)).length + 4 ≤ 4096
    rw [put_nat]
    have : contentLength.length = 14 := rfl
    omega

theorem sent_legal {h : Header} {body : Str} (hm : LegalMessage h body) :
    (∀ e ∈ sentHeader h body, Http.Spec.Legal e) ∧ (names (sentHeader h body)).Nodup ∧ (sentHeader h body).length ≤ h.length + 1 := by
  unfold sentHeader
  split
  · exact ⟨hm.header.fields, hm.header.once, by omega⟩
  · rename_i hk
    rw [not_or] at hk
    refine ⟨?_, ?_, by simp⟩
    · intro e he
      rcases List.mem_append.1 he with he | he
      · exact hm.header.fields e he
      · rw [List.mem_singleton.1 he]
        exact put_nat_legal _ hm.size
    · have e : names (h ++ [(contentLength, Lexical.put (body.length : Int))]) = names h ++ [Http.Spec.fold contentLength] := by simp [names]
      rw [e, List.nodup_append]
      refine ⟨hm.header.once, by simp, ?_⟩
      intro a ha b hb
      rw [List.mem_singleton.1 hb]
      rintro rfl
      exact hk.2 ha

theorem lookup_some {h : Header} {n v : Str} (hl : Http.Lemmas.lookup h n = some v) : ∃ e ∈ h, Http.Spec.fold e.1 = Http.Spec.fold n ∧ e.2 = v := by
  unfold Http.Lemmas.lookup at hl
  rw [Option.map_eq_some_iff] at hl
  obtain ⟨e, h1, h2⟩ := hl
  refine ⟨e, List.mem_of_find?_eq_some h1, ?_, h2⟩
  have := List.find?_some h1
  simpa using this

/-- The length that is sent. -/
theorem sent_length {h : Header} {body : Str} (hm : LegalMessage h body) :
    Http.Lemmas.lookup (sentHeader h body) contentLength = some (Lexical.put body.length)
      ∨ body = [] ∧ Http.Lemmas.lookup (sentHeader h body) contentLength = none := by
  cases hx : Http.Lemmas.lookup (sentHeader h body) contentLength with
  | some v =>
    left
    obtain ⟨e, h1, h2, h3⟩ := lookup_some hx
    rw [← h3]
    congr 1
    unfold sentHeader at h1
    split at h1
    · exact hm.length e h1 h2
    · rcases List.mem_append.1 h1 with h1 | h1
      · exact hm.length e h1 h2
      · rw [List.mem_singleton.1 h1]
  | none =>
    right
    refine ⟨?_, rfl⟩
    have hn := Http.Lemmas.lookup_none.1 hx
    rw [names_eq] at hn
    by_cases hb : body = []
    · exact hb
    · exfalso
      unfold sentHeader at hn
      split at hn
      · rename_i hk
        exact hn (hk.resolve_left hb)
      · simp [names] at hn

theorem te_ne_cl : Http.Spec.fold transferEncoding ≠ Http.Spec.fold contentLength := by decide

/-- No chunks are announced. -/
theorem sent_plain {h : Header} {body : Str} (hm : LegalMessage h body) :
    cicmp ((Http.Lemmas.lookup (sentHeader h body) transferEncoding).getD []) chunkedWord = false := by
  have hf : Http.Spec.fold chunkedWord = chunkedWord := by decide
  cases hx : Http.Lemmas.lookup (sentHeader h body) transferEncoding with
  | none => decide
  | some v =>
    obtain ⟨e, h1, h2, h3⟩ := lookup_some hx
    rw [Bool.eq_false_iff]
    intro hc
    rw [Http.Lemmas.cicmp_iff, hf] at hc
    subst h3
    have he : e ∈ h := by
      unfold sentHeader at h1
      split at h1
      · exact h1
      · rcases List.mem_append.1 h1 with h1 | h1
        · exact h1
        · rw [List.mem_singleton.1 h1] at h2
          exact absurd h2.symm te_ne_cl
    exact hm.plain e he h2 hc

theorem get_eq (k : Str) (h : Header) : Http.get k h = ((Http.Lemmas.lookup h k).getD [], update k id h) := by
  unfold Http.get
  rw [Http.Lemmas.getConst_eq, Http.Lemmas.lookup_update, if_pos rfl]
  rfl

theorem field_update (k : Str) (h : Header) (n : Str) : field (update k id h) n = field h n := by
  rw [field_eq, field_eq, Http.Lemmas.lookup_update]
  split <;> rfl

/-- The body that a receiver of a header makes, and the header it keeps. -/
theorem bodyOf_sent {h : Header} {body : Str} (hm : LegalMessage h body) :
    ∃ b h', bodyOf (sentHeader h body) = .ok (b, h') ∧ (∀ n, field h' n = field (sentHeader h body) n)
      ∧ (b = .fixed { rest := body.length } ∨ body = [] ∧ b = .raw none) := by
  unfold bodyOf
  simp only [get_eq]
  rw [sent_plain hm]
  have hcl : Http.Lemmas.lookup (update transferEncoding id (sentHeader h body)) contentLength
      = Http.Lemmas.lookup (sentHeader h body) contentLength := by
    rw [Http.Lemmas.lookup_update, if_neg te_ne_cl]
  rw [hcl]
  simp only [Bool.false_eq_true, if_false]
  rcases sent_length hm with hl | ⟨hb, hl⟩
  · rw [hl]
    have hr : Lexical.intOfString Lexical.int64 (Lexical.put body.length) = some (body.length : Int) := by
      apply Lexical.Props.int_roundtrip
      have := hm.size
      simp only [Lexical.Spec.Fits, Lexical.int64]
      constructor <;> simp <;> omega
    simp only [Option.getD_some]
    rw [if_pos (put_ne _), hr]
    exact ⟨_, _, rfl, fun n => by rw [field_update, field_update], .inl rfl⟩
  · rw [hl]
    simp only [Option.getD_none]
    rw [if_neg (by simp)]
    exact ⟨_, _, rfl, fun n => by rw [field_update, field_update], .inr ⟨hb, rfl⟩⟩

/-! ### The body -/

theorem flat_nil {α : Type} {p : Prog α} (hp : p.Reads) : (p.flat []).2 = [] := by
  induction hp with
  | ret a => rfl
  | op o next ho _ ih =>
    have e : (Socket.Spec.readStep o []).2 = [] := by
      cases o <;> simp_all [Socket.Spec.readStep, Socket.Spec.Reading, Socket.Spec.nextLine]
      split <;> rfl
    show ((next _).run Socket.Spec.readStep _).2 = []
    rw [e]
    exact ih _

theorem none_takes : ∀ (ops : List BOp) (v : Str), none ∈ Http.Spec.takes ops v → Http.Lemmas.left ops v = [] := by
  intro ops
  have hnil : ∀ ops, Http.Lemmas.left ops ([] : Str) = [] := by
    intro ops
    induction ops with
    | nil => rfl
    | cons o ops ih => cases o <;> exact ih
  induction ops with
  | nil => intro v h; simp [Http.Spec.takes] at h
  | cons o ops ih =>
    intro v h
    cases v with
    | nil => exact hnil _
    | cons c v => cases o <;> simp [Http.Spec.takes, Http.Lemmas.left] at h ⊢ <;> exact ih _ h

theorem reads_rawRun : ∀ (ops : List BOp) (buf : Option UInt8), (rawRun ops buf).Reads := by
  intro ops
  induction ops with
  | nil => intro buf; exact .ret _
  | cons o ops ih =>
    intro buf
    refine Prog.reads_bind ?_ fun r => Prog.reads_bind (ih _) fun _ => .ret _
    refine Prog.reads_bind ?_ fun _ => .ret _
    cases buf
    · exact Prog.reads_getc
    · exact .ret _

theorem reads_body (fuel : Nat) (ops : List BOp) (b : Body) : (b.run fuel ops).Reads := by
  cases b with
  | chunked b => exact Prog.reads_bind (Http.Lemmas.reads_chunked fuel ops b) fun _ => .ret _
  | fixed b => exact Prog.reads_bind (Http.Lemmas.reads_fixed ops b) fun _ => .ret _
  | raw buf => exact Prog.reads_bind (reads_rawRun ops buf) fun _ => .ret _

theorem raw_run : ∀ (ops : List BOp) (buf : Option UInt8) (s : Str),
    ((rawRun ops buf).flat s).1 = Http.Spec.takes ops (buf.toList ++ s) := by
  intro ops
  induction ops with
  | nil => intro buf s; rfl
  | cons o ops ih =>
    intro buf s
    have hstep : (rawStep o buf).flat s = (((buf.toList ++ s).head?, match o with | .peek => (buf.toList ++ s).head? | .take => none),
        match buf with | some _ => s | none => s.tail) := by
      unfold rawStep
      cases buf <;> cases o <;> cases s <;> rfl
    unfold rawRun
    rw [Http.Lemmas.flat_bind_eq hstep, Http.Lemmas.flat_bind]
    show (buf.toList ++ s).head? :: _ = _
    rw [ih]
    cases buf <;> cases o <;> cases s <;> rfl

theorem body_run {b : Body} {body : Str} (hb : b = .fixed { rest := body.length } ∨ body = [] ∧ b = .raw none) (rest : Str)
    (hr : body ≠ [] ∨ rest = []) (fuel : Nat) (ops : List BOp) :
    ∃ s, (b.run fuel ops).flat (body ++ rest) = (.ok (Http.Spec.takes ops body), s) ∧ (∃ x, s = x ++ rest)
      ∧ (none ∈ Http.Spec.takes ops body → s = rest) := by
  by_cases h0 : body = []
  · have hr := hr.resolve_left (by simp [h0])
    subst hr h0
    have hs : ((b.run fuel ops).flat []).2 = [] := flat_nil (reads_body fuel ops b)
    have hv : ((b.run fuel ops).flat []).1 = .ok (Http.Spec.takes ops []) := by
      rcases hb with rfl | ⟨_, rfl⟩
      · have := Http.Lemmas.endless_run ops { rest := 0 } [] [] ⟨rfl, by decide, rfl⟩
        show ((Body.run fuel ops (.fixed { rest := 0 })).flat []).1 = _
        unfold Body.run
        rw [Http.Lemmas.flat_bind]
        show Except.ok ((Fixed.run ops { rest := 0 }).flat []).1.1 = _
        rw [this]
      · have := raw_run ops none []
        unfold Body.run
        rw [Http.Lemmas.flat_bind]
        show Except.ok ((rawRun ops none).flat []).1 = _
        rw [this]; rfl
    refine ⟨[], ?_, ⟨[], rfl⟩, fun _ => rfl⟩
    exact Prod.ext hv hs
  · have hb : b = .fixed { rest := body.length } := hb.resolve_right fun h => h0 h.1
    subst hb
    have hpos : 0 < body.length := List.length_pos_iff.2 h0
    obtain ⟨b', s', h1, h2⟩ := Http.Lemmas.fixed_run ops { rest := body.length } (body ++ rest) body rest
      (Or.inl ⟨rfl, by show (0 : Int) < body.length; omega, by simp, by simp⟩)
    refine ⟨s', ?_, ?_, fun hn => ?_⟩
    · unfold Body.run
      rw [Http.Lemmas.flat_bind_eq h1]
      rfl
    · rcases h2 with ⟨_, _, _, h⟩ | ⟨_, _, h⟩
      · exact ⟨s'.take b'.rest.toNat, by rw [h, List.take_append_drop]⟩
      · exact ⟨[], by rw [h]; rfl⟩
    · rw [none_takes ops body hn] at h2
      rcases h2 with ⟨_, h3, h4, h⟩ | ⟨_, _, h⟩
      · have h5 := (List.append_eq_nil_iff.1 h4.symm).2
        rw [List.take_eq_nil_iff] at h5
        rcases h5 with h5 | h5
        · omega
        · rw [h, h5]; simp
      · exact h.symm

/-! ### The first line -/

theorem scan_parts (m u v w : Str) (hm : m ≠ [] ∧ ∀ c ∈ m, Lexical.isspace c = false) (hu : u ≠ [] ∧ ∀ c ∈ u, Lexical.isspace c = false)
    (hv : v ≠ [] ∧ ∀ c ∈ v, Lexical.isspace c = false) (hw : ∀ c ∈ w.head?, Lexical.isspace c = true) :
    Lexical.getWord (m ++ [32] ++ u ++ [32] ++ v ++ w) = (some m, [32] ++ u ++ [32] ++ v ++ w)
      ∧ Lexical.getWord ([32] ++ u ++ [32] ++ v ++ w) = (some u, [32] ++ v ++ w) ∧ Lexical.getWord ([32] ++ v ++ w) = (some v, w) := by
  have hsp : Lexical.isspace 32 = true := by decide
  refine ⟨?_, ?_, ?_⟩
  · have := getWord_word [] m ([32] ++ u ++ [32] ++ v ++ w) (by simp) hm.2 hm.1 (by simp [hsp])
    simpa using this
  · have := getWord_word [32] u ([32] ++ v ++ w) (by simp [hsp]) hu.2 hu.1 (by simp [hsp])
    simpa using this
  · exact getWord_word [32] v w (by simp [hsp]) hv.2 hv.1 hw

theorem not_space {c : UInt8} (h : ¬ Http.Spec.Space c) : Lexical.isspace c = false := by
  rw [isspace_eq, Bool.eq_false_iff]
  exact fun h' => h ((Http.Lemmas.isspace_iff c).1 h')

theorem version_ne (v : Int × Int) : versionText v ≠ [] := by simp [versionText, httpSlash]

theorem requestText_eq (q : Request) : requestText q = q.method ++ [32] ++ Uri.print q.uri ++ [32] ++ versionText q.version := by
  simp [requestText, versionText, Lexical.stringOfInt]

theorem requestLine_eq (q : Request) : requestLine q = requestText q ++ [13, 10] := by
  rw [requestText_eq]; rfl

theorem statusText_eq (p : Response) : statusText p = versionText p.version ++ [32] ++ Lexical.put p.code ++ [32] ++ p.reason := by
  simp [statusText, versionText, Lexical.stringOfInt]

theorem statusLine_eq (p : Response) : statusLine p = statusText p ++ [13, 10] := by
  rw [statusText_eq]; rfl

theorem read_request {q : Request} {sp : Uri.Spec.Split} (h : LegalFirst q sp) (w : Str) (hw : ∀ c ∈ w.head?, Lexical.isspace c = true) :
    readRequestLine (requestText q ++ w) = .ok (q.method, q.uri, q.version) ∧ 10 ∉ requestText q := by
  have hm : ∀ c ∈ q.method, Lexical.isspace c = false := fun c hc => not_space (h.method.2 c hc)
  have hp : Uri.print q.uri ≠ [] ∧ ∀ c ∈ Uri.print q.uri, Visible c := by
    rw [h.uri.1]; exact print_visible sp h.uri.2 h.form.1 h.form.2
  obtain ⟨h1, h2, h3⟩ := scan_parts q.method (Uri.print q.uri) (versionText q.version) w ⟨h.method.1, hm⟩
    ⟨hp.1, fun c hc => (visible_plain c (hp.2 c hc)).1⟩ ⟨version_ne _, fun c hc => (version_chars q.version c hc).1⟩ hw
  have hu : Uri.uri (Uri.print q.uri) = .ok q.uri := by
    unfold Uri.uri
    rw [h.uri.1, Uri.Props.print_roundtrip_partial sp h.uri.2 h.host h.form.1 h.form.2]
  constructor
  · rw [requestText_eq]
    unfold readRequestLine
    simp only [h1, h2, h3, Option.getD_some, hu, scanVersion_text q.version h.version.1 h.version.2]
    rfl
  · rw [requestText_eq]
    simp only [List.mem_append, List.mem_singleton, not_or]
    refine ⟨⟨⟨⟨fun hc => ?_, by decide⟩, fun hc => (visible_plain 10 (hp.2 10 hc)).2 rfl⟩, by decide⟩, fun hc => (version_chars _ 10 hc).2.2.2 rfl⟩
    have := hm 10 hc
    revert this
    decide

theorem get_put (t : Lexical.IntType) (n : Int) (h : Lexical.Spec.Fits t n) (rest : Str) (hr : ∀ c ∈ rest.head?, Decimal.isDigit c = false) :
    Lexical.get t (Lexical.put n ++ rest) = ⟨some n, true, rest⟩ := by
  obtain ⟨sg, h1, h2⟩ := Lexical.Lemmas.put_parts n
  obtain ⟨g1, g2, g3⟩ := Decimal.digits_spec n.natAbs
  have hg := Lexical.Lemmas.get_sign t [] sg (Decimal.digits n.natAbs) rest (by simp) (by rcases h2 with h2 | h2 <;> simp [h2]) g1 g2 hr
  simp only [List.nil_append] at hg
  rw [h1, hg, g3]
  rw [Lexical.Lemmas.fits_iff] at h
  have hc : Lexical.clamp t (sg = [45]) n.natAbs = (n, true) := by
    rcases h2 with ⟨rfl, h2⟩ | ⟨rfl, h2⟩
    · exact Lexical.Lemmas.clamp_fits t _ _ n (by simp; omega) (by simp) h.1 h.2
    · exact Lexical.Lemmas.clamp_fits t _ _ n (by simp; omega) (fun _ => h2) h.1 h.2
  rw [hc]

theorem read_status {p : Response} (h : LegalStatus p) :
    readStatusLine (statusText p) = .ok (p.version, some p.code, p.reason) ∧ 10 ∉ statusText p := by
  have hsp : Lexical.isspace 32 = true := by decide
  have hsp' : Http.isspace 32 = true := by decide
  have hw : Lexical.getWord (versionText p.version ++ [32] ++ Lexical.put p.code ++ [32] ++ p.reason)
      = (some (versionText p.version), [32] ++ (Lexical.put p.code ++ [32] ++ p.reason)) := by
    have := getWord_word [] (versionText p.version) ([32] ++ (Lexical.put p.code ++ [32] ++ p.reason)) (by simp)
      (fun c hc => (version_chars p.version c hc).1) (version_ne _) (by simp [hsp])
    simpa using this
  have hd : ([32] ++ (Lexical.put p.code ++ [32] ++ p.reason)).dropWhile Http.isspace = Lexical.put p.code ++ ([32] ++ p.reason) := by
    rw [List.dropWhile_append_of_pos (by simp [hsp'])]
    obtain ⟨c, l, e⟩ := List.exists_cons_of_ne_nil (put_ne p.code)
    have hc := (number_char c (put_chars p.code c (by simp [e]))).1
    rw [isspace_eq] at hc
    rw [e]
    simp [hc]
  have hg := get_put Lexical.int32 p.code h.code ([32] ++ p.reason) (by simp [Decimal.isDigit])
  have hr1 : ([32] ++ p.reason).dropWhile Http.isspace = p.reason := by
    rw [List.dropWhile_append_of_pos (by simp [hsp'])]
    exact Http.Lemmas.dropWhile_head fun c hc => by
      have := not_space (h.reason.2 c hc)
      rwa [isspace_eq] at this
  have hr2 : p.reason.takeWhile (· ≠ 10) = p.reason := by
    have := (Lexical.Lemmas.takeWhile_split (p := fun c => decide (c ≠ 10)) p.reason [] (fun c hc => by
      simp only [decide_eq_true_eq]; rintro rfl; exact h.reason.1 hc) (by simp)).1
    simpa using this
  constructor
  · rw [statusText_eq]
    unfold readStatusLine
    simp only [hw, hd, hg, hr1, if_true, hr2, Option.getD_some, scanVersion_text p.version h.version.1 h.version.2]
    rfl
  · rw [statusText_eq]
    simp only [List.mem_append, List.mem_singleton, not_or]
    exact ⟨⟨⟨⟨fun hc => (version_chars _ 10 hc).2.2.2 rfl, by decide⟩, fun hc => (number_char 10 (put_chars _ 10 hc)).2.2.2.1 rfl⟩, by decide⟩, h.reason.1⟩

/-! ### Messages -/

theorem wire_split (line : Str) (h : Header) (body rest : Str) :
    wire line h body ++ rest = line ++ [13, 10] ++ (Http.Spec.text (sentHeader h body) ++ (body ++ rest)) := by
  simp [wire]

theorem recv_request_at {q : Request} {sp : Uri.Spec.Split} (h : LegalFirst q sp) (hs : (requestText q).length + 2 ≤ 4096) {hd : Header}
    (hl : LegalHeader hd) {b : Body} {h' : Header} (hb : bodyOf hd = .ok (b, h')) (rest : Str) (ops : List BOp) (fuel : Nat) (hf : hd.length < fuel)
    {r : Except Err (List (Option UInt8))} {s : Str} (hr : (b.run fuel ops).flat rest = (r, s)) :
    (receiveRequest fuel ops).flat (requestText q ++ [13, 10] ++ (Http.Spec.text hd ++ rest)) = (.ok (⟨q.method, q.uri, q.version, h', b⟩, r), s) := by
  obtain ⟨h1, h2⟩ := read_request h [] (by simp)
  rw [List.append_nil] at h1
  have hrecv : (recvRequest fuel).flat (requestText q ++ [13, 10] ++ (Http.Spec.text hd ++ rest)) = (.ok ⟨q.method, q.uri, q.version, h', b⟩, rest) := by
    unfold recvRequest
    rw [Http.Lemmas.flat_bind_eq (Http.Lemmas.flat_line _ _ h2 hs)]
    simp only [Option.getD_some, h1]
    rw [Http.Lemmas.flat_bind_eq (Http.Lemmas.header_text _ _ fuel hf hl.fields hl.once)]
    simp only [hb]
    rfl
  unfold receiveRequest
  rw [Http.Lemmas.flat_bind_eq hrecv]
  dsimp only
  rw [Http.Lemmas.flat_bind_eq hr]
  rfl

theorem recv_response_at {p : Response} (h : LegalStatus p) {hd : Header}
    (hl : LegalHeader hd) {b : Body} {h' : Header} (hb : bodyOf hd = .ok (b, h')) (rest : Str) (ops : List BOp) (fuel : Nat) (hf : hd.length < fuel)
    {r : Except Err (List (Option UInt8))} {s : Str} (hr : (b.run fuel ops).flat rest = (r, s)) :
    (receiveResponse fuel ops).flat (statusText p ++ [13, 10] ++ (Http.Spec.text hd ++ rest))
      = (.ok (⟨p.version, some p.code, p.reason, h', b⟩, r), s) := by
  obtain ⟨h1, h2⟩ := read_status h
  have hrecv : (recvResponse fuel).flat (statusText p ++ [13, 10] ++ (Http.Spec.text hd ++ rest))
      = (.ok ⟨p.version, some p.code, p.reason, h', b⟩, rest) := by
    unfold recvResponse
    rw [Http.Lemmas.flat_bind_eq (Http.Lemmas.flat_line _ _ h2 h.short)]
    simp only [h1]
    rw [Http.Lemmas.flat_bind_eq (Http.Lemmas.header_text _ _ fuel hf hl.fields hl.once)]
    simp only [hb]
    rfl
  unfold receiveResponse
  rw [Http.Lemmas.flat_bind_eq hrecv]
  dsimp only
  rw [Http.Lemmas.flat_bind_eq hr]
  rfl

theorem recv_request {q : Request} {sp : Uri.Spec.Split} (h : LegalRequest q sp) (rest : Str) (hr : q.body ≠ [] ∨ rest = []) (ops : List BOp)
    (fuel : Nat) (hf : q.header.length + 1 < fuel) :
    ∃ g s, (receiveRequest fuel ops).flat (wire (requestText q) q.header q.body ++ rest) = (.ok (g, .ok (Http.Spec.takes ops q.body)), s)
      ∧ g.method = q.method ∧ g.uri = q.uri ∧ g.version = q.version
      ∧ (∀ n, field g.header n = field (sentHeader q.header q.body) n)
      ∧ (∃ x, s = x ++ rest) ∧ (none ∈ Http.Spec.takes ops q.body → s = rest) := by
  obtain ⟨l1, l2, l3⟩ := sent_legal h.message
  obtain ⟨b, h', e1, e2, e3⟩ := bodyOf_sent h.message
  obtain ⟨s, r1, r2, r3⟩ := body_run e3 rest hr fuel ops
  refine ⟨⟨q.method, q.uri, q.version, h', b⟩, s, ?_, rfl, rfl, rfl, e2, r2, r3⟩
  rw [wire_split]
  exact recv_request_at h.first h.short ⟨l1, l2⟩ e1 _ ops fuel (by omega) r1

theorem recv_response {p : Response} (h : LegalResponse p) (rest : Str) (hr : p.body ≠ [] ∨ rest = []) (ops : List BOp)
    (fuel : Nat) (hf : p.header.length + 1 < fuel) :
    ∃ g s, (receiveResponse fuel ops).flat (wire (statusText p) p.header p.body ++ rest) = (.ok (g, .ok (Http.Spec.takes ops p.body)), s)
      ∧ g.version = p.version ∧ g.code = some p.code ∧ g.reason = p.reason
      ∧ (∀ n, field g.header n = field (sentHeader p.header p.body) n)
      ∧ (∃ x, s = x ++ rest) ∧ (none ∈ Http.Spec.takes ops p.body → s = rest) := by
  obtain ⟨l1, l2, l3⟩ := sent_legal h.message
  obtain ⟨b, h', e1, e2, e3⟩ := bodyOf_sent h.message
  obtain ⟨s, r1, r2, r3⟩ := body_run e3 rest hr fuel ops
  refine ⟨⟨p.version, some p.code, p.reason, h', b⟩, s, ?_, rfl, rfl, rfl, e2, r2, r3⟩
  rw [wire_split]
  exact recv_response_at h.first ⟨l1, l2⟩ e1 _ ops fuel (by omega) r1

/-- A header that announces chunks. -/
theorem bodyOf_chunked {h : Header} (hc : Http.Spec.fold (field h transferEncoding) = chunkedWord) :
    ∃ h', bodyOf h = .ok (.chunked {}, h') ∧ ∀ n, field h' n = field h n := by
  have hf : Http.Spec.fold chunkedWord = chunkedWord := by decide
  have : cicmp (field h transferEncoding) chunkedWord = true := by rw [Http.Lemmas.cicmp_iff, hc, hf]
  unfold bodyOf
  simp only [get_eq, ← field_eq, this, if_true]
  exact ⟨_, rfl, fun n => field_update _ _ _⟩

/-- A header that tells nothing about the length. -/
theorem bodyOf_raw {h : Header} (hc : Http.Spec.fold (field h transferEncoding) ≠ chunkedWord) (hl : field h contentLength = []) :
    ∃ h', bodyOf h = .ok (.raw none, h') ∧ ∀ n, field h' n = field h n := by
  have hf : Http.Spec.fold chunkedWord = chunkedWord := by decide
  have hn : cicmp (field h transferEncoding) chunkedWord = false := by
    rw [Bool.eq_false_iff]
    intro h'
    rw [Http.Lemmas.cicmp_iff, hf] at h'
    exact hc h'
  unfold bodyOf
  simp only [get_eq, ← field_eq, hn, Bool.false_eq_true, if_false, field_update, hl, ne_eq, not_true_eq_false]
  exact ⟨_, rfl, fun n => by rw [field_update, field_update]⟩

theorem raw_all (fuel : Nat) (ops : List BOp) (body : Str) : ((Body.run fuel ops (.raw none)).flat body).1 = .ok (Http.Spec.takes ops body) := by
  have := raw_run ops none body
  unfold Body.run
  rw [Http.Lemmas.flat_bind]
  show Except.ok ((rawRun ops none).flat body).1 = _
  rw [this]; rfl

/-- A first line that does not fit into the buffer of the receiver. -/
theorem recv_long {q : Request} {sp : Uri.Spec.Split} (h : LegalFirst q sp) (hl : (requestText q).length = 4095 ∨ (requestText q).length = 4096)
    (rest : Str) (fuel : Nat) :
    (recvRequest fuel).flat (requestText q ++ [13, 10] ++ rest)
      = (.ok ⟨q.method, q.uri, q.version, [(transferEncoding, []), (contentLength, [])], .raw none⟩, rest) := by
  have hsp : Lexical.isspace 13 = true := by decide
  have ht : ∀ l : Str, 10 ∉ l → (l ++ 10 :: rest).takeWhile (· ≠ 10) = l := by
    intro l hl
    rw [List.takeWhile_append_of_pos (by intro a ha; simp only [ne_eq, decide_eq_true_eq]; rintro rfl; exact hl ha)]
    simp
  have hline : ∃ w rest', (Prog.getline (lineLimit : Nat)).flat (requestText q ++ [13, 10] ++ rest) = (some (requestText q ++ w), rest')
      ∧ (∀ c ∈ w.head?, Lexical.isspace c = true) ∧ (headerOfSocket fuel).flat rest' = (.ok [], rest) := by
    have h10 : 10 ∉ requestText q ++ [13] := by
      simp only [List.mem_append, List.mem_singleton, not_or]
      exact ⟨(read_request h [] (by simp)).2, by decide⟩
    have e : requestText q ++ [13, 10] ++ rest = (requestText q ++ [13]) ++ 10 :: rest := by simp
    have hnl : Socket.Spec.nextLine (some 4096) ((requestText q ++ [13]) ++ 10 :: rest)
        = (some (((requestText q ++ [13]) ++ 10 :: rest).take 4096), ((requestText q ++ [13]) ++ 10 :: rest).drop 4096) := by
      unfold Socket.Spec.nextLine
      dsimp only
      rw [ht _ h10, if_pos ⟨4096, rfl, by simp only [List.length_append, List.length_singleton]; omega⟩]
      rfl
    have hhead : ∀ l : Str, l = [13] ∨ l = [] → (headerOfSocket fuel).flat (l ++ 10 :: rest) = (.ok [], rest) := by
      intro l hl
      have hg : (Prog.getline (lineLimit : Nat)).flat (l ++ 10 :: rest) = (some [], rest) := by
        rw [Prog.flat_getline, if_neg (by omega)]
        show Socket.Spec.nextLine (some 4096) _ = _
        have hl' : 10 ∉ l := by rcases hl with rfl | rfl <;> decide
        unfold Socket.Spec.nextLine
        dsimp only
        rw [ht _ hl', if_neg (by rcases hl with rfl | rfl <;> simp), if_pos (by simp)]
        rcases hl with rfl | rfl <;> simp [Socket.Spec.dropCR]
      unfold headerOfSocket readHeader
      rw [Http.Lemmas.flat_bind_eq hg]
      rfl
    rw [Prog.flat_getline, if_neg (by omega), e]
    rcases hl with hl | hl
    · refine ⟨[13], 10 :: rest, ?_, by simp [hsp], hhead [] (.inr rfl)⟩
      show Socket.Spec.nextLine (some 4096) _ = _
      rw [hnl, List.take_left' (by simp [hl]), List.drop_left' (by simp [hl])]
    · refine ⟨[], [13] ++ 10 :: rest, ?_, by simp, hhead [13] (.inl rfl)⟩
      show Socket.Spec.nextLine (some 4096) _ = _
      rw [hnl, List.append_assoc, List.take_left' hl, List.drop_left' hl, List.append_nil]
  obtain ⟨w, rest', g1, g2, g3⟩ := hline
  unfold recvRequest
  rw [Http.Lemmas.flat_bind_eq g1]
  simp only [Option.getD_some, (read_request h w g2).1]
  rw [Http.Lemmas.flat_bind_eq g3]
  have hb : bodyOf [] = .ok (.raw none, [(transferEncoding, []), (contentLength, [])]) := rfl
  simp only [hb]
  rfl

theorem reads_recvRequest (fuel : Nat) (ops : List BOp) : (receiveRequest fuel ops).Reads := by
  refine Prog.reads_bind ?_ fun r => ?_
  · refine Prog.reads_bind (Prog.reads_getline _) fun l => ?_
    split
    · exact .ret _
    · refine Prog.reads_bind (Http.Lemmas.reads_header fuel) fun h => ?_
      split <;> exact .ret _
  · split
    · exact .ret _
    · exact Prog.reads_bind (reads_body fuel ops _) fun _ => .ret _

theorem reads_recvResponse (fuel : Nat) (ops : List BOp) : (receiveResponse fuel ops).Reads := by
  refine Prog.reads_bind ?_ fun r => ?_
  · refine Prog.reads_bind (Prog.reads_getline _) fun l => ?_
    split
    · exact .ret _
    · split
      · exact .ret _
      · refine Prog.reads_bind (Http.Lemmas.reads_header fuel) fun h => ?_
        split <;> exact .ret _
  · split
    · exact .ret _
    · exact Prog.reads_bind (reads_body fuel ops _) fun _ => .ret _

end Verif.HttpMsg.Lemmas
