import Verif.Http.Lemmas
/-! Lemmas about HTTP bodies. -/

namespace Verif.Http.Lemmas
open Verif.Socket Verif.Http Verif.Http.Spec

/-- What is left of a body after some calls. -/
def left : List BOp → Str → Str
  | [], body => body
  | .peek :: os, body => left os body
  | .take :: os, body => left os body.tail

/-! ### A body with a length -/

/-- A positive number of bytes to go, or none and the socket let go. `v` is what the buffer will deliver, `d` what follows it in the stream. -/
def FixedRep (b : Fixed) (s v d : Str) : Prop :=
  (b.sock = true ∧ 0 < b.rest ∧ v = b.buf.toList ++ s.take b.rest.toNat ∧ d = s.drop b.rest.toNat)
    ∨ (b.sock = false ∧ v = b.buf.toList ∧ d = s)

theorem fixed_underflow {b : Fixed} {s v d : Str} (h : FixedRep b s v d) :
    ∃ b' s', b.underflow.flat s = ((v.head?, b'), s') ∧ FixedRep b' s' v d ∧ b'.buf = v.head? := by
  obtain ⟨sock, rest, buf⟩ := b
  unfold Fixed.underflow
  cases buf with
  | some c =>
    have hv : v.head? = some c := by
      rcases h with ⟨_, _, h, _⟩ | ⟨_, h, _⟩ <;> (subst h; rfl)
    rw [hv]
    exact ⟨_, s, rfl, h, rfl⟩
  | none =>
    dsimp only
    rcases h with ⟨h1, h2, h3, h4⟩ | ⟨h1, h2, h3⟩
    · dsimp only at h1 h2 h3 h4
      subst h1
      rw [if_neg (by simp), flat_bind, Prog.flat_getc]
      obtain ⟨m, rfl⟩ : ∃ m : Nat, rest = (m + 1 : Nat) := ⟨rest.toNat - 1, by omega⟩
      simp only [Int.toNat_natCast, Option.toList_none, List.nil_append] at h3 h4
      have hv : v.head? = s.head? := by subst h3; cases s <;> rfl
      rw [hv]
      refine ⟨_, _, rfl, ?_, rfl⟩
      have e : ((m + 1 : Nat) : Int) - 1 = (m : Nat) := by omega
      cases s with
      | nil =>
        subst h3 h4
        by_cases hm : m = 0
        · exact Or.inr ⟨by simp [hm], rfl, by simp⟩
        · refine Or.inl ⟨by rw [if_neg (by omega)], by dsimp only; omega, by simp, by simp⟩
      | cons c s =>
        by_cases hm : m = 0
        · subst hm
          exact Or.inr ⟨by simp, by rw [h3]; simp, by rw [h4]; simp⟩
        · refine Or.inl ⟨by rw [if_neg (by omega)], by dsimp only; omega, ?_, ?_⟩
          · rw [h3, e]; simp
          · rw [h4, e]; simp
    · dsimp only at h1 h2 h3
      subst h1
      rw [if_pos (by simp)]
      subst h2
      exact ⟨_, _, rfl, Or.inr ⟨rfl, rfl, h3⟩, rfl⟩

theorem fixed_uflow {b : Fixed} {s v d : Str} (h : FixedRep b s v d) :
    ∃ b' s', b.uflow.flat s = ((v.head?, b'), s') ∧ FixedRep b' s' v.tail d := by
  obtain ⟨b', s', h1, h2, h3⟩ := fixed_underflow h
  unfold Fixed.uflow
  rw [flat_bind_eq h1]
  refine ⟨_, _, rfl, ?_⟩
  rcases h2 with ⟨g1, g2, g3, g4⟩ | ⟨g1, g2, g3⟩
  · refine Or.inl ⟨g1, g2, ?_, g4⟩
    rw [h3] at g3
    cases v with
    | nil => simpa using g3
    | cons c v => simpa using g3
  · refine Or.inr ⟨g1, ?_, g3⟩
    rw [h3] at g2
    cases v with
    | nil => rfl
    | cons c v => simpa using g2

theorem fixed_run : ∀ (ops : List BOp) (b : Fixed) (s v d : Str), FixedRep b s v d →
    ∃ b' s', (Fixed.run ops b).flat s = ((takes ops v, b'), s') ∧ FixedRep b' s' (left ops v) d := by
  intro ops
  induction ops with
  | nil => intro b s v d h; exact ⟨b, s, rfl, h⟩
  | cons o ops ih =>
    intro b s v d h
    unfold Fixed.run
    cases o with
    | peek =>
      obtain ⟨b', s', h1, h2, _⟩ := fixed_underflow h
      obtain ⟨b'', s'', h3, h4⟩ := ih b' s' v d h2
      rw [flat_bind_eq h1, flat_bind_eq h3]
      exact ⟨_, _, rfl, h4⟩
    | take =>
      obtain ⟨b', s', h1, h2⟩ := fixed_uflow h
      obtain ⟨b'', s'', h3, h4⟩ := ih b' s' v.tail d h2
      rw [flat_bind_eq h1, flat_bind_eq h3]
      exact ⟨_, _, rfl, h4⟩

/-- Without a positive length the count never reaches zero: the body has no end. -/
def EndlessRep (b : Fixed) (s v : Str) : Prop := b.sock = true ∧ b.rest ≤ 0 ∧ v = b.buf.toList ++ s

theorem endless_underflow {b : Fixed} {s v : Str} (h : EndlessRep b s v) :
    ∃ b' s', b.underflow.flat s = ((v.head?, b'), s') ∧ EndlessRep b' s' v ∧ b'.buf = v.head? := by
  obtain ⟨sock, rest, buf⟩ := b
  obtain ⟨h1, h2, h3⟩ := h
  dsimp only at h1 h2 h3
  subst h1
  unfold Fixed.underflow
  cases buf with
  | some c => exact ⟨_, s, by rw [h3]; rfl, ⟨rfl, h2, h3⟩, by rw [h3]; rfl⟩
  | none =>
    dsimp only
    rw [if_neg (by simp), flat_bind, Prog.flat_getc]
    rw [Option.toList_none, List.nil_append] at h3
    subst h3
    refine ⟨_, _, rfl, ⟨by rw [if_neg (by omega)], by dsimp only; omega, ?_⟩, rfl⟩
    cases v <;> rfl

theorem endless_run : ∀ (ops : List BOp) (b : Fixed) (s v : Str), EndlessRep b s v →
    ((Fixed.run ops b).flat s).1.1 = takes ops v := by
  intro ops
  induction ops with
  | nil => intro b s v h; rfl
  | cons o ops ih =>
    intro b s v h
    obtain ⟨b', s', h1, ⟨g1, g2, g3⟩, h3⟩ := endless_underflow h
    unfold Fixed.run
    cases o with
    | peek =>
      rw [flat_bind_eq h1, flat_bind]
      exact congrArg (v.head? :: ·) (ih b' s' v ⟨g1, g2, g3⟩)
    | take =>
      have hu : b.uflow.flat s = ((v.head?, { b' with buf := none }), s') := by
        unfold Fixed.uflow
        rw [flat_bind_eq h1]
        rfl
      rw [flat_bind_eq hu, flat_bind]
      refine congrArg (v.head? :: ·) (ih _ s' v.tail ⟨g1, g2, ?_⟩)
      rw [h3] at g3
      cases v with
      | nil => simpa using g3
      | cons c v => simpa using g3

/-! ### Chunks -/

theorem hexDigit_eq : hexDigit = digitValue := by
  have : ∀ n : Fin 256, hexDigit (UInt8.ofNat n) = digitValue (UInt8.ofNat n) := by decide +kernel
  funext c
  simpa using this ⟨c.toNat, c.toNat_lt⟩

theorem hexDigit_props {c : UInt8} (h : (digitValue c).isSome = true) :
    isspace c = false ∧ c ≠ 45 ∧ c ≠ 43 ∧ c ≠ 120 ∧ c ≠ 88 ∧ c ≠ 10 := by
  revert h
  have : ∀ n : Fin 256, (digitValue (UInt8.ofNat n)).isSome = true →
      isspace (UInt8.ofNat n) = false ∧ UInt8.ofNat n ≠ 45 ∧ UInt8.ofNat n ≠ 43 ∧ UInt8.ofNat n ≠ 120 ∧ UInt8.ofNat n ≠ 88 ∧ UInt8.ofNat n ≠ 10 := by
    decide +kernel
  have := this ⟨c.toNat, c.toNat_lt⟩
  simpa using this

theorem hexInt_line {digits ext : Str} (h : LegalLine digits ext) (hv : hexValue digits ≤ 2147483647) :
    hexInt (digits ++ ext) = hexValue digits := by
  have hne := h.nonempty
  cases hd : digits with
  | nil => exact absurd hd hne
  | cons c ds =>
    obtain ⟨p1, p2, p3, p4, p5, p6⟩ := hexDigit_props (h.hex c (by simp [hd]))
    have hext : ∀ x ∈ ext.head?, (digitValue x).isSome = false ∧ x ≠ 120 ∧ x ≠ 88 := by
      intro x hx
      rcases h.extStart with h' | h' | h' | h'
      · rw [h'] at hx; simp at hx
      all_goals
        rw [h'] at hx
        cases hx
        decide +kernel
    have h0 : (c :: ds ++ ext).dropWhile isspace = c :: ds ++ ext := by
      rw [List.cons_append, List.dropWhile_cons, if_neg (by simp [p1])]
    have h1 : ¬ ((c :: ds ++ ext).head? = some 48 ∧ ((c :: ds ++ ext)[1]? = some 120 ∨ (c :: ds ++ ext)[1]? = some 88)) := by
      rintro ⟨_, h'⟩
      cases ds with
      | nil =>
        cases ext with
        | nil => simp at h'
        | cons x ext =>
          have := hext x (by simp)
          simp [this.2.1, this.2.2] at h'
      | cons d ds =>
        obtain ⟨_, _, _, q4, q5, _⟩ := hexDigit_props (h.hex d (by simp [hd]))
        simp [q4, q5] at h'
    have h2 : (c :: ds ++ ext).takeWhile (fun c => (digitValue c).isSome) = c :: ds := by
      rw [List.takeWhile_append_of_pos (fun a ha => h.hex a (hd ▸ ha))]
      cases ext with
      | nil => simp
      | cons x ext =>
        have := hext x (by simp)
        rw [List.takeWhile_cons, if_neg (by simp [this.1]), List.append_nil]
    have h3 : ¬ ((c :: ds ++ ext).head? = some 45 ∨ (c :: ds ++ ext).head? = some 43) := by
      simp [p2, p3]
    have h4 : ¬ ((c :: ds ++ ext).head? = some 45) := fun h' => h3 (Or.inl h')
    unfold hexInt
    rw [hexDigit_eq]
    dsimp only
    rw [h0, if_neg h3, if_neg h1, h2, if_neg h4]
    rw [hd] at hv
    unfold hexValue at hv ⊢
    omega

/-- The stream buffer, the stream before it, what it will deliver; `d` follows the body. -/
inductive Rep (last : Chunk) (trailer : List Str) (d : Str) : Chunked → Str → Str → Prop where
  | done : Rep last trailer d ⟨false, 0, []⟩ d []
  | inside (buf data : Str) (chunks : List Chunk) (hc : ∀ c ∈ chunks, LegalChunk c) (hd : data ≠ []) :
      Rep last trailer d ⟨true, data.length, buf⟩ (data ++ [13, 10] ++ bodyText chunks last trailer ++ d) (buf ++ data ++ content chunks)
  | between (buf : Str) (chunks : List Chunk) (hc : ∀ c ∈ chunks, LegalChunk c) :
      Rep last trailer d ⟨true, 0, buf⟩ (bodyText chunks last trailer ++ d) (buf ++ content chunks)

theorem skipTrailer_flat (d : Str) : ∀ (trailer : List Str) (fuel : Nat), trailer.length < fuel → (∀ l ∈ trailer, LegalTrailer l) →
    (skipTrailer fuel).flat ((trailer.map (· ++ [13, 10])).flatten ++ [13, 10] ++ d) = (true, d) := by
  intro trailer
  induction trailer with
  | nil =>
    intro fuel hf _
    obtain ⟨fuel, rfl⟩ : ∃ n, fuel = n + 1 := ⟨fuel - 1, by omega⟩
    unfold skipTrailer
    have := flat_line [] d (by simp) (by decide)
    rw [List.nil_append] at this
    simp only [List.map_nil, List.flatten_nil, List.nil_append]
    rw [flat_bind_eq this]
    rfl
  | cons l trailer ih =>
    intro fuel hf hl
    obtain ⟨fuel, rfl⟩ : ∃ n, fuel = n + 1 := ⟨fuel - 1, by omega⟩
    unfold skipTrailer
    obtain ⟨h1, h2, h3⟩ := hl l (by simp)
    have := flat_line l ((trailer.map (· ++ [13, 10])).flatten ++ [13, 10] ++ d) h2 h3
    have e : (List.map (· ++ [13, 10]) (l :: trailer)).flatten ++ [13, 10] ++ d
        = l ++ [13, 10] ++ ((trailer.map (· ++ [13, 10])).flatten ++ [13, 10] ++ d) := by simp
    rw [e, flat_bind_eq this]
    cases l with
    | nil => exact absurd rfl h1
    | cons c l => exact ih fuel (by simpa using hf) (fun x hx => hl x (by simp [hx]))

/-- Reading a piece of a chunk. -/
theorem fillChunk_inside {last : Chunk} {trailer : List Str} {d : Str} (fuel : Nat) (buf data : Str) (chunks : List Chunk)
    (hc : ∀ c ∈ chunks, LegalChunk c) (hd : data ≠ []) :
    ∃ b s, (fillChunk fuel ⟨true, data.length, buf⟩).flat (data ++ [13, 10] ++ bodyText chunks last trailer ++ d) = (.ok b, s)
      ∧ Rep last trailer d b s (data ++ content chunks) ∧ b.buf ≠ [] := by
  have hpos : 0 < data.length := List.length_pos_iff.2 hd
  unfold fillChunk
  dsimp only
  rw [if_neg (by omega), if_neg (by simp [bufSize]; omega)]
  generalize hcur : min (data.length : Int) bufSize = cur
  have hc1 : cur.toNat ≤ data.length := by omega
  have hc0 : 0 < cur.toNat := by simp only [bufSize] at hcur; omega
  have hr : (Prog.read cur.toNat).flat (data ++ [13, 10] ++ bodyText chunks last trailer ++ d)
      = (data.take cur.toNat, data.drop cur.toNat ++ [13, 10] ++ bodyText chunks last trailer ++ d) := by
    rw [Prog.flat_read, List.append_assoc, List.append_assoc, List.take_append_of_le_length hc1, List.drop_append_of_le_length hc1]
    simp
  rw [flat_bind_eq hr, if_neg (by simp [List.length_take]; omega)]
  have hne : data.take cur.toNat ≠ [] := by
    intro h
    have := congrArg List.length h
    rw [List.length_take, List.length_nil] at this
    omega
  unfold footer
  dsimp only
  by_cases hz : (data.length : Int) - cur = 0
  · rw [if_pos hz]
    have hall : cur.toNat = data.length := by omega
    rw [hall, List.take_length, List.drop_length, List.nil_append]
    refine ⟨⟨true, 0, data⟩, bodyText chunks last trailer ++ d, ?_, .between data chunks hc, hd⟩
    rw [hz]
    rfl
  · rw [if_neg hz]
    have e : (data.length : Int) - cur = (data.drop cur.toNat).length := by rw [List.length_drop]; omega
    rw [e]
    have hR := Rep.inside (last := last) (trailer := trailer) (d := d) (data.take cur.toNat) (data.drop cur.toNat) chunks hc
      (by intro h; have := List.drop_eq_nil_iff.1 h; omega)
    rw [List.take_append_drop] at hR
    exact ⟨_, _, rfl, hR, hne⟩

theorem fill_rep {last : Chunk} {trailer : List Str} {d : Str} (hl : LegalLine last.digits last.ext) (hz : hexValue last.digits = 0)
    (ht : ∀ l ∈ trailer, LegalTrailer l) {fuel : Nat} (hf : trailer.length < fuel) {b : Chunked} {s v : Str}
    (h : Rep last trailer d b s v) (hb : b.buf = []) :
    ∃ b' s', (fill fuel b).flat s = (.ok b', s') ∧ Rep last trailer d b' s' v ∧ (v ≠ [] → b'.buf ≠ []) ∧ (v = [] → s' = d) := by
  cases h with
  | done =>
    unfold fill
    rw [if_pos (by simp)]
    exact ⟨_, _, rfl, .done, fun h => absurd rfl h, fun _ => rfl⟩
  | inside buf data chunks hc hd =>
    have hpos : 0 < data.length := List.length_pos_iff.2 hd
    dsimp only at hb
    subst hb
    obtain ⟨b', s', h1, h2, h3⟩ := fillChunk_inside (last := last) (trailer := trailer) (d := d) fuel [] data chunks hc hd
    unfold fill
    dsimp only
    rw [if_neg (by simp), if_neg (by omega)]
    refine ⟨b', s', h1, h2, fun _ => h3, fun h => ?_⟩
    simp [hd] at h
  | between buf chunks hc =>
    dsimp only at hb
    subst hb
    unfold fill
    dsimp only
    rw [if_neg (by simp), if_pos rfl]
    cases chunks with
    | nil =>
      have hline : (Prog.getline (lineLimit : Nat)).flat (bodyText [] last trailer ++ d)
          = (some (last.digits ++ last.ext), (trailer.map (· ++ [13, 10])).flatten ++ [13, 10] ++ d) := by
        have := flat_line (last.digits ++ last.ext) ((trailer.map (· ++ [13, 10])).flatten ++ [13, 10] ++ d)
          (by
            rw [List.mem_append, not_or]
            exact ⟨fun h => (hexDigit_props (hl.hex _ h)).2.2.2.2.2 rfl, hl.oneLine⟩)
          (by rw [List.length_append]; exact hl.short)
        rw [← this]
        simp [bodyText]
      have hsz : (readChunkSize ⟨true, 0, []⟩).flat (bodyText [] last trailer ++ d)
          = (⟨true, 0, []⟩, (trailer.map (· ++ [13, 10])).flatten ++ [13, 10] ++ d) := by
        unfold readChunkSize
        rw [if_neg (by simp), flat_bind_eq hline]
        dsimp only
        rw [hexInt_line hl (by omega), hz]
        rfl
      rw [flat_bind_eq hsz]
      unfold fillChunk
      dsimp only
      rw [if_pos rfl, if_pos rfl, flat_bind_eq (skipTrailer_flat d trailer fuel hf ht)]
      exact ⟨_, _, rfl, .done, fun h => absurd rfl h, fun _ => rfl⟩
    | cons c chunks =>
      obtain ⟨h1, h2, h3, h4⟩ := hc c (by simp)
      have hline : (Prog.getline (lineLimit : Nat)).flat (bodyText (c :: chunks) last trailer ++ d)
          = (some (c.digits ++ c.ext), c.data ++ [13, 10] ++ bodyText chunks last trailer ++ d) := by
        have := flat_line (c.digits ++ c.ext) (c.data ++ [13, 10] ++ bodyText chunks last trailer ++ d)
          (by
            rw [List.mem_append, not_or]
            exact ⟨fun h => (hexDigit_props (h1.hex _ h)).2.2.2.2.2 rfl, h1.oneLine⟩)
          (by rw [List.length_append]; exact h1.short)
        rw [← this]
        simp [bodyText, chunkText]
      have hsz : (readChunkSize ⟨true, 0, []⟩).flat (bodyText (c :: chunks) last trailer ++ d)
          = (⟨true, c.data.length, []⟩, c.data ++ [13, 10] ++ bodyText chunks last trailer ++ d) := by
        unfold readChunkSize
        rw [if_neg (by simp), flat_bind_eq hline]
        dsimp only
        rw [hexInt_line h1 (by omega), h2]
        rfl
      rw [flat_bind_eq hsz]
      obtain ⟨b', s', h5, h6, h7⟩ := fillChunk_inside (last := last) (trailer := trailer) (d := d) fuel [] c.data chunks
        (fun x hx => hc x (by simp [hx])) h3
      refine ⟨b', s', h5, ?_, fun _ => h7, fun h => ?_⟩
      · simpa [content] using h6
      · simp [content, h3] at h

theorem rep_tail {last : Chunk} {trailer : List Str} {d : Str} {sock : Bool} {rest : Int} {c : UInt8} {buf s v : Str}
    (h : Rep last trailer d ⟨sock, rest, c :: buf⟩ s v) : ∃ v', v = c :: v' ∧ Rep last trailer d ⟨sock, rest, buf⟩ s v' := by
  cases h with
  | inside _ data chunks hc hd => exact ⟨_, rfl, .inside buf data chunks hc hd⟩
  | between _ chunks hc => exact ⟨_, rfl, .between buf chunks hc⟩

theorem rep_nil {last : Chunk} {trailer : List Str} {d : Str} {b : Chunked} {s v : Str} (h : Rep last trailer d b s v) (hv : v = []) :
    b.buf = [] := by
  cases h with
  | done => rfl
  | inside buf data chunks hc hd => simp [hd] at hv
  | between buf chunks hc => simp at hv; exact hv.1

theorem chunked_underflow {last : Chunk} {trailer : List Str} {d : Str} (hl : LegalLine last.digits last.ext) (hz : hexValue last.digits = 0)
    (ht : ∀ l ∈ trailer, LegalTrailer l) {fuel : Nat} (hf : trailer.length < fuel) {b : Chunked} {s v : Str}
    (h : Rep last trailer d b s v) :
    ∃ b' s', (b.underflow fuel).flat s = (.ok (v.head?.bind asInt, b'), s') ∧ Rep last trailer d b' s' v
      ∧ b'.buf.head? = v.head? ∧ (v = [] → s' = d) := by
  have key : ∀ {b s}, Rep last trailer d b s v → (v ≠ [] → b.buf ≠ []) → b.buf.head? = v.head? := by
    intro b s hR hne
    obtain ⟨sock, rest, buf⟩ := b
    cases buf with
    | nil =>
      cases v with
      | nil => rfl
      | cons c v => exact absurd rfl (hne (by simp))
    | cons c buf =>
      obtain ⟨v', rfl, _⟩ := rep_tail hR
      rfl
  unfold Chunked.underflow
  by_cases hb : b.buf = []
  · rw [if_pos hb]
    obtain ⟨b', s', h1, h2, h3, h4⟩ := fill_rep hl hz ht hf h hb
    rw [flat_bind_eq h1, ← key h2 h3]
    exact ⟨b', s', rfl, h2, rfl, h4⟩
  · rw [if_neg hb, flat_bind_eq (flat_ret _ _), ← key h (fun _ => hb)]
    exact ⟨b, s, rfl, h, rfl, fun hv => absurd (rep_nil h hv) hb⟩

theorem chunked_run {last : Chunk} {trailer : List Str} {d : Str} (hl : LegalLine last.digits last.ext) (hz : hexValue last.digits = 0)
    (ht : ∀ l ∈ trailer, LegalTrailer l) {fuel : Nat} (hf : trailer.length < fuel) : ∀ (ops : List BOp) (b : Chunked) (s v : Str),
    Rep last trailer d b s v →
    ∃ b' s', (Chunked.run fuel ops b).flat s = (.ok ((takes ops v).map (·.bind asInt), b'), s') ∧ Rep last trailer d b' s' (left ops v)
      ∧ (none ∈ takes ops v → s' = d) := by
  intro ops
  induction ops with
  | nil => intro b s v h; exact ⟨b, s, rfl, h, fun h => by simp [takes] at h⟩
  | cons o ops ih =>
    intro b s v h
    obtain ⟨b', s', h1, h2, h3, h4⟩ := chunked_underflow hl hz ht hf h
    have stay : ∀ {b s v}, Rep last trailer d b s v → v = [] → s = d →
        ∀ b' s', (Chunked.run fuel ops b).flat s = (.ok ((takes ops v).map (·.bind asInt), b'), s') → none ∉ takes ops v → ops = [] := by
      intro b s v _ hv _ b' s' _ hn
      subst hv
      cases ops with
      | nil => rfl
      | cons o ops => cases o <;> simp [takes] at hn
    unfold Chunked.run
    cases o with
    | peek =>
      obtain ⟨b'', s'', h5, h6, h7⟩ := ih b' s' v h2
      rw [flat_bind_eq h1]
      dsimp only
      rw [flat_bind_eq h5]
      refine ⟨_, _, rfl, h6, fun hn => ?_⟩
      by_cases hm : none ∈ takes ops v
      · exact h7 hm
      · have hv : v = [] := by
          rcases List.mem_cons.1 hn with h' | h'
          · exact List.head?_eq_none_iff.1 h'.symm
          · exact absurd h' hm
        have ho := stay h2 hv (h4 hv) _ _ h5 hm
        subst ho
        rw [show s'' = s' from (Prod.mk.inj h5).2.symm]
        exact h4 hv
    | take =>
      have hu : (b.uflow fuel).flat s = (.ok (v.head?.bind asInt, { b' with buf := b'.buf.tail }), s') := by
        unfold Chunked.uflow
        rw [flat_bind_eq h1]
        rfl
      have hR : Rep last trailer d { b' with buf := b'.buf.tail } s' v.tail := by
        obtain ⟨sock, rest, buf⟩ := b'
        cases buf with
        | nil =>
          have : v = [] := List.head?_eq_none_iff.1 h3.symm
          subst this
          exact h2
        | cons c buf =>
          obtain ⟨v', rfl, h8⟩ := rep_tail h2
          exact h8
      obtain ⟨b'', s'', h5, h6, h7⟩ := ih _ s' v.tail hR
      rw [flat_bind_eq hu]
      dsimp only
      rw [flat_bind_eq h5]
      refine ⟨_, _, rfl, h6, fun hn => ?_⟩
      by_cases hm : none ∈ takes ops v.tail
      · exact h7 hm
      · have hv : v = [] := by
          rcases List.mem_cons.1 hn with h' | h'
          · exact List.head?_eq_none_iff.1 h'.symm
          · exact absurd h' hm
        have hv' : v.tail = [] := by rw [hv]; rfl
        have ho := stay hR hv' (h4 hv) _ _ h5 hm
        subst ho
        rw [show s'' = s' from (Prod.mk.inj h5).2.symm]
        exact h4 hv

/-! ### Reading only -/

theorem reads_fixed : ∀ (ops : List BOp) (b : Fixed), (Fixed.run ops b).Reads := by
  have hu : ∀ b : Fixed, b.underflow.Reads := by
    intro b
    unfold Fixed.underflow
    split
    · exact .ret _
    · split
      · exact .ret _
      · exact Prog.reads_bind Prog.reads_getc fun _ => .ret _
  intro ops
  induction ops with
  | nil => intro b; exact .ret _
  | cons o ops ih =>
    intro b
    unfold Fixed.run
    refine Prog.reads_bind ?_ fun r => Prog.reads_bind (ih _) fun _ => .ret _
    cases o with
    | peek => exact hu b
    | take => exact Prog.reads_bind (hu b) fun _ => .ret _

theorem reads_chunked (fuel : Nat) : ∀ (ops : List BOp) (b : Chunked), (Chunked.run fuel ops b).Reads := by
  have hsk : ∀ fuel, (skipTrailer fuel).Reads := by
    intro fuel
    induction fuel with
    | zero => exact .ret _
    | succ n ih =>
      unfold skipTrailer
      refine Prog.reads_bind (Prog.reads_getline _) fun r => ?_
      split
      · exact .ret _
      · exact .ret _
      · exact ih
  have hfoot : ∀ b : Chunked, (footer b).Reads := by
    intro b
    unfold footer
    split
    · refine Prog.reads_bind Prog.reads_getc fun c => ?_
      split
      · exact Prog.reads_bind Prog.reads_getc fun _ => .ret _
      · exact .ret _
    · exact .ret _
  have hfc : ∀ b : Chunked, (fillChunk fuel b).Reads := by
    intro b
    unfold fillChunk
    split
    · split
      · exact Prog.reads_bind (hsk fuel) fun _ => .ret _
      · exact .ret _
    · dsimp only
      split
      · exact .ret _
      · refine Prog.reads_bind (Prog.reads_read _) fun d => ?_
        split
        · exact .ret _
        · exact hfoot _
  have hfill : ∀ b : Chunked, (fill fuel b).Reads := by
    intro b
    unfold fill
    split
    · exact .ret _
    · split
      · refine Prog.reads_bind ?_ hfc
        unfold readChunkSize
        split
        · exact .ret _
        · refine Prog.reads_bind (Prog.reads_getline _) fun r => ?_
          split
          · exact .ret _
          · exact .ret _
      · exact hfc b
  have hu : ∀ b : Chunked, (b.underflow fuel).Reads := by
    intro b
    unfold Chunked.underflow
    refine Prog.reads_bind ?_ fun _ => .ret _
    split
    · exact hfill b
    · exact .ret _
  intro ops
  induction ops with
  | nil => intro b; exact .ret _
  | cons o ops ih =>
    intro b
    unfold Chunked.run
    refine Prog.reads_bind ?_ fun r => ?_
    · cases o with
      | peek => exact hu b
      | take => exact Prog.reads_bind (hu b) fun _ => .ret _
    · split
      · exact .ret _
      · exact Prog.reads_bind (ih _) fun _ => .ret _

end Verif.Http.Lemmas
