import Verif.Uri.LemmasPrint
/-! Claims on `uri` (C46). -/

namespace Verif.Uri.Props
open Verif.Uri Verif.Uri.Spec Verif.Uri.Lemmas

/-- The bytes of an ASCII text, for the examples. -/
def str (s : String) : Str := s.toList.map ch

instance : DecidableEq (Except Err Parts) := fun a b => match a, b with
  | .ok x, .ok y => if h : x = y then isTrue (by rw [h]) else isFalse (fun e => h (by injection e))
  | .error x, .error y => if h : x = y then isTrue (by rw [h]) else isFalse (fun e => h (by injection e))
  | .ok _, .error _ => isFalse (by simp)
  | .error _, .ok _ => isFalse (by simp)

/-- C46: an accepted text without 0 byte is the concatenation of the members with the separators of RFC 3986 between them, nothing is lost
and nothing is added; every member but the user information is of the form that the RFC demands. -/
theorem parse_recompose (s : Str) (h0 : 0 ∉ s) (u : Parts) (h : parse s = .ok u) :
    ∃ sp, compose sp = s ∧ parts sp = u ∧ ValidWith (fun _ => True) sp := by
  obtain ⟨sp, junk, h1, h2, h3⟩ := parse_ok s u _ (infoOk_true _) h
  exact ⟨sp, (zero_end h0 h3).1.symm, h2, h1⟩

/-- C46, partly: without percent sign in the authority the accepted texts are legal, cut at legal places. (With one this is false, see
`parse_wrong`.) -/
theorem parse_sound_partial (s : Str) (h0 : 0 ∉ s) (hp : PlainAuthority s) (u : Parts) (h : parse s = .ok u) :
    ∃ sp, compose sp = s ∧ parts sp = u ∧ Valid sp := by
  obtain ⟨sp, junk, h1, h2, h3⟩ := parse_ok s u _ (infoOk_plain s hp) h
  exact ⟨sp, (zero_end h0 h3).1.symm, h2, h1⟩

/-- C46, partly: legal references are accepted and cut at the right places, if the host is one that the code knows and the authority
has no percent sign. (Both conditions are needed, see below.) -/
theorem parse_complete_partial (sp : Split) (h : Valid sp)
    (ha : ∀ ui h po, sp.authority = some (ui, h, po) → KnownHost h ∧ ch '%' ∉ Spec.authorityText (ui, h, po)) :
    parse (compose sp) = .ok (parts sp) := parse_runs sp h ha

/-- C46, partly: without percent sign in the authority nothing undefined happens. -/
theorem parse_safe_partial (s : Str) (hp : PlainAuthority s) : parse s ≠ .error .ub := by
  rcases safe_parse s hp with ⟨v, e⟩ | e <;> rw [e] <;> simp

/-- C46: parsing always comes to an end. -/
theorem parse_ends (s : Str) : parse s ≠ .error .loop := ends_parse s

/-- C46: a name that is not legal anywhere is refused, in particular a text with a character outside of the RFC's alphabet. -/
theorem parse_rejects_partial (s : Str) (h0 : 0 ∉ s) (hp : PlainAuthority s) (hno : ¬ ∃ sp, Valid sp ∧ compose sp = s) :
    parse s = .error .fail := by
  rcases safe_parse s hp with ⟨v, e⟩ | e
  · obtain ⟨sp, h1, _, h3⟩ := parse_sound_partial s h0 hp v e
    exact absurd ⟨sp, h3, h1⟩ hno
  · exact e

example : parse (str "http://me@www.example.com:8080/a/b?c=d#e") =
    .ok { scheme := str "http", userinfo := str "me", host := str "www.example.com", port := str "8080", path := str "/a/b",
          query := str "c=d", fragment := str "e" } := by decide +kernel

example : parse (str "../a:b?") = .ok { path := str "../a:b" } := by decide +kernel
example : parse (str "mailto:a@b") = .ok { scheme := str "mailto", path := str "a@b" } := by decide +kernel
example : parse (str "//[0001:0002::0003:0004:0005:10.0.0.1]:80") =
    .ok { host := str "[0001:0002::0003:0004:0005:10.0.0.1]", port := str "80" } := by decide +kernel
example : parse (str "a b") = .error .fail := by decide +kernel
example : parse (str "http://a:b/") = .error .fail := by decide +kernel

/-- A split that meets the hypotheses of `parse_complete_partial`. -/
def sample : Split :=
  { scheme := some (str "http"), authority := some (some (str "me"), str "[0001:0002::0003:0004:0005:10.0.0.1]", some (str "80")),
    path := str "/%41", query := some (str "b"), fragment := some [] }

theorem sample_host : KnownHost (str "[0001:0002::0003:0004:0005:10.0.0.1]") := by
  refine Or.inl ⟨str "0001:0002::0003:0004:0005:10.0.0.1", by decide +kernel, Or.inr ⟨2, 5, str "0001:0002", str "0003:0004:0005:10.0.0.1", ?_, ?_, by decide, Or.inr rfl, by decide +kernel⟩⟩
  · exact FullGroups.more (s := str "0001") (t := str "0002") (full_of _ (by decide +kernel)) (.one (full_of _ (by decide +kernel)))
  · refine FullTail.more (s := str "0003") (t := str "0004:0005:10.0.0.1") (full_of _ (by decide +kernel)) ?_
    refine FullTail.more (s := str "0004") (t := str "0005:10.0.0.1") (full_of _ (by decide +kernel)) ?_
    refine FullTail.more (s := str "0005") (t := str "10.0.0.1") (full_of _ (by decide +kernel)) ?_
    exact .ipv4 ⟨str "10", str "0", str "0", str "1", ⟨10, by decide, by decide +kernel⟩, ⟨0, by decide, by decide +kernel⟩,
      ⟨0, by decide, by decide +kernel⟩, ⟨1, by decide, by decide +kernel⟩, by decide +kernel⟩

/-- The hypotheses of the theorems above can be met, with every component present. -/
theorem sample_valid : Valid sample ∧ (∀ ui h po, sample.authority = some (ui, h, po) → KnownHost h ∧ ch '%' ∉ Spec.authorityText (ui, h, po)) := by
  have e : sample.authority = some (some (str "me"), str "[0001:0002::0003:0004:0005:10.0.0.1]", some (str "80")) := rfl
  refine ⟨⟨?_, ?_, ?_, ?_⟩, ?_⟩
  · rintro s ⟨⟩
    exact ⟨ch 'h', str "ttp", by decide +kernel, by decide +kernel, fun d hd => (scheme_iff d).mp (by revert d; decide +kernel)⟩
  · rw [e]
    refine ⟨?_, ?_, ?_, ?_, ?_⟩
    · rintro s ⟨⟩
      exact coded_of_all (fun c hc => (infoChar_iff c).mp (by revert c; decide +kernel))
    · rcases sample_host with ⟨t, h1, h2⟩ | h | h
      · exact Or.inl ⟨t, h1, Or.inl (knownIpv6_ipv6 h2)⟩
      · exact Or.inr (Or.inl h)
      · exact Or.inr (Or.inr h.1)
    · rintro s ⟨⟩
      intro c hc
      exact (isDigit_iff c).mp (by revert c; decide +kernel)
    · intro c hc
      have : (str "/%41").head? = some c := hc
      have h2 : (str "/%41").head? = some (ch '/') := by decide +kernel
      rw [this] at h2
      simpa using h2
    · exact .char (ch '/') (Or.inr (by decide +kernel)) (.pct 52 49 (by decide +kernel) (by decide +kernel) .nil)
  · rintro s ⟨⟩
    exact .char (ch 'b') (Or.inl (by decide +kernel)) .nil
  · rintro s ⟨⟩
    exact .nil
  · intro ui h po hs
    rw [e] at hs
    simp only [Option.some.injEq, Prod.mk.injEq] at hs
    obtain ⟨rfl, rfl, rfl⟩ := hs
    exact ⟨sample_host, by decide +kernel⟩

example : parse (compose sample) = .ok (parts sample) := parse_complete_partial sample sample_valid.1 sample_valid.2

/-- Finding: a percent sign in the authority makes the parser run over the end of the text. -/
theorem parse_undefined : parse (str "//%41") = .error .ub := by decide +kernel

/-- Finding: or take a part of the path for user information and the rest for the host: `http://%41/ab@c/` has the host `c`, where RFC
3986 says `%41`. -/
theorem parse_wrong : parse (str "http://%41/ab@c/") =
    .ok { scheme := str "http", userinfo := str "%41/ab", host := str "c", path := str "/" } := by decide +kernel

theorem parse_wrong_invalid : ∀ s, Userinfo s → s ≠ str "%41/ab" := by
  rintro s h rfl
  have hm : ch '/' ∈ str "%41/ab" := by decide +kernel
  rcases coded_mem h _ hm with h | h | h <;> revert h <;> decide +kernel

/-- Finding: a percent sign is refused in user information where it is legal: `http://%41@b/`. -/
theorem parse_refuses_escape : parse (str "http://%41@b/") = .error .fail := by decide +kernel

/-- Finding: no address in brackets but an IPv6 address with groups of four digits is ever accepted as host: what `parse` accepts
there is known. In particular no `IPvFuture` is. -/
theorem literal_known (p q : Str) (h : ipLiteral p = .ok q) : ∃ t, p = ch '[' :: (t ++ ch ']' :: q) ∧ KnownIpv6 t := by
  obtain ⟨_, rfl, t, rfl, ht⟩ := ok_ipLiteral p q h
  exact ⟨t, by simp, ht⟩

/-- Finding: legal references with such hosts that are refused. -/
theorem parse_refuses_ipv6 : parse (str "http://[::1]/") = .error .fail ∧ parse (str "http://[0001::0001]/") = .error .fail ∧
    parse (str "http://[v1.a]/") = .error .fail := by decide +kernel

/-- Finding: a name that begins with an IPv4 address is refused. -/
theorem parse_refuses_name : parse (str "http://1.2.3.4.com/") = .error .fail := by decide +kernel

/-- Finding: what follows a 0 byte is ignored. -/
theorem parse_nul : parse (str "a" ++ 0 :: str "b c") = parse (str "a") := by decide +kernel

/-- C46: a text that is refused gives an empty object. -/
theorem uri_refused (s : Str) (h : parse s = .error .fail) : uri s = .ok {} := by unfold uri; rw [h]

/-- Finding: which is also what the empty text gives. -/
theorem uri_empty : uri (str "a b") = uri [] ∧ parse [] = .ok {} := by decide +kernel

/-- C46, partly: parsing the text written by `operator<<` gives the same members again, for a legal reference with a known host that has
scheme and authority or neither, and a path. (Without these conditions it is false, see below.) -/
theorem print_roundtrip_partial (sp : Split) (h : Valid sp)
    (ha : ∀ ui h po, sp.authority = some (ui, h, po) → KnownHost h ∧ ch '%' ∉ Spec.authorityText (ui, h, po))
    (hs : sp.scheme.isSome = sp.authority.isSome) (hp : sp.path ≠ []) : parse (print (parts sp)) = .ok (parts sp) := by
  rw [print_dropEmpty sp h hs hp, ← parts_dropEmpty sp]
  apply parse_complete_partial _ (valid_dropEmpty sp h)
  intro ui ho po e
  cases hau : sp.authority with
  | none => simp [dropEmpty, hau] at e
  | some a =>
    obtain ⟨ui', ho', po'⟩ := a
    simp only [dropEmpty, hau, Option.map_some, Option.some.injEq, Prod.mk.injEq] at e
    obtain ⟨rfl, rfl, rfl⟩ := e
    obtain ⟨h1, h2⟩ := ha _ _ _ hau
    refine ⟨h1, fun hm => h2 ?_⟩
    simp only [Spec.authorityText, List.mem_append] at hm ⊢
    rcases hm with (hm | hm) | hm
    · left; left
      cases hf : ui'.filter (fun s => !s.isEmpty) with
      | none => rw [hf] at hm; simp at hm
      | some x => rw [hf] at hm; rw [filter_some hf]; exact hm
    · left; right; exact hm
    · right
      cases hf : po'.filter (fun s => !s.isEmpty) with
      | none => rw [hf] at hm; simp at hm
      | some x => rw [hf] at hm; rw [filter_some hf]; exact hm

/-- C46, partly: and the text is the same if no component is present and empty. -/
theorem print_exact_partial (sp : Split) (h : Valid sp) (hs : sp.scheme.isSome = sp.authority.isSome) (hp : sp.path ≠ [])
    (he : dropEmpty sp = sp) : print (parts sp) = compose sp := by
  rw [print_dropEmpty sp h hs hp, he]

example : print (parts sample) = str "http://me@[0001:0002::0003:0004:0005:10.0.0.1]:80/%41?b" := by decide +kernel

/-- Finding: a scheme without authority is written with two slashes, which turns the path into an authority. -/
theorem print_wrong : print (parts { scheme := some (str "mailto"), path := str "a@b" }) = str "mailto://a@b" := by decide +kernel

/-- Finding: an authority without scheme is written without the slashes, so that it becomes a part of the path. -/
theorem print_wrong_authority : print (parts { authority := some (none, str "a", none), path := str "/b" }) = str "a/b" := by decide +kernel

end Verif.Uri.Props
