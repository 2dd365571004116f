import Verif.HttpStream.LemmasConnect
import Verif.CgiServer.Props
import Verif.Base64.Props
/-! Lemmas about the request of a stream, as the web server of the library receives it. -/

namespace Verif.HttpStream.Lemmas
open Verif Verif.Socket Verif.Http Verif.HttpMsg Verif.HttpStream Verif.HttpStream.Spec
open Verif.HttpMsg.Spec hiding requestText
open Verif.CgiServer (ascii Body.take)
open Verif.Socket.Spec (fresh Accepts Delivers Writing Reading)
open Verif.Uri.Spec (Split Valid KnownHost)

/-- The request as the server sees it. -/
def seen (sp : Split) : Request := requestFor (Uri.Spec.parts (asked sp))

theorem seen_header (sp : Split) : (seen sp).header = (requestFor (Uri.Spec.parts sp)).header := by
  have e : Uri.Spec.parts (asked sp) = Uri.Spec.parts (slashed sp) := Uri.Lemmas.parts_dropEmpty _
  unfold seen
  rw [e]
  rfl

theorem seen_print {sp : Split} : Uri.print (seen sp).uri = Uri.print (Uri.Spec.parts sp) := by
  have e : Uri.Spec.parts (asked sp) = Uri.Spec.parts (slashed sp) := Uri.Lemmas.parts_dropEmpty _
  show Uri.print (Uri.Spec.parts (asked sp)) = _
  rw [e, slashed_print]

theorem seen_wire {sp : Split} {ui po : Option Str} {ho : Str} (h : WebUrl sp ui ho po) :
    wire (HttpMsg.Spec.requestText (seen sp)) (seen sp).header (seen sp).body = Spec.requestText sp ui ho := by
  rw [← request_text h, seen_header]
  have : HttpMsg.Spec.requestText (seen sp) = HttpMsg.Spec.requestText (requestFor (Uri.Spec.parts sp)) := by
    unfold HttpMsg.Spec.requestText
    rw [seen_print]
    rfl
  rw [this]
  rfl

theorem filter_sub {o : Option Str} {c : UInt8} {f : Str → Str}
    (h : c ∈ (match o.filter (fun s => !s.isEmpty) with | none => [] | some x => f x)) : c ∈ (match o with | none => [] | some x => f x) := by
  cases o with
  | none => exact h
  | some s =>
    cases s with
    | nil => exact (List.not_mem_nil (show c ∈ ([] : Str) from h)).elim
    | cons a s => exact h

theorem digit_plain (c : UInt8) (h : Base64.Spec.IsDigit c ∨ c = 61) : c ≠ 10 ∧ ¬ Http.Spec.Space c := by
  revert h
  have : ∀ i : Fin 256, (Base64.Spec.IsDigit (UInt8.ofNat i) ∨ UInt8.ofNat i = 61) → UInt8.ofNat i ≠ 10 ∧ ¬ Http.Spec.Space (UInt8.ofNat i) := by
    unfold Base64.Spec.IsDigit Http.Spec.Space
    decide +kernel
  have := this ⟨c.toNat, c.toNat_lt⟩
  simpa using this

theorem wellFormed_chars {s : Str} (h : Base64.Spec.WellFormed s) : ∀ c ∈ s, Base64.Spec.IsDigit c ∨ c = 61 := by
  induction h with
  | nil => simp
  | pad2 a b =>
    intro c hc
    simp only [List.mem_cons, List.not_mem_nil, or_false] at hc
    rcases hc with rfl | rfl | rfl | rfl
    · exact .inl a
    · exact .inl b
    · exact .inr rfl
    · exact .inr rfl
  | pad1 a b d =>
    intro c hc
    simp only [List.mem_cons, List.not_mem_nil, or_false] at hc
    rcases hc with rfl | rfl | rfl | rfl
    · exact .inl a
    · exact .inl b
    · exact .inl d
    · exact .inr rfl
  | group a b d e _ ih =>
    intro c hc
    simp only [List.mem_cons] at hc
    rcases hc with rfl | rfl | rfl | rfl | hc
    · exact .inl a
    · exact .inl b
    · exact .inl d
    · exact .inl e
    · exact ih c hc

/-- The server receives the request. -/
theorem seen_legal {sp : Split} {ui po : Option Str} {ho : Str} (h : WebUrl sp ui ho po) (hs : (Uri.Spec.compose (asked sp)).length ≤ 2000) :
    LegalRequest (seen sp) (asked sp) := by
  have hau : (slashed sp).authority = some (ui, ho, po) := h.authority
  have hv := slashed_valid h.valid (by rw [h.authority]; rfl)
  have hpath : (asked sp).path ≠ [] := by
    show (if sp.path = [] then ascii "/" else sp.path) ≠ []
    split
    · decide
    · assumption
  have hfirst : LegalFirst (seen sp) (asked sp) := by
    have hget : ascii "GET" ≠ [] ∧ ∀ c ∈ ascii "GET", ¬ Http.Spec.Space c := ⟨by decide +kernel, by unfold Http.Spec.Space; decide +kernel⟩
    have hone : Lexical.Spec.Fits Lexical.int32 1 := by unfold Lexical.Spec.Fits; decide +kernel
    refine ⟨hget, ⟨rfl, Uri.Lemmas.valid_dropEmpty _ hv⟩, ?_, ⟨?_, hpath⟩, ⟨hone, hone⟩⟩
    · intro a b c e
      have e' : some (ui.filter (fun s => !s.isEmpty), ho, po.filter (fun s => !s.isEmpty)) = some (a, b, c) := by
        rw [← e]
        show _ = (sp.authority.map _)
        rw [h.authority]
        rfl
      simp only [Option.some.injEq, Prod.mk.injEq] at e'
      obtain ⟨rfl, rfl, rfl⟩ := e'
      refine ⟨h.known, fun hc => h.plain ?_⟩
      unfold Uri.Spec.authorityText at hc ⊢
      simp only [List.mem_append] at hc ⊢
      rcases hc with (hc | hc) | hc
      · exact .inl (.inl (filter_sub hc))
      · exact .inl (.inr hc)
      · exact .inr (filter_sub hc)
    · show sp.scheme.isSome = (sp.authority.map _).isSome
      rw [h.scheme, h.authority]; rfl
  have hprint : Uri.print (seen sp).uri = Uri.Spec.compose (asked sp) := by rw [seen_print, print_asked h]
  have hvis : ∀ c ∈ Uri.print (seen sp).uri, HttpMsg.Lemmas.Visible c :=
    (HttpMsg.Lemmas.print_visible (asked sp) hfirst.uri.2 hfirst.form.1 hfirst.form.2).2
  obtain ⟨m1, m2, m3, m4⟩ := members h
  have hh : (seen sp).header = [(ascii "Host", ho), (ascii "Connection", ascii "close")] ++
      (if ui.getD [] ≠ [] then [(ascii "Authorization", ascii "Basic " ++ Base64.encode (ui.getD []))] else []) := by
    rw [seen_header]
    unfold requestFor
    dsimp only
    rw [m2, m3]
    split <;> rfl
  have hprint' : Uri.print (seen sp).uri = (ascii "http" ++ [58, 47, 47]) ++ ((if ui.getD [] ≠ [] then ui.getD [] ++ [64] else []) ++ ho ++
      (if po.getD [] ≠ [] then 58 :: po.getD [] else [])) ++
      ((if (Uri.Spec.parts sp).path ≠ [] then (Uri.Spec.parts sp).path else [47]) ++
        (if (Uri.Spec.parts sp).query ≠ [] then 63 :: (Uri.Spec.parts sp).query else []) ++
        (if (Uri.Spec.parts sp).fragment ≠ [] then 35 :: (Uri.Spec.parts sp).fragment else [])) := by
    rw [seen_print]
    unfold Uri.print Uri.authorityText
    rw [m1, m2, m3, m4, if_pos (show ascii "http" ≠ [] by decide)]
    simp only [List.append_assoc]
  have hlen : ho.length + (ui.getD []).length ≤ 2000 := by
    rw [← hprint, hprint'] at hs
    simp only [List.length_append] at hs
    have : (ui.getD []).length ≤ (if ui.getD [] ≠ [] then ui.getD [] ++ [64] else []).length := by
      split
      · simp
      · rename_i h; simp at h; simp [h]
    omega
  have hho : ∀ c ∈ ho, c ≠ 10 ∧ ¬ Http.Spec.Space c := by
    intro c hc
    have := hvis c (by rw [hprint']; simp [hc])
    have h2 := HttpMsg.Lemmas.visible_plain c this
    refine ⟨h2.2, fun hs => ?_⟩
    have h3 := h2.1
    rw [show Lexical.isspace c = Http.isspace c from rfl, (Http.Lemmas.isspace_iff c).2 hs] at h3
    cases h3
  have hhost : Http.Spec.Legal (ascii "Host", ho) := by
    have hname : ascii "Host" ≠ [] ∧ ∀ c ∈ ascii "Host", ¬ Http.Spec.Space c ∧ c ≠ 58 := ⟨by decide +kernel, by unfold Http.Spec.Space; decide +kernel⟩
    refine ⟨hname.1, hname.2, fun hc => (hho 10 hc).1 rfl, fun c hc => (hho c (List.mem_of_mem_head? hc)).2, ?_⟩
    show (ascii "Host").length + ho.length + 4 ≤ 4096
    have : (ascii "Host").length = 4 := by decide +kernel
    omega
  have hconn : Http.Spec.Legal (ascii "Connection", ascii "close") :=
    ⟨by decide +kernel, by unfold Http.Spec.Space; decide +kernel, by decide +kernel, by unfold Http.Spec.Space; decide +kernel, by decide +kernel⟩
  have hauth : Http.Spec.Legal (ascii "Authorization", ascii "Basic " ++ Base64.encode (ui.getD [])) := by
    obtain ⟨b1, b2, _⟩ := Base64.Props.base64_encode_spec (ui.getD [])
    have b3 := wellFormed_chars b1
    have hname : ascii "Authorization" ≠ [] ∧ ∀ c ∈ ascii "Authorization", ¬ Http.Spec.Space c ∧ c ≠ 58 :=
      ⟨by decide +kernel, by unfold Http.Spec.Space; decide +kernel⟩
    refine ⟨hname.1, hname.2, ?_, ?_, ?_⟩
    · intro hc
      rcases List.mem_append.1 hc with hc | hc
      · revert hc; decide +kernel
      · exact (digit_plain 10 (b3 10 hc)).1 rfl
    · intro c hc
      have : some c = some 66 := by
        rw [← show (ascii "Basic " ++ Base64.encode (ui.getD [])).head? = some 66 from rfl]
        exact hc.symm
      simp only [Option.some.injEq] at this
      subst this
      unfold Http.Spec.Space
      decide
    · simp only [List.length_append]
      rw [b2]
      have h1 : (ascii "Authorization").length = 13 := by decide +kernel
      have h2 : (ascii "Basic ").length = 6 := by decide +kernel
      omega
  refine ⟨hfirst, ?_, ⟨⟨?_, ?_⟩, ?_, ?_, show 0 < 2 ^ 63 by decide⟩⟩
  · unfold HttpMsg.Spec.requestText
    rw [hprint]
    show (ascii "GET" ++ [32] ++ Uri.Spec.compose (asked sp) ++ [32] ++ httpSlash ++ Lexical.put 1 ++ [46] ++ Lexical.put 1).length + 2 ≤ 4096
    have h1 : (ascii "GET").length = 3 := by decide +kernel
    have h2 : (Lexical.put 1).length = 1 := by decide +kernel
    have h3 : httpSlash.length = 5 := rfl
    simp only [List.length_append, List.length_singleton, h1, h2, h3]
    omega
  · intro e he
    rw [hh] at he
    simp only [List.mem_append, List.mem_cons, List.not_mem_nil, or_false] at he
    rcases he with (rfl | rfl) | he
    · exact hhost
    · exact hconn
    · split at he
      · rw [List.mem_singleton.1 he]; exact hauth
      · simp at he
  · rw [hh]
    unfold HttpMsg.Spec.names
    split
    · simp only [List.map_append, List.map_cons, List.map_nil]; decide +kernel
    · simp only [List.map_append, List.map_cons, List.map_nil]; decide +kernel
  · intro e he hf
    exfalso
    rw [hh] at he
    simp only [List.mem_append, List.mem_cons, List.not_mem_nil, or_false] at he
    rcases he with (rfl | rfl) | he
    · revert hf; simp only; decide +kernel
    · revert hf; decide +kernel
    · split at he
      · rw [List.mem_singleton.1 he] at hf; revert hf; simp only; decide +kernel
      · simp at he
  · intro e he hf
    exfalso
    rw [hh] at he
    simp only [List.mem_append, List.mem_cons, List.not_mem_nil, or_false] at he
    rcases he with (rfl | rfl) | he
    · revert hf; simp only; decide +kernel
    · revert hf; decide +kernel
    · split at he
      · rw [List.mem_singleton.1 he] at hf; revert hf; simp only; decide +kernel
      · simp at he

end Verif.HttpStream.Lemmas
