import Verif.Xhtml.Lemmas
/-! # C39: HTML encoding is safe and faithful -/
namespace Verif.Xhtml.Props
open Verif.Xhtml Verif.Xhtml.Spec Verif.Xhtml.Lemmas

/-- Decoding the entities gives back the input. The decoder refuses raw `<`,
`>`, `"`, `'` and an `&` that begins no entity, so there are none. -/
theorem decode_encode (s : List UInt8) : decode (encode s) = some s := Lemmas.decode_encode s

/-- No raw `<`, `>`, quote or apostrophe. -/
theorem encode_safe (s : List UInt8) : ∀ c ∈ encode s, c ≠ 60 ∧ c ≠ 62 ∧ c ≠ 34 ∧ c ≠ 39 := by
  intro c hc
  obtain ⟨d, _, hd⟩ := List.mem_flatMap.mp hc
  rcases encodeChar_cases d with ⟨_, h⟩ | ⟨_, h⟩ | ⟨_, h⟩ | ⟨_, h⟩ | ⟨_, h⟩ | ⟨hd', h⟩
  all_goals rw [h] at hd
  any_goals (simp only [List.mem_cons, List.not_mem_nil, or_false] at hd)
  all_goals grind

/-- Different strings have different encodings. -/
theorem encode_injective (s t : List UInt8) (h : encode s = encode t) : s = t := by
  have := Lemmas.decode_encode s
  rw [h, Lemmas.decode_encode t] at this
  exact (Option.some.inj this).symm

/-- A reader of the rendered document sees the tags, attribute values and
characters of the tree, and nothing else: text and attribute values cannot
forge markup. -/
theorem render_read (e : Elem) (h : Ok e) : read (render e) = some (events e) :=
  read_of_steps (render_steps e h)

/-- The same for `pretty`, whose line breaks are all inside of tags. -/
theorem pretty_read (e : Elem) (h : Ok e) : read (pretty 0 e) = some (events e) :=
  read_of_steps (pretty_steps 0 e h)

/-- The tags are well nested. -/
theorem events_nested (e : Elem) : nested [] (events e) = true := by
  have := nested_events e [] []
  rwa [List.append_nil] at this

/-- Names are not protected: a space in the name of an element makes an attribute of the rest. -/
theorem not_names_safe : ∃ n k, render (.tag (n ++ 32 :: k) [] []) = render (.tag n [(k, [])] []) :=
  ⟨[97], [98], by decide⟩

/-! ### Cases that meet the hypotheses -/

/-- `<a k="&quot;" b>&lt;<c /></a>` -/
example : Ok (.tag [97] [([107], [34]), ([98], [])] [.text [60], .tag [99] [] []]) := by
  have h : ∀ c : UInt8, isSpace c = false → isMarkup c = false → Name [c] := by
    intro c h1 h2
    refine ⟨by simp, ?_⟩
    intro d hd
    rw [List.mem_singleton.mp hd]
    exact ⟨h1, h2⟩
  simp only [Ok, OkAll, List.mem_cons, List.not_mem_nil, or_false, forall_eq_or_imp, forall_eq]
  exact ⟨h _ rfl rfl, ⟨h _ rfl rfl, h _ rfl rfl⟩, trivial, ⟨h _ rfl rfl, fun _ h => absurd h (by simp), trivial⟩, trivial⟩

example : read (render (.tag [97] [([107], [34]), ([98], [])] [.text [60], .tag [99] [] []])) =
    some [.start [97] [([107], [34]), ([98], [])], .char 60, .empty [99] [], .stop [97]] := by decide +kernel

example : encode [60, 38] = [38, 108, 116, 59, 38, 97, 109, 112, 59] := by decide

example : nested [] [.start [97] [], .stop [98]] = false := by decide

end Verif.Xhtml.Props
