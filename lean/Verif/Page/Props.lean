import Verif.Page.Lemmas
import Verif.Page.Tags
import Verif.CgiServer.Props
/-! # C81: a page shows the nesting of the blocks that made it -/
namespace Verif.Page.Props
open Verif Verif.Xhtml Verif.Page Verif.Page.Spec Verif.Page.Lemmas
open Verif.CgiServer (ascii startHeader)

/-- C81, part: whatever requests came before, a program that compiles puts out the page it describes, and nothing else: each tag contains what was added in its
block, with the attributes that were given in its block, however the block was left. If the program itself is left by an exception, nothing is put out. Undefined
behaviour does not occur. A part, as the compiler must leave out the copy of the `tag_inserter`: see `copy_undefined`. -/
theorem page_partial (cs : List Stmt) (hc : CompilesAll false cs) (o : Obj) (head : Http.Header) :
    ∃ es done l, Draws cs es done l ∧ (l = some .exc → (run true cs o head).2 = .thrown) ∧
      (l ≠ some .exc → ∃ h, (run true cs o head).2 = .done h (line (xmltagOf done) ++ line (dtdOf done) ++ es.flatMap (pretty 0) ++ [10])
        ∧ ∀ n, Cgi.Spec.fieldOf h n = fieldOfPage head done n) := by
  obtain ⟨es, done, l, hd, hr⟩ := run_draws cs hc o head
  refine ⟨es, done, l, hd, fun hl => by rw [hr, if_pos hl], fun hl => ⟨done.foldl headEff (htmlHead head), ?_, fun n => ?_⟩⟩
  · rw [hr, if_neg hl]
    congr 1
    unfold write line
    split <;> split <;> simp_all
  · rw [head_foldl]
    unfold fieldOfPage htmlHead
    rw [fieldOf_set]
    congr 1
    split
    · rename_i h; rw [if_pos h.symm]
    · rename_i h; rw [if_neg (fun e => h e.symm)]

/-- C81: a program describes one page. -/
theorem one_page {cs es es' done done' l l'} (h : Draws cs es done l) (h' : Draws cs es' done' l') : es = es' ∧ done = done' ∧ l = l' :=
  draws_unique h h'

/-- C81: what a reader sees of the page. If the program gives no raw text, and the names of its tags and attributes are names, then text and values
cannot make markup: the reader sees the tags of the program, in their order and nesting, with their attributes and text. -/
theorem page_reads (cs : List Stmt) (hc : CompilesAll false cs) (hp : PlainAll cs) (o : Obj) (head : Http.Header) (h : Http.Header) (text : Str)
    (hr : (run true cs o head).2 = .done h text) : ∃ es done l, Draws cs es done l ∧ IsPage text es done := by
  obtain ⟨es, done, l, hd, h1, h2⟩ := page_partial cs hc o head
  refine ⟨es, done, l, hd, ⟨es.flatMap (pretty 0) ++ [10], ?_, pages_read (draws_ok hd hp).1⟩, pages_nested es⟩
  by_cases hl : l = some .exc
  · rw [h1 hl] at hr; cases hr
  · obtain ⟨h', h3, _⟩ := h2 hl
    rw [hr] at h3
    cases h3
    rw [List.append_assoc]

/-- C81, part: the client of the web server gets the page, as HTML with the status 200. `st` is what the earlier requests left of the program. A part for the
same reasons as `served_partial` of C65; the program gives no header fields of its own and no raw text, and throws no exception. -/
theorem page_served_partial {τ : Type} (script : τ → CgiServer.View → τ × List Stmt) (page : Cgi.Msg → Str) (max : Nat) (hmax : max < 2 ^ 64)
    (hs : ∀ t v, CompilesAll false (script t v).2 ∧ PlainAll (script t v).2)
    (he : ∀ t v es done l, Draws (script t v).2 es done l → l ≠ some .exc ∧ ∀ n x, Effect.field n x ∉ done)
    (st0 : τ × Obj) (earlier later : List (CgiServer.Place × Socket.Kernel × Str)) (at_ : CgiServer.Place)
    (k : Socket.Kernel) (ha : Socket.Spec.Accepts k) (hd : Socket.Spec.Delivers k) (q : HttpMsg.Request) (sp : Uri.Spec.Split)
    (hq : HttpMsg.Spec.LegalRequest q sp) (rest : Str) (P : Cgi.St → Prop) (hc : CgiServer.Spec.Carries q max P) :
    ∃ (st : τ × Obj) (v : CgiServer.View) (es : List Elem) (done : List Effect) (l : Option Leave) (text : Str),
      P v.form ∧ v.method = q.method ∧ CgiServer.Spec.Variables v.env at_ q ∧ Draws (script st.1 v).2 es done l ∧ IsPage text es done
      ∧ (text.length < 2 ^ 63 → ∃ w, CgiServer.Spec.Gets w [(ascii "Content-Type", ascii "text/html; charset=utf-8")] text 200 (ascii "OK")
        ∧ ∃ st' : τ × Obj, st'.1 = (script st.1 v).1
          ∧ CgiServer.serve (program true script page max) st0 (earlier ++ (at_, k, HttpMsg.Spec.wire (HttpMsg.Spec.requestText q) q.header q.body ++ rest) :: later)
            = CgiServer.serve (program true script page max) st0 earlier ++ w :: CgiServer.serve (program true script page max) st' later) := by
  obtain ⟨st, v, _, h1, h2, h3, h4⟩ := CgiServer.Props.served_partial (program true script page max) hmax st0 earlier later at_ k ha hd q sp hq rest P hc
  obtain ⟨es, done, l, hdr, hrun⟩ := run_draws (script st.1 v).2 (hs _ _).1 st.2 startHeader
  have hl := he _ _ _ _ _ hdr
  rw [if_neg hl.1, head_nofield done hl.2] at hrun
  have hh : htmlHead startHeader = [(ascii "Content-Type", ascii "text/html; charset=utf-8")] := by decide +kernel
  rw [hh] at hrun
  have hr : ((program true script page max).run st v startHeader).2
      = some ([(ascii "Content-Type", ascii "text/html; charset=utf-8")], write (xmltagOf done) (dtdOf done) es) := by
    show (match (run true (script st.1 v).2 st.2 startHeader).2 with | .done h t => some (h, t) | _ => none) = _
    rw [hrun]
  obtain ⟨es', done', l', hdr', hpage⟩ := page_reads _ (hs st.1 v).1 (hs _ _).2 st.2 startHeader _ _ hrun
  refine ⟨st, v, es', done', l', _, h1, h2, h3, hdr', hpage, fun hb => ?_⟩
  obtain ⟨w, hw, hserve⟩ := h4 _ _ 200 (ascii "OK") hr
    ⟨⟨fun e he => by rw [List.mem_singleton.1 he]; exact CgiServer.Lemmas.type_legal, by decide +kernel⟩,
      fun e he hf => by rw [List.mem_singleton.1 he] at hf; exact absurd hf (by decide +kernel), by decide +kernel, hb⟩
    (.ok (by decide +kernel) (by decide +kernel))
    ⟨by unfold Lexical.Spec.Fits; decide +kernel, by unfold Http.Spec.Space; decide +kernel, by decide +kernel⟩
  exact ⟨w, hw, _, rfl, hserve⟩

/-- C81, the error page: the reader sees the message, and nothing in it makes markup. (Findings: the page is a `body` with a `head` and another `body` in it, and
the header says that it is plain text: `errorHeader` of C65.) -/
theorem error_page (msg : Str) : ∃ text, errorPage true msg = some text ∧ Xhtml.Spec.read text = some (
    [.start (ascii "body") [], .start (ascii "head") [], .start (ascii "title") []] ++ (ascii "Internal Server Error").map .char
    ++ [.stop (ascii "title"), .stop (ascii "head"), .start (ascii "body") []] ++ msg.map .char ++ [.stop (ascii "body"), .stop (ascii "body")]) := by
  have hn : ∀ s : String, (ascii s ≠ [] ∧ ∀ c ∈ ascii s, Xhtml.Spec.isSpace c = false ∧ Xhtml.Spec.isMarkup c = false) → Xhtml.Spec.Name (ascii s) := fun _ h => h
  have h1 := hn "body" (by decide +kernel)
  have h2 := hn "head" (by decide +kernel)
  have h3 := hn "title" (by decide +kernel)
  refine ⟨_, rfl, ?_⟩
  show Xhtml.Spec.read ([Elem.tag (ascii "body") [] [.tag (ascii "head") [] [.tag (ascii "title") [] [.text (ascii "Internal Server Error")]],
    .tag (ascii "body") [] [.text msg]]].flatMap (pretty 0)) = _
  rw [flatMap_pretty]
  rw [Xhtml.Lemmas.read_of_steps (Xhtml.Lemmas.prettyAll_steps 0 [Elem.tag (ascii "body") [] [.tag (ascii "head") [] [.tag (ascii "title") []
    [.text (ascii "Internal Server Error")]], .tag (ascii "body") [] [.text msg]]] ⟨⟨h1, by simp, ⟨h2, by simp, ⟨h3, by simp, trivial, trivial⟩, trivial⟩, ⟨h1, by simp, trivial, trivial⟩,
    trivial⟩, trivial⟩)]
  simp [Xhtml.Spec.eventsAll, Xhtml.Spec.events]

/-! ### Findings -/

/-- Finding: the pages depend on the compiler leaving out the copy in `tag_inserter __TAG__=tag_inserter(name, builder)`, which it may do but, before C++17, need
not. If it does not, every program with a tag has undefined behaviour. -/
theorem copy_undefined (n : Str) (body cs : List Stmt) (o : Obj) (head : Http.Header) : (run false (.tag n body :: cs) o head).2 = .undefined := by
  unfold run
  dsimp only
  have := (exec_copy (.tag n body) { stk := [[]], xmltag := defaultXmltag, dtd := defaultDtd, head := htmlHead head } rfl).2 n body rfl
  simp only [execAll, this, Option.bind_eq_bind, Option.bind_none]

/-- Finding: an attribute with an empty value is written without any value, which XML does not allow; yet the page declares itself XML. -/
theorem empty_value : (run true [.xmltag [], .dtd [], .tag (ascii "img") [.attr (ascii "alt") (some [])]] {} []).2
    = .done [(ascii "Content-Type", ascii "text/html; charset=utf-8")] (ascii "<img alt\n  />\n") := by decide +kernel

/-! ### The macros -/

/-- C81: the macro for an element is its name and two underscores, and the name is one that can be read. -/
theorem tag_macros : ∀ p ∈ tagMacros, p.1.toList = p.2.toList ++ ['_', '_'] ∧ Xhtml.Spec.Name (ascii p.2) := by
  unfold Xhtml.Spec.Name
  decide +kernel

/-- C81: the macro for an attribute is its name, with underscores for hyphens, and two underscores; `_a` is put between if it would be that of an element, or a
keyword. The name is one that can be read. -/
theorem attr_macros : ∀ p ∈ attrMacros, Xhtml.Spec.Name (ascii p.2)
    ∧ let n := p.2.toList.map fun c => if c = '-' then '_' else c
      p.1.toList = n ++ ['_', '_'] ∨ p.1.toList = n ++ ['_', 'a', '_', '_'] := by
  unfold Xhtml.Spec.Name
  decide +kernel

/-- C81: no two macros have the same name. -/
theorem macros_distinct : ((tagMacros ++ attrMacros).map (·.1)).Nodup := by decide +kernel

/-- Finding: there is a macro for an attribute `datatime`, which HTML does not have, and none for `datetime`; and the names of events have capital letters, which
XHTML does not allow. -/
theorem macro_names : ("datatime__", "datatime") ∈ attrMacros ∧ "datetime" ∉ attrMacros.map (·.2) ∧ ("onClick__", "onClick") ∈ attrMacros := by decide +kernel

/-! ### Cases that meet the hypotheses -/

/-- `ul__ { id__="l"; for (…) { li__ text__("<1>"); li__ { class__="x"; break; text__("2"); } } id__="m"; }` -/
def sample : List Stmt :=
  [.xmltag [], .dtd [], .tag (ascii "ul") [.attr (ascii "id") (some (ascii "l")),
    .guard .brk [.tag (ascii "li") [.text (ascii "<1>")], .tag (ascii "li") [.attr (ascii "class") (some (ascii "x")), .leave .brk, .text (ascii "2")]] [],
    .attr (ascii "id") (some (ascii "m"))]]

example : CompilesAll false sample := by simp [sample, CompilesAll, Compiles]

example : PlainAll sample := by
  have h : Xhtml.Spec.Name (ascii "ul") ∧ Xhtml.Spec.Name (ascii "id") ∧ Xhtml.Spec.Name (ascii "li") ∧ Xhtml.Spec.Name (ascii "class") := by
    unfold Xhtml.Spec.Name; decide +kernel
  simp [sample, PlainAll, Plain, h]

example : (run true sample {} []).2 = .done [(ascii "Content-Type", ascii "text/html; charset=utf-8")]
    (ascii "<ul id=\"m\"\n ><li\n   >&lt;1&gt;</li\n   ><li class=\"x\"\n    /></ul\n >\n") := by decide +kernel

/-- A script that shows what it was sent, in an attribute and as text, as `page_served_partial` asks for. -/
def echo (t : Nat) (v : CgiServer.View) : Nat × List Stmt := (t + 1, [.tag (ascii "p") [.attr (ascii "title") (some v.method), .text v.method]])

example (t : Nat) (v : CgiServer.View) : CompilesAll false (echo t v).2 ∧ PlainAll (echo t v).2 := by
  have h : Xhtml.Spec.Name (ascii "p") ∧ Xhtml.Spec.Name (ascii "title") := by unfold Xhtml.Spec.Name; decide +kernel
  simp [echo, CompilesAll, Compiles, PlainAll, Plain, h]

example (t : Nat) (v : CgiServer.View) (es done l) (hd : Draws (echo t v).2 es done l) : l ≠ some .exc ∧ ∀ n x, Effect.field n x ∉ done := by
  cases hd with
  | tag h1 _ h2 =>
    cases h2
    cases h1 with
    | attr h1 => cases h1 with
      | text h1 => cases h1; exact ⟨by simp, by simp [Effect.outside]⟩
  | tagLeft h1 _ =>
    cases h1 with
    | attr h1 => cases h1 with
      | text h1 => cases h1

/-- An exception, after a request that left the builder in a strange state; nothing is put out. -/
example : (run true [.tag (ascii "p") [.text [97], .leave .exc]] { builder := [], dtd := [98], xmltag := [] } []).2 = .thrown := by decide +kernel

/-- An exception that is caught within a tag. -/
example : (run true [.xmltag [], .dtd [], .tag (ascii "p") [.guard .exc [.tag (ascii "b") [.text [97], .leave .exc]] [.text [98]]]] {} []).2
    = .done [(ascii "Content-Type", ascii "text/html; charset=utf-8")] (ascii "<p\n ><b\n   >a</b\n   >b</p\n >\n") := by decide +kernel

example : AreAttrs [(ascii "a", ascii "2"), (ascii "b", [])] [.attr (ascii "b") none, .attr (ascii "a") (some (ascii "1")), .attr (ascii "a") (some (ascii "2"))] :=
  areAttrs_foldl [.attr (ascii "b") none, .attr (ascii "a") (some (ascii "1")), .attr (ascii "a") (some (ascii "2"))] [] [] areAttrs_nil

end Verif.Page.Props
