import Verif.Xhtml.Model
import Verif.CgiServer.Model
/-!
# Pages of nested tags

`/repo/src/network/cgi/xhtml_builder.{h,cpp}`, `inserter.{h,cpp}`, `xhtml_cgi.{h,cpp}`, the macros of `tags.h` and the error page of
`/repo/src/network/cgi/base.cpp:116-128`, on top of the model of the XHTML writer.

The program of the user, `xhtml_cgi::run()`, is a list of statements: what is left of its text when its conditions and loops are decided. It may leave a
block before its end, by `break`, by `return` or by an exception.

Pointers to elements are elements: none is changed after it has been given to the builder. Not modelled: `bad_alloc`, in a destructor above all.
-/
namespace Verif.Page
open Verif.Xhtml

abbrev Str := List UInt8

/-- `std::map<std::string, std::string>`, in its order. -/
abbrev Attrs := List (Str × Str)

/-- How control leaves a block before its end. -/
inductive Leave where
  | brk
  | ret
  | exc
  deriving DecidableEq, Repr

/-- The statements a page is made of. -/
inductive Stmt where
  /-- `tag__(name) { body }`, `/repo/src/network/cgi/tags.h:37-38`. -/
  | tag (name : Str) (body : List Stmt)
  /-- `attr__(name) = value`, or `attr__(name)` alone, `/repo/src/network/cgi/tags.h:40-41`. -/
  | attr (name : Str) (value : Option Str)
  /-- `text__(s)`, `/repo/src/network/cgi/tags.h:43-44`. -/
  | text (s : Str)
  /-- `prim__(s)`, `/repo/src/network/cgi/tags.h:46-47`. -/
  | prim (s : Str)
  /-- `xmltag = s`, a member of the base class, `/repo/src/network/cgi/xhtml_cgi.h:52`. -/
  | xmltag (s : Str)
  /-- `dtd = s`, `/repo/src/network/cgi/xhtml_cgi.h:53`. -/
  | dtd (s : Str)
  /-- `head[name] = value`, `/repo/src/network/cgi/base.h:83`. -/
  | field (name value : Str)
  /-- `break`, `return` or `throw`. -/
  | leave (how : Leave)
  /-- A loop, a function or a `try` block, which a `break`, a `return` or an exception does not get out of; `handler` is what is done then. -/
  | guard (how : Leave) (body handler : List Stmt)

/-- What the statements work on: the stack of the builder, its back first (`/repo/src/network/cgi/xhtml_builder.h:54`), the attributes of the
`tag_inserter`s that are alive, the innermost first (`/repo/src/network/cgi/inserter.h:59`), and the members `xmltag`, `dtd` and `head`. -/
structure St where
  stk : List (List Elem)
  tags : List Attrs := []
  xmltag : Str
  dtd : Str
  head : Http.Header

/-- `xhtml_builder::push`, `/repo/src/network/cgi/xhtml_builder.cpp:45-48`. `none`: `back()` of an empty vector, which is undefined. -/
def push (e : Elem) : List (List Elem) → Option (List (List Elem))
  | [] => none
  | v :: stk => some ((v ++ [e]) :: stk)

/-- `xhtml_builder::enter`, `/repo/src/network/cgi/xhtml_builder.cpp:50-53`. -/
def enter (stk : List (List Elem)) : List (List Elem) := [] :: stk

/-- `xhtml_builder::leave`, `/repo/src/network/cgi/xhtml_builder.cpp:55-60`. -/
def leave : List (List Elem) → Option (List Elem × List (List Elem))
  | [] => none
  | v :: stk => some (v, stk)

/-- `attrs[name]`, then its value is assigned or stays, `/repo/src/network/cgi/inserter.h:49-51`. -/
def assign (n : Str) (v : Option Str) : Attrs → Attrs
  | [] => [(n, v.getD [])]
  | (m, w) :: l =>
    if n < m then (n, v.getD []) :: (m, w) :: l
    else if n = m then (m, v.getD w) :: l
    else (m, w) :: assign n v l

/-- `~tag_inserter`, `/repo/src/network/cgi/inserter.cpp:51-58`. -/
def destroy (name : Str) (attrs : Attrs) (stk : List (List Elem)) : Option (List (List Elem)) := do
  let (children, stk) ← leave stk
  push (.tag name attrs children) stk

/-- What a `tag_inserter` does to the stack when it is made, `/repo/src/network/cgi/inserter.cpp:44-49` and `/repo/src/network/cgi/tags.h:38`:
`tag_inserter __TAG__=tag_inserter(name, builder)`. If the compiler does not leave out the copy, the temporary is destroyed at once. -/
def construct (elide : Bool) (name : Str) (stk : List (List Elem)) : Option (List (List Elem)) :=
  if elide then some (enter stk) else destroy name [] (enter stk)

mutual
/-- A statement, and how it leaves the block around it if it does. `none`: undefined behaviour (or, for an attribute outside of all tags, a program
that does not compile). `bool_test` is false, so it is the `else` of `tag__` that is executed (`/repo/src/network/cgi/inserter.h:53`); `__TAG__` is destroyed
however the block is left. -/
def exec (elide : Bool) : Stmt → St → Option (St × Option Leave)
  | .tag name body, s => do
    let stk ← construct elide name s.stk
    let (s, l) ← execAll elide body { s with stk := stk, tags := [] :: s.tags }
    match s.tags with
    | [] => none
    | attrs :: tags =>
      let stk ← destroy name attrs s.stk
      some ({ s with stk := stk, tags := tags }, l)
  | .attr n v, s =>
    match s.tags with
    | [] => none
    | attrs :: tags => some ({ s with tags := assign n v attrs :: tags }, none)
  -- `/repo/src/network/cgi/inserter.cpp:60-63`
  | .text t, s => do
    let stk ← push (.text t) s.stk
    some ({ s with stk := stk }, none)
  -- `/repo/src/network/cgi/inserter.cpp:65-68`
  | .prim t, s => do
    let stk ← push (.prim t) s.stk
    some ({ s with stk := stk }, none)
  | .xmltag t, s => some ({ s with xmltag := t }, none)
  | .dtd t, s => some ({ s with dtd := t }, none)
  | .field n v, s => some ({ s with head := Http.set n v s.head }, none)
  | .leave l, s => some (s, some l)
  | .guard how body handler, s => do
    let (s, l) ← execAll elide body s
    if l = some how then execAll elide handler s else some (s, l)

/-- A sequence of statements. -/
def execAll (elide : Bool) : List Stmt → St → Option (St × Option Leave)
  | [], s => some (s, none)
  | c :: cs, s => do
    let (s, l) ← exec elide c s
    match l with
    | some l => some (s, some l)
    | none => execAll elide cs s
end

/-! ### A program -/

/-- The members of an `xhtml_cgi` that stay from one request to the next, `/repo/src/network/cgi/xhtml_cgi.h:52-54`. -/
structure Obj where
  xmltag : Str := []
  dtd : Str := []
  builder : List (List Elem) := [[]]

/-- How a call ends. -/
inductive Outcome where
  | undefined
  | thrown
  | done (head : Http.Header) (text : Str)
  deriving DecidableEq

/-- `/repo/src/network/cgi/xhtml_cgi.cpp:44-46`. -/
def defaultDtd : Str := CgiServer.ascii
  "<!DOCTYPE html PUBLIC \"-//W3C//DTD XHTML 1.0 Transitional//EN\" \"http://www.w3.org/TR/xhtml1/DTD/xhtml1-transitional.dtd\">"

/-- `/repo/src/network/cgi/xhtml_cgi.cpp:48-49`. -/
def defaultXmltag : Str := CgiServer.ascii "<?xml version=\"1.0\" encoding=\"utf-8\"?>"

/-- What is written when the program has returned, `/repo/src/network/cgi/xhtml_cgi.cpp:55-62`. -/
def write (xmltag dtd : Str) (rs : List Elem) : Str :=
  (if xmltag ≠ [] then xmltag ++ [10] else []) ++ (if dtd ≠ [] then dtd ++ [10] else []) ++ rs.flatMap (pretty 0) ++ [10]

/-- The header that the statements find, `/repo/src/network/cgi/xhtml_cgi.cpp:42`. -/
def htmlHead (head : Http.Header) : Http.Header :=
  Http.set (CgiServer.ascii "Content-Type") (CgiServer.ascii "text/html; charset=utf-8") head

/-- `xhtml_cgi::run(out)`, `/repo/src/network/cgi/xhtml_cgi.cpp:40-63`, for the program `cs`. `head` is what it finds in `head`. -/
def run (elide : Bool) (cs : List Stmt) (o : Obj) (head : Http.Header) : Obj × Outcome :=
  let o := { o with dtd := defaultDtd }
  let o := { o with xmltag := defaultXmltag }
  let o := { o with builder := [[]] }
  match execAll elide cs { stk := o.builder, xmltag := o.xmltag, dtd := o.dtd,
                           head := htmlHead head } with
  | none => (o, .undefined)
  | some (s, l) =>
    let o : Obj := { xmltag := s.xmltag, dtd := s.dtd, builder := s.stk }
    if l = some .exc then (o, .thrown)
    else
      match s.stk with
      | [] => (o, .undefined)
      | rs :: _ => (o, .done s.head (write s.xmltag s.dtd rs))

/-- An `xhtml_cgi` as a program for the web server: `script` gives its statements, from what it remembers and what it finds. The outcome `undefined`
is taken for an exception here; the theorems show that there is none. -/
def program {τ : Type} (elide : Bool) (script : τ → CgiServer.View → τ × List Stmt) (page : Cgi.Msg → Str) (max : Nat) :
    CgiServer.Program (τ × Obj) where
  run st v h :=
    let r := run elide (script st.1 v).2 st.2 h
    (((script st.1 v).1, r.1), match r.2 with | .done h t => some (h, t) | _ => none)
  page := page
  maxLength := max

/-! ### The error page -/

/-- The statements of the error page, `/repo/src/network/cgi/base.cpp:119-124`. -/
def errorScript (msg : Str) : List Stmt :=
  [.tag (CgiServer.ascii "body") [
    .tag (CgiServer.ascii "head") [.tag (CgiServer.ascii "title") [.text (CgiServer.ascii "Internal Server Error")]],
    .tag (CgiServer.ascii "body") [.text msg]]]

/-- The text of the error page, `/repo/src/network/cgi/base.cpp:118-127`; `none` for undefined behaviour. -/
def errorPage (elide : Bool) (msg : Str) : Option Str :=
  match execAll elide (errorScript msg) { stk := [[]], xmltag := [], dtd := [], head := [] } with
  | some ({ stk := rs :: _, .. }, _) => some (rs.flatMap (pretty 0))
  | _ => none

end Verif.Page
