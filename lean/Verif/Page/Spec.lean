import Verif.Page.Model
import Verif.Xhtml.Spec
import Verif.Cgi.Spec
/-!
# Specification: the page that a program describes

A program describes a list of trees, block by block; there is no stack.
-/
namespace Verif.Page.Spec
open Verif Verif.Xhtml Verif.Page

/-- What a statement does besides adding to the page. -/
inductive Effect where
  | attr (name : Str) (value : Option Str)
  | xmltag (s : Str)
  | dtd (s : Str)
  | field (name value : Str)

/-- Attributes belong to the tag whose block they are in; everything else is for the whole page. -/
def Effect.outside : Effect → Bool
  | .attr _ _ => false
  | _ => true

/-- The values that an attribute is given, in order. -/
def given (n : Str) (es : List Effect) : List Str := es.filterMap fun e => match e with | .attr m v => if m = n then v else none | _ => none

/-- The value that an attribute has after some assignments: the last one it was given, or the empty string if it was only mentioned; `none` if it was not
even mentioned. -/
def valueOf (n : Str) (es : List Effect) : Option Str :=
  if es.any (fun e => match e with | .attr m _ => m = n | _ => false) then some ((given n es).getLast?.getD []) else none

/-- The attributes of a tag: each once, in the order of their names, with its value. -/
structure AreAttrs (l : Attrs) (es : List Effect) : Prop where
  sorted : l.Pairwise fun p q => p.1 < q.1
  values : ∀ n v, (n, v) ∈ l ↔ valueOf n es = some v

/-- `Draws cs es done l`: the statements `cs` add the elements `es` to the block they are in, with the effects `done`, and if `l` is given they leave the block
that way. A tag contains what its block adds, be it left early or not. -/
inductive Draws : List Stmt → List Elem → List Effect → Option Leave → Prop where
  | nil : Draws [] [] [] none
  | tag {n body cs children es inner done l attrs} : Draws body children inner none → AreAttrs attrs inner → Draws cs es done l →
      Draws (.tag n body :: cs) (.tag n attrs children :: es) (inner.filter Effect.outside ++ done) l
  | tagLeft {n body cs children inner how attrs} : Draws body children inner (some how) → AreAttrs attrs inner →
      Draws (.tag n body :: cs) [.tag n attrs children] (inner.filter Effect.outside) (some how)
  | text {s cs es done l} : Draws cs es done l → Draws (.text s :: cs) (.text s :: es) done l
  | prim {s cs es done l} : Draws cs es done l → Draws (.prim s :: cs) (.prim s :: es) done l
  | attr {n v cs es done l} : Draws cs es done l → Draws (.attr n v :: cs) es (.attr n v :: done) l
  | xmltag {s cs es done l} : Draws cs es done l → Draws (.xmltag s :: cs) es (.xmltag s :: done) l
  | dtd {s cs es done l} : Draws cs es done l → Draws (.dtd s :: cs) es (.dtd s :: done) l
  | field {n v cs es done l} : Draws cs es done l → Draws (.field n v :: cs) es (.field n v :: done) l
  | leave {how cs} : Draws (.leave how :: cs) [] [] (some how)
  | guard {how body handler cs es1 es2 d1 d2 l} : Draws body es1 d1 none → Draws cs es2 d2 l →
      Draws (.guard how body handler :: cs) (es1 ++ es2) (d1 ++ d2) l
  | guardPass {how other body handler cs es d} : Draws body es d (some other) → other ≠ how →
      Draws (.guard how body handler :: cs) es d (some other)
  | guardStop {how body handler cs es1 es2 es3 d1 d2 d3 l} : Draws body es1 d1 (some how) → Draws handler es2 d2 none → Draws cs es3 d3 l →
      Draws (.guard how body handler :: cs) (es1 ++ es2 ++ es3) (d1 ++ d2 ++ d3) l
  | guardAgain {how other body handler cs es1 es2 d1 d2} : Draws body es1 d1 (some how) → Draws handler es2 d2 (some other) →
      Draws (.guard how body handler :: cs) (es1 ++ es2) (d1 ++ d2) (some other)

mutual
/-- What the compiler asks for: `attr__` is within a tag of the same function. -/
def Compiles (inTag : Bool) : Stmt → Prop
  | .tag _ body => CompilesAll true body
  | .attr _ _ => inTag = true
  | .guard how body handler => CompilesAll (inTag && how ≠ .ret) body ∧ CompilesAll inTag handler
  | _ => True
def CompilesAll (inTag : Bool) : List Stmt → Prop
  | [] => True
  | c :: cs => Compiles inTag c ∧ CompilesAll inTag cs
end

mutual
/-- No raw text, and the names are names. -/
def Plain : Stmt → Prop
  | .tag n body => Xhtml.Spec.Name n ∧ PlainAll body
  | .attr n _ => Xhtml.Spec.Name n
  | .prim _ => False
  | .guard _ body handler => PlainAll body ∧ PlainAll handler
  | _ => True
def PlainAll : List Stmt → Prop
  | [] => True
  | c :: cs => Plain c ∧ PlainAll cs
end

/-- The last XML declaration that was chosen. -/
def xmltagOf (done : List Effect) : Str := ((done.filterMap fun e => match e with | .xmltag s => some s | _ => none).getLast?).getD defaultXmltag

/-- The last document type that was chosen. -/
def dtdOf (done : List Effect) : Str := ((done.filterMap fun e => match e with | .dtd s => some s | _ => none).getLast?).getD defaultDtd

/-- The last value a header field was given, whatever the case of its name. -/
def fieldGiven (n : Str) (done : List Effect) : Option Str :=
  (done.filterMap fun e => match e with | .field m v => if Http.Spec.fold m = Http.Spec.fold n then some v else none | _ => none).getLast?

/-- The header field of a page: the last value the program gave it; else HTML is the type, and the other fields are those there were. -/
def fieldOfPage (head : Http.Header) (done : List Effect) (n : Str) : Option Str :=
  (fieldGiven n done).or
    (if Http.Spec.fold n = Http.Spec.fold (CgiServer.ascii "Content-Type") then some (CgiServer.ascii "text/html; charset=utf-8")
     else Cgi.Spec.fieldOf head n)

/-- A line of its own, unless it is empty. -/
def line (s : Str) : Str := if s = [] then [] else s ++ [10]

/-- `text` is the page `es`: the declarations, and then a document in which a reader sees the elements, one after the other, and a line end. -/
structure IsPage (text : Str) (es : List Elem) (done : List Effect) : Prop where
  reads : ∃ doc, text = line (xmltagOf done) ++ line (dtdOf done) ++ doc ∧ Xhtml.Spec.read doc = some (Xhtml.Spec.eventsAll es ++ [.char 10])
  nested : Xhtml.Spec.nested [] (Xhtml.Spec.eventsAll es) = true

end Verif.Page.Spec
