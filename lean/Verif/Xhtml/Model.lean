/-!
# Model of the XHTML writer

Source: `/repo/src/text/xhtml.h`, `/repo/src/text/xhtml.cpp`.
-/
namespace Verif.Xhtml

/-- One character of `html_encode` (`/repo/src/text/xhtml.cpp:45-56`). -/
def encodeChar (c : UInt8) : List UInt8 :=
  if c = 38 then [38, 97, 109, 112, 59]               -- &amp;
  else if c = 34 then [38, 113, 117, 111, 116, 59]    -- &quot;
  else if c = 39 then [38, 35, 48, 51, 57, 59]        -- &#039;
  else if c = 60 then [38, 108, 116, 59]              -- &lt;
  else if c = 62 then [38, 103, 116, 59]              -- &gt;
  else [c]

/-- `html_encode` (`/repo/src/text/xhtml.cpp:41-59`). -/
def encode (s : List UInt8) : List UInt8 := s.flatMap encodeChar

/-- `html_elem` and its derived classes (`/repo/src/text/xhtml.h:48-107`). The
attributes are in the order of the map. -/
inductive Elem
  | tag (name : List UInt8) (attr : List (List UInt8 × List UInt8)) (children : List Elem)
  | text (s : List UInt8)
  | prim (s : List UInt8)

/-- The attributes as written (`/repo/src/text/xhtml.cpp:64-70`, `:86-92`). -/
def renderAttr (attr : List (List UInt8 × List UInt8)) : List UInt8 :=
  attr.flatMap fun p =>
    if p.2 ≠ [] then 32 :: encode p.1 ++ [61, 34] ++ encode p.2 ++ [34]
    else 32 :: encode p.1

mutual
/-- `render` (`/repo/src/text/xhtml.cpp:61-81`, `:112-115`, `:117-120`). -/
def render : Elem → List UInt8
  | .tag name attr children =>
    60 :: encode name ++ renderAttr attr ++
      (match children with
       | [] => [32, 47, 62]
       | _ :: _ => 62 :: renderAll children ++ [60, 47] ++ encode name ++ [62])
  | .text s => encode s
  | .prim s => s

/-- The loop over the children (`/repo/src/text/xhtml.cpp:77-78`). -/
def renderAll : List Elem → List UInt8
  | [] => []
  | e :: es => render e ++ renderAll es
end

/-- `os<<endl; for (…; i<indent*2+1; …) os<<' ';`
(`/repo/src/text/xhtml.cpp:94-96`, `:105-107`). -/
def newline (indent : Nat) : List UInt8 := 10 :: List.replicate (indent * 2 + 1) 32

mutual
/-- `pretty` (`/repo/src/text/xhtml.cpp:83-110`, `/repo/src/text/xhtml.h:53-55`). -/
def pretty (indent : Nat) : Elem → List UInt8
  | .tag name attr children =>
    60 :: encode name ++ renderAttr attr ++ newline indent ++
      (match children with
       | [] => [32, 47, 62]
       | _ :: _ => 62 :: prettyAll (indent + 1) children ++ [60, 47] ++ encode name ++ newline indent ++ [62])
  | .text s => encode s
  | .prim s => s

/-- The loop over the children (`/repo/src/text/xhtml.cpp:103-104`). -/
def prettyAll (indent : Nat) : List Elem → List UInt8
  | [] => []
  | e :: es => pretty indent e ++ prettyAll indent es
end

end Verif.Xhtml
