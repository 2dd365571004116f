/-!
# `aho_corasick`

The double array is a list of nodes; reading or writing outside of it gives `none`, as does a loop that does not end within its fuel. Positions,
sizes and numbers of words are natural numbers: `int` does not overflow as long as there are fewer than 2^31 of them.
-/
namespace Verif.AhoCorasick

abbrev Str := List UInt8

/-- `node`, `/repo/src/data/string/aho_corasick.h:52-59`. `none` stands for -1 in `check` and `fail`. -/
structure Node where
  base : Nat := 0
  check : Option Nat := none
  fail : Option Nat := none
  output : Int := -1
deriving DecidableEq

/-- An access to `nodes[i]` that changes it, as at `/repo/src/data/string/aho_corasick.cpp:80`. -/
def upd (nodes : List Node) (i : Nat) (f : Node → Node) : Option (List Node) :=
  if i < nodes.length then some (nodes.modify i f) else none

/-- `vector::resize`, as at `/repo/src/data/string/aho_corasick.cpp:67,106`. -/
def resize (nodes : List Node) (n : Nat) : List Node := nodes.take n ++ List.replicate (n - nodes.length) ({ } : Node)

/-- Comparison of strings, as in the `sort` at `/repo/src/data/string/aho_corasick.cpp:49`: characters are compared as `unsigned char`. -/
def leStr : Str → Str → Bool
  | [], _ => true
  | _ :: _, [] => false
  | a :: as, b :: bs => a < b || (a == b && leStr as bs)

/-- Comparison of pairs, as in the `sort` at `/repo/src/data/string/aho_corasick.cpp:49`. -/
def lePair (x y : Str × Nat) : Bool := if x.1 = y.1 then x.2 ≤ y.2 else leStr x.1 y.1

/-- The sorted words with their indices, `/repo/src/data/string/aho_corasick.cpp:46-49`. -/
def ixwords (words : List Str) : List (Str × Nat) := words.zipIdx.mergeSort lePair

/-! ### The trie -/

/-- An entry of the stack, `/repo/src/data/string/aho_corasick.cpp:64-65`: a node, its depth, and the words below it. -/
structure Entry where
  pos : Nat
  dep : Nat
  ix : Nat
  n : Nat
deriving DecidableEq

/-- The next character of a word, `/repo/src/data/string/aho_corasick.cpp:83`. -/
def key (dep : Nat) (w : Str) : Nat :=
  match w[dep]? with
  | some c => c.toNat
  | none => 0

/-- `tbl` and `children`, `/repo/src/data/string/aho_corasick.cpp:82-86`. -/
def tally (dep : Nat) : List (Str × Nat) → (Nat → Nat) → List Nat → (Nat → Nat) × List Nat
  | [], tbl, children => (tbl, children)
  | w :: ws, tbl, children =>
    let c := key dep w.1
    tally dep ws (fun x => if x = c then tbl x + 1 else tbl x) (if tbl c = 0 then children ++ [c] else children)

/-- Whether all children find a place, `/repo/src/data/string/aho_corasick.cpp:90-97`. -/
def free (nodes : List Node) (base : Nat) : List Nat → Option Bool
  | [] => some true
  | i :: cs =>
    match nodes[base + i]? with
    | none => none
    | some x => if x.check.isSome then some false else free nodes base cs

/-- The search for `base`, `/repo/src/data/string/aho_corasick.cpp:89-99`. -/
def findBase (nodes : List Node) (cs : List Nat) : Nat → Nat → Option Nat
  | 0, _ => none
  | fuel + 1, base =>
    match free nodes base cs with
    | none => none
    | some true => some base
    | some false => findBase nodes cs fuel (base + 1)

/-- The children are placed and put onto the stack, `/repo/src/data/string/aho_corasick.cpp:102-111`. -/
def place (pos base dep ix : Nat) (tbl : Nat → Nat) : List Nat → Nat → List Node → List Entry → Option (List Node × List Entry)
  | [], _, nodes, ss => some (nodes, ss)
  | i :: cs, cur, nodes, ss =>
    if 0 < i ∧ 0 < tbl i then
      let nix := base + i
      let nodes := if nodes.length ≤ nix + 256 then resize nodes (nix + 256) else nodes
      match upd nodes nix fun x => { x with check := some pos } with
      | none => none
      | some nodes => place pos base dep ix tbl cs (cur + tbl i) nodes (⟨nix, dep + 1, ix + cur, tbl i⟩ :: ss)
    else place pos base dep ix tbl cs (cur + tbl i) nodes ss

/-- One round of the loop, `/repo/src/data/string/aho_corasick.cpp:70-113`. -/
def visit (words : List (Str × Nat)) (nodes : List Node) (bef : Nat) (e : Entry) (ss : List Entry) : Option (List Node × Nat × List Entry) := do
  let w ← words[e.ix]?
  let nodes ← (if w.1.length = e.dep then upd nodes e.pos fun x => { x with output := w.2 } else some nodes)
  if words.length < e.ix + e.n then none
  else
    let t := tally e.dep ((words.drop e.ix).take e.n) (fun _ => 0) []
    let base ← findBase nodes (if t.2.head? = some 0 then t.2.tail else t.2) (nodes.length + 1) (max 1 (bef - 32))
    let nodes ← upd nodes e.pos fun x => { x with base := base }
    let r ← place e.pos base e.dep e.ix t.1 t.2 0 nodes ss
    some (r.1, base, r.2)

/-- The loop, `/repo/src/data/string/aho_corasick.cpp:69-114`. -/
def build (words : List (Str × Nat)) : Nat → List Node → Nat → List Entry → Option (List Node)
  | _, nodes, _, [] => some nodes
  | 0, _, _, _ :: _ => none
  | fuel + 1, nodes, bef, e :: ss =>
    match visit words nodes bef e ss with
    | none => none
    | some (nodes, bef, ss) => build words fuel nodes bef ss

/-! ### The links -/

/-- The loop for `m`, `/repo/src/data/string/aho_corasick.cpp:130`. -/
def climb (nodes : List Node) (i : Nat) : Nat → Option Nat → Option (Option Nat)
  | _, none => some none
  | 0, some _ => none
  | fuel + 1, some m => do
    let x ← nodes[m]?
    let y ← nodes[x.base + i]?
    if y.check = some m then some (some m) else climb nodes i fuel x.fail

/-- Where the link goes, `/repo/src/data/string/aho_corasick.cpp:131-132`. -/
def target (nodes : List Node) (i : Nat) : Option Nat → Option Nat
  | some m => nodes[m]?.map fun x => x.base + i
  | none => some 0

/-- One character of the loop over the children, `/repo/src/data/string/aho_corasick.cpp:126-133`. The queue `q` is a vector as large as
`nodes`, of which the first `qt` elements are used. -/
def linkOne (nodes : List Node) (q : List Nat) (pos i : Nat) : Option (List Node × List Nat) := do
  let x ← nodes[pos]?
  let y ← nodes[x.base + i]?
  if y.check ≠ some pos then some (nodes, q)
  else
    let m ← climb nodes i (nodes.length + 1) x.fail
    let t ← target nodes i m
    let nodes ← upd nodes (x.base + i) fun y => { y with fail := some t }
    if q.length < nodes.length then some (nodes, q ++ [x.base + i]) else none

/-- The loop over the children, `/repo/src/data/string/aho_corasick.cpp:125-134`. -/
def linkAll (pos : Nat) : List Nat → List Node → List Nat → Option (List Node × List Nat)
  | [], nodes, q => some (nodes, q)
  | i :: is, nodes, q =>
    match linkOne nodes q pos i with
    | none => none
    | some (nodes, q) => linkAll pos is nodes q

/-- `/repo/src/data/string/aho_corasick.cpp:122-123`. -/
def mark (nodes : List Node) (pos : Nat) : Option (List Node) :=
  if 0 < pos then do
    let x ← nodes[pos]?
    let f ← x.fail
    let y ← nodes[f]?
    if y.output ≠ -1 ∧ x.output = -1 then upd nodes pos fun x => { x with output := -2 } else some nodes
  else some nodes

/-- The loop over the queue, `/repo/src/data/string/aho_corasick.cpp:120-135`. -/
def links : Nat → List Node → List Nat → Nat → Option (List Node)
  | 0, _, _, _ => none
  | fuel + 1, nodes, q, qh =>
    match q[qh]? with
    | none => some nodes
    | some pos =>
      match mark nodes pos with
      | none => none
      | some nodes =>
        match linkAll pos (List.range 256) nodes q with
        | none => none
        | some (nodes, q) => links fuel nodes q (qh + 1)

/-- `construct`, `/repo/src/data/string/aho_corasick.cpp:53-137`. -/
def construct (words : List (Str × Nat)) : Option (List Node) :=
  if words = [] then some []
  else
    match build words ((words.map fun w => w.1.length + 1).sum + 1) (resize [] 257) 1 [⟨0, 0, 0, words.length⟩] with
    | none => none
    | some nodes => links (nodes.length + 1) nodes [0] 0

/-- The constructor, `/repo/src/data/string/aho_corasick.cpp:44-51`. -/
def new (words : List Str) : Option (List Node) := construct (ixwords words)

/-! ### Searching -/

/-- `/repo/src/data/string/aho_corasick.cpp:146`. -/
def follow (nodes : List Node) (c : Nat) : Nat → Nat → Option Nat
  | 0, _ => none
  | fuel + 1, pos =>
    if 0 < pos then do
      let x ← nodes[pos]?
      let y ← nodes[x.base + c]?
      if y.check ≠ some pos then
        let f ← x.fail
        follow nodes c fuel f
      else some pos
    else some pos

/-- `/repo/src/data/string/aho_corasick.cpp:151-157`. -/
def emit (nodes : List Node) (e : Nat) : Nat → Nat → Option (List (Int × Nat))
  | 0, _ => none
  | fuel + 1, cur =>
    if cur = 0 then some []
    else do
      let x ← nodes[cur]?
      let f ← x.fail
      let r ← emit nodes e fuel f
      some (if 0 ≤ x.output then (x.output, e) :: r else r)

/-- The loop over the text, `/repo/src/data/string/aho_corasick.cpp:144-159`, from character `i` on. -/
def scan (nodes : List Node) : Str → Nat → Nat → Option (List (Int × Nat))
  | [], _, _ => some []
  | c :: s, i, pos => do
    let pos ← follow nodes c.toNat (nodes.length + 1) pos
    let x ← nodes[pos]?
    let y ← nodes[x.base + c.toNat]?
    if y.check ≠ some pos then scan nodes s (i + 1) pos
    else
      let pos := x.base + c.toNat
      let r ← (if y.output ≠ -1 then emit nodes (i + 1) (nodes.length + 1) pos else some [])
      let r' ← scan nodes s (i + 1) pos
      some (r ++ r')

/-- `search`, `/repo/src/data/string/aho_corasick.cpp:139-160`: what is appended to `res`. -/
def search (nodes : List Node) (s : Str) : Option (List (Int × Nat)) :=
  if nodes = [] then some [] else scan nodes s 0 0

end Verif.AhoCorasick
