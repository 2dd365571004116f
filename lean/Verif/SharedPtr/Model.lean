/-
Model of the smart pointers: /repo/src/lang/shared_ptr.h, weak_ptr.h and
enable_shared_from_this.h.

They derive from the standard library's `shared_ptr`, `weak_ptr` and
`enable_shared_from_this`; what the standard prescribes for these (a control
block for every raw pointer that is taken over, with a count of the shared
handles and a count of the weak ones) is modelled too, as the counters that
every implementation keeps.  Every step on a counter is atomic; threads
interleave between the steps.

Simplifications: addresses are never used again; memory does not run out, so
that a constructor throws `bad_weak_ptr` only; a destructor does nothing but
destroy the members (what a destructor's body does can be interleaved as the
operations of a thread); destroying a long chain needs no stack.
Two threads that use the same handle at the same time, one of them writing, are
a data race in C++; the model serialises them.
-/
namespace Verif.SharedPtr

/-- The three sorts of handles: `shared_ptr`, `weak_ptr`, and the weak pointer
that `enable_shared_from_this` keeps inside the object.
/repo/src/lang/shared_ptr.h:62-64, /repo/src/lang/weak_ptr.h:43-45,
/repo/src/lang/enable_shared_from_this.h:41-43. -/
inductive Kind
  | strong | weak | self
  deriving DecidableEq, Repr

/-- A handle: a variable (`home = none`) or a member of an object; `ref` is its
control block.  /repo/src/lang/shared_ptr.h:63-64. -/
structure Slot where
  home : Option Nat
  kind : Kind
  ref : Option Nat
  live : Bool
  deriving DecidableEq, Repr

/-- An object: its class, and the handle inside it by which it knows its control
block, if its class derives from `enable_shared_from_this`.
/repo/src/lang/enable_shared_from_this.h:42. -/
structure Obj where
  typ : Nat
  alive : Bool
  self : Option Nat
  deriving DecidableEq, Repr

/-- A control block: the pointer taken over (it can be null), the counts, and the
deleter.  /repo/src/lang/shared_ptr.h:82-86. -/
structure Block where
  obj : Option Nat
  strong : Nat
  weak : Nat
  del : Option Nat
  freed : Bool
  deriving DecidableEq, Repr

/-- The memory; `log` has the objects destroyed so far, with the deleter that was
called.  /repo/src/lang/shared_ptr.h:82-86. -/
structure St where
  objs : List Obj
  blocks : List Block
  slots : List Slot
  log : List (Nat × Option Nat)
  deriving DecidableEq, Repr

/-- What a thread has still to do: destroy a member, or give back a count.
/repo/src/lang/shared_ptr.h:63 (the destructor of the base). -/
inductive Item
  | drop (i : Nat)
  | rel (strong : Bool) (b : Nat)
  deriving DecidableEq, Repr

/-- What an operation on the pointers comes to.  `throws` is
`pfi::lang::bad_weak_ptr` (/repo/src/lang/shared_ptr.h:49-54); `ub` is a use
of what is not there. -/
inductive Res
  | ok (s : St) (todo : List Item)
  | throws
  | ub
  deriving DecidableEq, Repr

/-- Whether an object lives. -/
def St.aliveAt (s : St) (p : Nat) : Bool :=
  match s.objs[p]? with
  | some o => o.alive
  | none => false

/-- A place for a handle: a variable, or a member of an object that lives. -/
def St.place (s : St) : Option Nat → Bool
  | none => true
  | some p => s.aliveAt p

/-- The handle `i`, if it can be used: it lives, and so does the object it is in. -/
def St.handle (s : St) (i : Nat) : Option Slot :=
  match s.slots[i]? with
  | some sl => if sl.live && s.place sl.home then some sl else none
  | none => none

/-- `use_count` of a block. -/
def St.count (s : St) (b : Nat) : Nat :=
  match s.blocks[b]? with
  | some k => k.strong
  | none => 0

/-- Another handle for the block, as the copy constructors of the bases have it.
/repo/src/lang/shared_ptr.h:88-89, /repo/src/lang/weak_ptr.h:50-54. -/
def acquire (blocks : List Block) (kind : Kind) : Option Nat → List Block
  | none => blocks
  | some b => blocks.modify b fun k =>
      if kind = .strong then { k with strong := k.strong + 1 } else { k with weak := k.weak + 1 }

/-- Makes a handle.  Its number is the number of handles so far. -/
def mk (s : St) (home : Option Nat) (kind : Kind) (ref : Option Nat) : St :=
  { s with blocks := acquire s.blocks kind ref, slots := s.slots ++ [⟨home, kind, ref, true⟩] }

/-- What a handle that gives up its block has to give back. -/
def giveBack (kind : Kind) : Option Nat → List Item
  | none => []
  | some b => [.rel (kind = .strong) b]

/-- The members of an object that are handles. -/
def members (s : St) (p : Nat) : List Nat :=
  (List.range s.slots.length).filter fun i =>
    match s.slots[i]? with
    | some sl => sl.live && sl.home = some p
    | none => false

/-- An object is destroyed: its members are to be destroyed, the last one first. -/
def destroy (s : St) (p : Nat) (del : Option Nat) : Option (St × List Item) :=
  match s.objs[p]? with
  | none => none
  | some o =>
    if o.alive then
      some ({ s with objs := s.objs.set p { o with alive := false }, log := s.log ++ [(p, del)] },
        ((members s p).reverse.map Item.drop))
    else none

/-- One step of giving back.  The last shared handle destroys the object, and then
gives back the count that all the shared handles hold of the weak ones; the last
of these frees the block.  No result: the object or the handle was destroyed
before.  /repo/src/lang/shared_ptr.h:63, /repo/src/lang/weak_ptr.h:44 (the
destructors of the bases). -/
def exec (s : St) : Item → Option (St × List Item)
  | .drop i =>
    match s.slots[i]? with
    | none => none
    | some sl =>
      if sl.live then
        some ({ s with slots := s.slots.set i { sl with live := false } }, giveBack sl.kind sl.ref)
      else none
  | .rel true b =>
    match s.blocks[b]? with
    | none => none
    | some k =>
      if k.strong = 0 then none
      else
        let s := { s with blocks := s.blocks.set b { k with strong := k.strong - 1 } }
        if k.strong = 1 then
          match k.obj with
          | none => some (s, [.rel false b])
          | some p =>
            match destroy s p k.del with
            | none => none
            | some (s, todo) => some (s, todo ++ [.rel false b])
        else some (s, [])
  | .rel false b =>
    match s.blocks[b]? with
    | none => none
    | some k =>
      if k.weak = 0 then none
      else some ({ s with blocks := s.blocks.set b { k with weak := k.weak - 1, freed := k.weak = 1 } }, [])

/-- The operations.  `home` is where the new handle is to be.
/repo/src/lang/shared_ptr.h:79-127, /repo/src/lang/weak_ptr.h:47-70,
/repo/src/lang/enable_shared_from_this.h:45-68. -/
inductive Op
  | new (typ : Nat)
  | delete (p : Nat)
  | empty (home : Option Nat) (kind : Kind)
  | own (home : Option Nat) (p : Option Nat) (del : Option Nat)
  | copy (home : Option Nat) (i : Nat)
  | move (home : Option Nat) (i : Nat)
  | weaken (home : Option Nat) (i : Nat)
  | fromWeak (home : Option Nat) (i : Nat)
  | lock (home : Option Nat) (i : Nat)
  | staticCast (home : Option Nat) (i : Nat) (t : Nat)
  | dynamicCast (home : Option Nat) (i : Nat) (t : Nat)
  | assign (i j : Nat)
  | reset (i : Nat)
  | drop (i : Nat)
  | fromThis (home : Option Nat) (p : Nat)
  deriving DecidableEq, Repr

/-- The classes of the program: which derive from `enable_shared_from_this`, and
which are which. -/
structure Classes where
  shares : Nat → Bool
  isA : Nat → Nat → Bool

/-- `new T(...)`, user code: an object with no handles but the empty weak one of
`enable_shared_from_this`, which copies of an object do not get from it
(/repo/src/lang/enable_shared_from_this.h:46-51: the bases' constructors). -/
def newObj (c : Classes) (s : St) (typ : Nat) : St :=
  if c.shares typ then
    { s with
      objs := s.objs ++ [⟨typ, true, some s.slots.length⟩],
      slots := s.slots ++ [⟨some s.objs.length, .self, none, true⟩] }
  else { s with objs := s.objs ++ [⟨typ, true, none⟩] }

/-- Whether the block has no shared handles any more. -/
def St.expired (s : St) : Option Nat → Bool
  | none => true
  | some b => s.count b = 0

/-- The object is told its block, if it can take it and has none that is in use:
the bases' constructor does this when it takes over a pointer to a class that
derives from `enable_shared_from_this`.  The weak handle given up is given back.
/repo/src/lang/enable_shared_from_this.h:42-43. -/
def tell (s : St) (p b : Nat) : St × List Item :=
  match s.objs[p]? with
  | none => (s, [])
  | some o =>
    match o.self with
    | none => (s, [])
    | some i =>
      match s.slots[i]? with
      | none => (s, [])
      | some sl =>
        if s.expired sl.ref then
          ({ s with blocks := acquire s.blocks .self (some b), slots := s.slots.set i { sl with ref := some b } },
            giveBack .self sl.ref)
        else (s, [])

/-- `shared_ptr(U* p)` and `shared_ptr(U* p, Deleter d)`.
/repo/src/lang/shared_ptr.h:82-86. -/
def own (s : St) (home : Option Nat) (p : Option Nat) (del : Option Nat) : St × List Item :=
  let b := s.blocks.length
  let s := { s with
    blocks := s.blocks ++ [⟨p, 1, 1, del, false⟩],
    slots := s.slots ++ [⟨home, .strong, some b, true⟩] }
  match p with
  | none => (s, [])
  | some p => tell s p b

/-- The class of what a handle of the block points to; no class for null. -/
def St.typOf (s : St) (ref : Option Nat) : Option Nat :=
  ref.bind fun b => s.blocks[b]?.bind fun k => k.obj.bind fun p => s.objs[p]?.map Obj.typ

/-- Gives a handle another block: the new count is taken before the old one is
given back.  /repo/src/lang/shared_ptr.h:104-108, /repo/src/lang/weak_ptr.h:56-66. -/
def assign (s : St) (i : Nat) (sl : Slot) (ref : Option Nat) : Res :=
  .ok { s with blocks := acquire s.blocks sl.kind ref, slots := s.slots.set i { sl with ref := ref } }
    (giveBack sl.kind sl.ref)

/-- A shared handle from one that may be weak, if there are shared handles still.
The count is tested and raised in one step. -/
def upgrade (s : St) (home : Option Nat) (ref : Option Nat) : Option St :=
  if s.expired ref then none else some (mk s home .strong ref)

/-- One operation of the program. -/
def apply (c : Classes) (s : St) : Op → Res
  | .new t => .ok (newObj c s t) []
  | .delete p =>
    match destroy s p none with
    | some (s, todo) => .ok s todo
    | none => .ub
  -- shared_ptr.h:80, weak_ptr.h:48
  | .empty home kind =>
    if s.place home ∧ kind ≠ .self then .ok (mk s home kind none) [] else .ub
  -- shared_ptr.h:82-86
  | .own home p del =>
    if s.place home then
      match own s home p del with
      | (s, todo) => .ok s todo
    else .ub
  -- shared_ptr.h:88-89
  | .copy home i =>
    match s.handle i with
    | some ⟨_, .strong, ref, _⟩ => if s.place home then .ok (mk s home .strong ref) [] else .ub
    | _ => .ub
  -- shared_ptr.h:63, weak_ptr.h:44 (the move constructors that the compiler makes)
  | .move home i =>
    match s.handle i with
    | some sl =>
      if s.place home ∧ sl.kind ≠ .self then
        .ok { s with slots := s.slots.set i { sl with ref := none } ++ [⟨home, sl.kind, sl.ref, true⟩] } []
      else .ub
    | none => .ub
  -- weak_ptr.h:50-54
  | .weaken home i =>
    match s.handle i with
    | some sl => if s.place home ∧ sl.kind ≠ .self then .ok (mk s home .weak sl.ref) [] else .ub
    | none => .ub
  -- shared_ptr.h:91-97
  | .fromWeak home i =>
    match s.handle i with
    | some ⟨_, .weak, ref, _⟩ =>
      if s.place home then
        match upgrade s home ref with
        | some s => .ok s []
        | none => .throws
      else .ub
    | _ => .ub
  -- weak_ptr.h:68-70
  | .lock home i =>
    match s.handle i with
    | some ⟨_, .weak, ref, _⟩ =>
      if s.place home then
        match upgrade s home ref with
        | some s => .ok s []
        | none => .ok (mk s home .strong none) []
      else .ub
    | _ => .ub
  -- shared_ptr.h:111-115
  | .staticCast home i t =>
    match s.handle i with
    | some ⟨_, .strong, ref, _⟩ =>
      if s.place home then
        match s.typOf ref with
        | some u => if c.isA u t then .ok (mk s home .strong ref) [] else .ub
        | none => .ok (mk s home .strong ref) []
      else .ub
    | _ => .ub
  -- shared_ptr.h:117-121
  | .dynamicCast home i t =>
    match s.handle i with
    | some ⟨_, .strong, ref, _⟩ =>
      if s.place home then
        match s.typOf ref with
        | some u => if c.isA u t then .ok (mk s home .strong ref) [] else .ok (mk s home .strong none) []
        | none => .ok (mk s home .strong none) []
      else .ub
    | _ => .ub
  -- shared_ptr.h:104-108, weak_ptr.h:56-66
  | .assign i j =>
    match s.handle i, s.handle j with
    | some a, some b =>
      if a.kind = b.kind ∧ a.kind ≠ .self ∨ a.kind = .weak ∧ b.kind = .strong then assign s i a b.ref else .ub
    | _, _ => .ub
  -- shared_ptr.h:63, weak_ptr.h:44 (reset of the bases)
  | .reset i =>
    match s.handle i with
    | some a => if a.kind ≠ .self then assign s i a none else .ub
    | none => .ub
  -- shared_ptr.h:63, weak_ptr.h:44 (the destructors)
  | .drop i =>
    match s.handle i with
    | some a =>
      if a.kind ≠ .self then
        .ok { s with slots := s.slots.set i { a with live := false } } (giveBack a.kind a.ref)
      else .ub
    | none => .ub
  -- enable_shared_from_this.h:55-68
  | .fromThis home p =>
    match s.objs[p]? with
    | some o =>
      if o.alive ∧ s.place home then
        match o.self with
        | some i =>
          match s.slots[i]? with
          | some sl =>
            match upgrade s home sl.ref with
            | some s => .ok s []
            | none => .throws
          | none => .ub
        | none => .ub
      else .ub
    | none => .ub

/-- The program: its memory and, for each of its threads, what the thread has still
to give back. -/
structure Machine where
  st : St
  stacks : List (List Item)
  deriving DecidableEq, Repr

/-- A thread goes on giving back. -/
def work (m : Machine) (t : Nat) : Option Machine :=
  match m.stacks[t]? with
  | some (it :: rest) =>
    match exec m.st it with
    | some (s, new) => some ⟨s, m.stacks.set t (new ++ rest)⟩
    | none => none
  | _ => none

/-- A thread does an operation. -/
def call (c : Classes) (m : Machine) (t : Nat) (op : Op) : Option Machine :=
  match m.stacks[t]? with
  | some rest =>
    match apply c m.st op with
    | .ok s new => some ⟨s, m.stacks.set t (new ++ rest)⟩
    | .throws => some m
    | .ub => none
  | none => none

/-- What a shared or weak handle points to; `get` of the base. -/
def get (s : St) (i : Nat) : Option Nat :=
  (s.slots[i]?.bind Slot.ref).bind fun b => s.blocks[b]?.bind Block.obj

/-- `use_count` of the bases. -/
def useCount (s : St) (i : Nat) : Nat :=
  match s.slots[i]?.bind Slot.ref with
  | none => 0
  | some b => s.count b

/-- `get_deleter`: the deleter given with the pointer, if it is of the type asked
for.  /repo/src/lang/shared_ptr.h:129-133. -/
def getDeleter (s : St) (i : Nat) (ofType : Nat → Bool) : Option Nat :=
  (s.slots[i]?.bind Slot.ref).bind fun b => s.blocks[b]?.bind fun k => k.del.filter ofType

end Verif.SharedPtr
