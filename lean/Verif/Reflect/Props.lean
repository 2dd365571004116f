import Verif.Reflect.Lemmas
import Verif.Serial.Props
/-!
# C79: the description of a type
-/
namespace Verif.Reflect.Props
open Verif.Reflect Verif.Reflect.Spec Verif.Reflect.Lemmas
open Verif.Serial (Val Writes read)
open Verif.Serial.Spec (WF Shape archive)

/-- `get_type` describes every type as it is, whatever is nested in what:
nothing undefined happens, members are in the order in which they are
written, with their names, and a class has the last name it gives itself. -/
theorem describes (t : Ty) : getType t = some (desc t) := getType_eq t

/-- From the text that `print` makes of a description the description can be
told, provided that names have no `)`, `,` or `}` in them; also if more text
follows, so that no description begins like another. -/
theorem text_tells_partial (r r' : Rep) (x y : Str) (hc : Clear r) (hc' : Clear r')
    (h : print r ++ x = print r' ++ y) : r = r' ∧ x = y := cancel r r' x y hc hc' h

/-- Without the condition on names it cannot: a class with one member whose
name is `a,bool:b` reads like one with two members. -/
theorem text_ambiguous : ∃ a b : Ty, ∃ r q : Rep, getType a = some r ∧ getType b = some q ∧ r ≠ q ∧
    print r = print q :=
  ⟨.cls [.name (txt "C"), .member (txt "a,bool:b") .bool],
    .cls [.name (txt "C"), .member (txt "a") .bool, .member (txt "b") .bool], _, _, describes _, describes _,
    by intro h; simp [desc, descBody] at h, by decide +kernel⟩

/-- Two types without floating point numbers that are described by the same
text are written in the same way. -/
theorem same_text_same_wire_partial (a b : Ty) (r q : Rep) (ha : NoFloat a) (hb : NoFloat b)
    (hr : getType a = some r) (hq : getType b = some q) (hc : Clear r) (hc' : Clear q)
    (h : print r = print q) : wire a = wire b := by
  rw [describes] at hr hq
  obtain ⟨e, _⟩ := text_tells_partial r q [] [] hc hc' (by rw [h])
  rw [wire_fmt a ha, wire_fmt b hb, Option.some.inj hr, Option.some.inj hq, e]

/-- So a peer whose type has the same description reads what was written:
it gets the same value, and exactly its bytes are consumed. -/
theorem peers_understand_partial (a b : Ty) (r q : Rep) (ha : NoFloat a) (hb : NoFloat b)
    (hr : getType a = some r) (hq : getType b = some q) (hc : Clear r) (hc' : Clear q)
    (h : print r = print q) (wa wb : Serial.Ty) (hwa : wire a = some wa) (hwb : wire b = some wb) :
    ∃ e : wa = wb, ∀ (v : Val wa) (bs tail : Str) (old : Val wb), WF wa v → Shape wb old → Writes wa v bs →
      read wb old (archive (bs ++ tail)) = (e ▸ v, archive tail) := by
  have e : wa = wb := by
    have := same_text_same_wire_partial a b r q ha hb hr hq hc hc' h
    rw [hwa, hwb] at this
    exact Option.some.inj this
  subst e
  exact ⟨rfl, fun v bs tail old hv ho hw => Serial.Props.round_trip wa v old bs tail hv ho hw⟩

/-- The condition on floating point numbers is needed: `float`, `double` and
`long double` have the same description but not the same size; a peer that
reads a `double` where a `float` was written fails. -/
theorem float_ambiguous : getType (.float 4) = getType (.float 8) ∧
    ∃ wa wb, wire (.float 4) = some wa ∧ wire (.float 8) = some wb ∧
      ∀ (v : Val wa) (old : Val wb) (bs : Str), Writes wa v bs → (read wb old (archive bs)).2.good = false := by
  refine ⟨by rw [describes, describes]; rfl, .prim 4 true, .prim 8 true, rfl, rfl, ?_⟩
  intro v old bs hw
  simp only [Writes] at hw
  subst hw
  simp [Serial.read, Serial.readPrim, Serial.readN, archive, Serial.toLE]

/-- `traverse` calls the function with exactly the parts of a description,
one call for each place where one occurs: first the description itself, then
its immediate parts from left to right, each with the parts in it. -/
theorem traverse_all (r : Rep) : (∀ p, p ∈ traverse r ↔ Part p r) ∧ (traverse r).length = size r ∧
    traverse r = r :: (parts r).flatMap traverse :=
  ⟨fun p => ⟨traverse_part r p, part_traverse⟩, traverse_length r, traverse_eq r⟩

/-- The description of an RPC interface has its name and version, and an entry
for exactly the methods that were declared, with the types of their results
and arguments. -/
theorem interface (version : Int) (base : Str) (procs : List (Str × Ty × List Ty))
    (hn : (procs.map (·.1)).Nodup) : ∃ b, generate version base procs = some b ∧ b.name = base ∧
      b.version = some version ∧ (b.mem.map (·.1)).Nodup ∧
      ∀ n ret args, AssocMap.find b.mem n = some (ret, args) ↔
        ∃ p ∈ procs, p.1 = n ∧ ret = desc p.2.1 ∧ args = p.2.2.map desc := by
  obtain ⟨mem, h1, h2⟩ := procCtors_eq procs ⟨[], none, []⟩ hn (by simp)
  rw [List.append_nil] at h2
  have hk : (mem.map (·.1)).Nodup := by
    rw [(h2.map (·.1)).nodup_iff, List.map_map]; exact hn
  refine ⟨⟨base, some version, mem⟩, by rw [generate, h1]; rfl, rfl, rfl, hk, ?_⟩
  intro n ret args
  rw [AssocMap.find_eq_some_iff hk, h2.mem_iff]
  simp only [List.mem_map, entry, Prod.mk.injEq]
  constructor
  · rintro ⟨p, hp, rfl, rfl, rfl⟩; exact ⟨p, hp, rfl, rfl, rfl⟩
  · rintro ⟨p, hp, rfl, rfl, rfl⟩; exact ⟨p, hp, rfl, rfl, rfl⟩

/-! ### Examples -/

/-- A class that calls the `serialize` of its base after it has given itself
a name: the name of the base stays. -/
def derived : Ty := .cls [.name (txt "D"), .member (txt "x") (.map (.int true 4) .str), .name (txt "B"),
  .plain (.vec .char)]

example : (getType derived).map print = some (txt "class(B){map<int(4),string>:x,array<char>}") := by
  rw [describes]; decide +kernel

example : ∃ r, getType derived = some r ∧ Clear r :=
  ⟨_, describes _, by simp only [derived, desc, descBody, nameOf, Clear, ClearMems, ClearMem]; decide +kernel⟩

example : NoFloat derived := by simp [derived, NoFloat, NoFloatBody]

/-- The same members under another name of the second: other text, the same
form on the wire. -/
example : wire derived = some (.pair (.map (.prim 4 true) .str) (.pair (.vec (.prim 1 true)) (.arr 0 .bool))) := rfl

example : Part .str (desc derived) := by
  refine .inside _ (.map (.int true 4) .str) _ (.inside _ .str _ (.self _) (by simp [parts])) ?_
  simp [derived, desc, descBody, parts, memType]

example : size (desc derived) = 6 := rfl

example : ([(txt "add", Ty.int true 4, [Ty.int true 4, Ty.int true 4]), (txt "name", Ty.str, [])].map (·.1)).Nodup := by
  decide +kernel

end Verif.Reflect.Props
