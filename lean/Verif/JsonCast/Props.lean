import Verif.JsonCast.Lemmas
/-! Property C43: conversions between C++ values and JSON. -/

set_option linter.unusedSectionVars false

namespace Verif.JsonCast.Props
open Verif.Json Verif.JsonCast Verif.JsonCast.Spec Verif.JsonCast.Lemmas

variable {F : Type} [Floats F]

/-- For the examples. -/
local instance : Floats Nat := ⟨Int.toNat, id⟩

/-- `json_cast<T>(to_json(x))` is `x` again, for nested vectors, maps, optionals and classes. -/
theorem cast_roundtrip (toF : Int → F) (t : Ty) (x : Val F t) (h : Good t x) : fromJson toF t (toJson t x) = some x :=
  roundtrip toF t x h

/-- A class used in the examples: `{int a; vector<optional<int>> b; map<string, bool> c;}`. -/
def sample : Fields := .cons [97] .int (.cons [98] (.vec (.opt .int)) (.cons [99] (.map .bool) .nil))

example : Good (F := Nat) (.cls sample) ((-5 : Int), [some (3 : Int), none], [([120], true), ([], false)], ()) := by
  simp [Good, Goods, sample, names, Nullable]

/-- A string, a number, a boolean or `null` never comes out of the wrong kind of JSON value: casting it to a vector, map or string throws.
(Only numbers convert: an integer is accepted where a double is wanted, not the other way round.) -/
theorem cast_kind (toF : Int → F) (js : Value F) :
    (∀ x, fromJson toF .int js = some x → ∃ n, js = .int n) ∧
    (∀ x, fromJson toF .long js = some x → js = .int x) ∧
    (∀ x, fromJson toF .dbl js = some x ↔ js = .flt x ∨ ∃ n, js = .int n ∧ x = toF n) ∧
    (∀ x, fromJson toF .flt js = some x ↔ (∃ y, js = .flt y ∧ x = Floats.narrow y) ∨ ∃ n, js = .int n ∧ x = Floats.ofInt n) ∧
    (∀ x, fromJson toF .bool js = some x ↔ js = .bool x) ∧
    (∀ x, fromJson toF .str js = some x ↔ js = .str x) ∧
    (∀ t x, fromJson toF (.vec t) js = some x → ∃ vs, js = .arr vs) ∧
    (∀ t x, fromJson toF (.map t) js = some x → ∃ ms, js = .obj ms) := by
  cases js <;> simp [fromJson, eq_comm]

example : fromJson (F := Nat) Int.toNat .int (.flt 3) = none := rfl
example : fromJson (F := Nat) Int.toNat .dbl (.int 3) = some (3 : Nat) := rfl

/-- A vector is cast element by element and keeps length and order; one bad element makes the whole cast throw. -/
theorem cast_vector (toF : Int → F) (t : Ty) (vs : List (Value F)) (xs : List (Val F t)) :
    fromJson toF (.vec t) (.arr vs) = some xs ↔
      vs.length = xs.length ∧ ∀ (i : Nat) v x, vs[i]? = some v → xs[i]? = some x → fromJson toF t v = some x := by
  simp only [fromJson]
  exact each_iff (fromJson toF t) vs xs

example : fromJson (F := Nat) Int.toNat (.vec .bool) (.arr [.bool true, .bool false]) = some [true, false] := rfl
example : fromJson (F := Nat) Int.toNat (.vec .bool) (.arr [.bool true, .null]) = none := rfl

/-- A map is cast member by member and keeps the keys. -/
theorem cast_map (toF : Int → F) (t : Ty) (ms : List (Str × Value F)) (xs : List (Str × Val F t)) :
    fromJson toF (.map t) (.obj ms) = some xs ↔
      ms.map (·.1) = xs.map (·.1) ∧ ∀ (i : Nat) v x, ms[i]? = some v → xs[i]? = some x → fromJson toF t v.2 = some x.2 := by
  simp only [fromJson]
  exact eachMember_iff (fromJson toF t) ms xs

example : fromJson (F := Nat) Int.toNat (.map .str) (.obj [([97], .str [98])]) = some [([97], [98])] := rfl

/-- The strict cast of an object to a class succeeds exactly if every member can be read from the value under its name, and only
optional members are missing; further keys are ignored. -/
theorem cast_class (toF : Int → F) (fs : Fields) (ms : List (Str × Value F)) (hn : (ms.map (·.1)).Nodup) (x : Vals F fs) :
    fromJson toF (.cls fs) (.obj ms) = some x ↔ Reads (fromJson toF) ms fs x := by
  simp only [fromJson]
  exact fromFields_iff toF ms hn fs x

/-- A key that is not there or any value but an object: the strict cast throws. -/
theorem cast_class_missing (toF : Int → F) (n : Str) (t : Ty) (fs : Fields) (js : Value F) (ht : ∀ t', t ≠ .opt t')
    (h : ∀ ms, js = .obj ms → n ∉ ms.map (·.1)) : fromJson toF (.cls (.cons n t fs)) js = none := by
  simp only [fromJson]
  exact fromFields_missing toF n t fs js ht h

example : fromJson (F := Nat) Int.toNat (.cls sample) (.obj [([98], .arr [.null, .int 7]), ([122], .null), ([99], .obj []), ([97], .int 4)]) =
    some ((4 : Int), [none, some (7 : Int)], [], ()) := rfl
example : fromJson (F := Nat) Int.toNat (.cls sample) (.obj [([98], .arr []), ([99], .obj [])]) = none := rfl
example : fromJson (F := Nat) Int.toNat (.cls (.cons [97] (.opt .int) .nil)) (.obj []) = some (none, ()) := rfl

/-- The strict cast to `int` keeps the low 32 bits: a JSON integer out of range is not rejected. -/
theorem cast_int_wraps (toF : Int → F) (n : Int) :
    ∃ m : Int, fromJson toF .int (.int n) = some m ∧ - 2 ^ 31 ≤ m ∧ m < 2 ^ 31 ∧ (2 ^ 32 : Int) ∣ m - n :=
  ⟨toInt32 n, rfl, toInt32_range n⟩

/-- So two different integers are read alike. -/
theorem cast_int_not_injective (toF : Int → F) : fromJson toF .int (.int (2 ^ 32)) = fromJson toF .int (.int 0) :=
  congrArg some (show toInt32 (2 ^ 32) = toInt32 0 by decide)

/-- An optional that holds an empty optional does not survive: it comes back as none. -/
theorem cast_optional_optional (toF : Int → F) (t : Ty) :
    fromJson toF (.opt (.opt t)) (toJson (.opt (.opt t)) (some none)) = some none := by
  simp [toJson, fromJson]

/-! With defaults. -/

/-- `json_cast_with_default` does not throw and reads no indeterminate value, whatever the JSON value and the default are, for every type
without optionals. -/
theorem default_total (toF : Int → F) (t : Ty) (h : Plain t) (js : Value F) (d : Val F t) : ∃ x, castD toF t js d = some x := by
  obtain ⟨y, hy⟩ := fromD_total toF t h js d
  exact ⟨y, by rw [castD, hy]; exact freeze_thaw t y⟩

example : Plain (.cls (.cons [97] .int (.cons [98] (.vec (.map .str)) .nil))) := by simp [Plain, Plains]

/-- It reads back what `to_json` wrote, over a default-constructed value. -/
theorem default_roundtrip (toF : Int → F) (t : Ty) (hp : Plain t) (x : Val F t) (h : Good t x) :
    castD toF t (toJson t x) (zero toF t) = some x := by
  rw [castD, roundtripD toF t hp x h]
  exact freeze_thaw t x

/-- The value of a scalar or string is taken if it has the right kind, else the default stays. -/
theorem default_scalar (toF : Int → F) (js : Value F) :
    (∀ d : Int, castD toF .int js d = some ((fromJson toF .int js).getD d)) ∧
    (∀ d : Int, castD toF .long js d = some ((fromJson toF .long js).getD d)) ∧
    (∀ d : F, castD toF .dbl js d = some ((fromJson toF .dbl js).getD d)) ∧
    (∀ d : F, castD toF .flt js d = some ((fromJson toF .flt js).getD d)) ∧
    (∀ d : Bool, castD toF .bool js d = some ((fromJson toF .bool js).getD d)) ∧
    (∀ d : Str, castD toF .str js d = some ((fromJson toF .str js).getD d)) := by
  cases js <;> simp [castD, fromJson, fromD, thaw, freeze]

example : castD (F := Nat) Int.toNat .int (.str []) (7 : Int) = some (7 : Int) := rfl
example : castD (F := Nat) Int.toNat .long (.int 8) (7 : Int) = some (8 : Int) := rfl

/-- A class over defaults: present members are read over their default, missing ones keep it. -/
theorem default_class (toF : Int → F) (fs : Fields) (ms : List (Str × Value F)) (hn : (ms.map (·.1)).Nodup) (d x : Vals F fs) :
    castD toF (.cls fs) (.obj ms) d = some x ↔ ReadsD (castD toF) ms fs d x := by
  have e : castD toF (.cls fs) (.obj ms) d = (fieldsD toF fs (.obj ms) (thaws fs d)).bind (freezes fs) := by
    simp only [castD, fromD, thaw, freeze]
  rw [e]
  exact fieldsD_iff toF ms hn fs d x

/-- A JSON value that is no object leaves a class as it was; one that is no array leaves a vector, no object a map. -/
theorem default_other (toF : Int → F) (js : Value F) :
    (∀ fs (d : Vals F fs), (∀ ms, js ≠ .obj ms) → castD toF (.cls fs) js d = some d) ∧
    (∀ t (d : List (Val F t)), (∀ vs, js ≠ .arr vs) → castD toF (.vec t) js d = some d) ∧
    (∀ t (d : List (Str × Val F t)), (∀ ms, js ≠ .obj ms) → castD toF (.map t) js d = some d) := by
  refine ⟨?_, ?_, ?_⟩
  · intro fs d h
    simp only [castD, fromD, thaw, freeze]
    rw [fieldsD_other toF js h, Option.bind_some]
    exact freezes_thaws fs d
  · intro t d h
    cases js <;> simp [castD, fromD, thaw, freeze] at h ⊢
  · intro t d h
    cases js <;> simp [castD, fromD, thaw, freeze] at h ⊢

example : castD (F := Nat) Int.toNat (.cls sample) (.obj [([97], .int 4), ([99], .obj [([120], .bool true)])])
    ((1 : Int), [some (2 : Int)], [([121], false)], ()) = some ((4 : Int), [some (2 : Int)], [([121], false), ([120], true)], ()) := rfl

/-- A vector over a default: position by position the element of the JSON array read over the element of the default (or over `T()`),
and the rest of a longer default stays behind. -/
theorem default_vector (toF : Int → F) (t : Ty) (vs : List (Value F)) (d xs : List (Val F t)) :
    castD toF (.vec t) (.arr vs) d = some xs ↔
      xs.length = max vs.length d.length ∧
      (∀ (i : Nat) v x, vs[i]? = some v → xs[i]? = some x → castD toF t v (d[i]?.getD (zero toF t)) = some x) ∧
      xs.drop vs.length = d.drop vs.length := by
  simp only [castD, fromD, thaw, freeze]
  rw [bind_some_id]
  exact zipD_iff (fun j x => (fromD toF t j (thaw t x)).bind (freeze t)) (zero toF t) vs d xs

/-- So the array `[1]` cast over the default `{7, 8}` is not `{1}`. -/
theorem default_vector_keeps_tail (toF : Int → F) :
    castD toF (.vec .int) (.arr [.int 1]) [(7 : Int), (8 : Int)] = some [(1 : Int), (8 : Int)] := rfl

/-- Entries beyond the default are read over `T()`: where the kind is wrong they are zero, false, empty, null or none. -/
theorem default_vector_fresh (toF : Int → F) (js : Value F) :
    ((∀ n, js ≠ .int n) → castD toF (.vec .int) (.arr [js]) [] = some [(0 : Int)] ∧ castD toF (.vec .long) (.arr [js]) [] = some [(0 : Int)]) ∧
    ((∀ n, js ≠ .int n) → (∀ x, js ≠ .flt x) → castD toF (.vec .dbl) (.arr [js]) [] = some [toF 0] ∧
      castD toF (.vec .flt) (.arr [js]) [] = some [Floats.ofInt 0]) ∧
    ((∀ b, js ≠ .bool b) → castD toF (.vec .bool) (.arr [js]) [] = some [false]) ∧
    ((∀ s, js ≠ .str s) → castD toF (.vec .str) (.arr [js]) [] = some [([] : Str)]) ∧
    (∀ t, (∀ vs, js ≠ .arr vs) → castD toF (.vec (.vec t)) (.arr [js]) [] = some [([] : List (Val F t))]) ∧
    (∀ t, (∀ ms, js ≠ .obj ms) → castD toF (.vec (.map t)) (.arr [js]) [] = some [([] : List (Str × Val F t))]) := by
  refine ⟨?_, ?_, ?_, ?_, ?_, ?_⟩
  all_goals cases js <;> simp [castD, fromD, thaw, freeze, zipD, zero]

/-- A map over a default: keys of the JSON object are read over the default's value (or over `T()`), the other keys of the default
stay. -/
theorem default_map (toF : Int → F) (t : Ty) (ms : List (Str × Value F)) (hn : (ms.map (·.1)).Nodup) (d xs : List (Str × Val F t))
    (h : castD toF (.map t) (.obj ms) d = some xs) (k : Str) :
    (∀ v, (k, v) ∈ ms → ∃ x, AssocMap.find xs k = some x ∧ castD toF t v ((AssocMap.find d k).getD (zero toF t)) = some x) ∧
    (k ∉ ms.map (·.1) → AssocMap.find xs k = AssocMap.find d k) := by
  simp only [castD, fromD, thaw, freeze] at h
  rw [bind_some_id] at h
  exact foldD_find (fun j x => (fromD toF t j (thaw t x)).bind (freeze t)) (zero toF t) ms hn d xs h k

/-- An optional does not keep its default: `null` makes it none, and with any other value the result does not depend on the default. -/
theorem default_optional (toF : Int → F) (t : Ty) (d d' : Option (Val F t)) (js : Value F) :
    castD toF (.opt t) .null d = some none ∧ castD toF (.opt t) js d = castD toF (.opt t) js d' ∧
    (∀ x, castD toF (.opt t) js d = some x → (x = none ↔ js = .null)) := by
  cases js <;> simp [castD, fromD, freeze] <;> rintro x h rfl <;> rw [Option.bind_eq_some_iff] at h <;> obtain ⟨y, _, h⟩ := h <;>
    simp at h

/-- Strings: the value, or an empty string if it has another kind. -/
theorem default_optional_string (toF : Int → F) (js : Value F) (h : js ≠ .null) (d : Option Str) :
    castD toF (.opt .str) js d = some (some ((fromJson toF .str js).getD [])) := by
  cases js <;> simp [castD, fromD, init, freeze, fromJson] at h ⊢

/-- Reading an optional `int` over a default reads an uninitialised `int`, for every JSON value but `null`. -/
theorem default_optional_int_indeterminate (toF : Int → F) (js : Value F) (h : js ≠ .null) (d : Option Int) :
    castD toF (.opt .int) js d = none := by
  cases js <;> simp [castD, fromD, init] at h ⊢

/-- For the other scalars it does so when the value has the wrong kind; with the right kind the value is read. -/
theorem default_optional_long (toF : Int → F) (js : Value F) (h : js ≠ .null) (d : Option Int) :
    castD toF (.opt .long) js d = (fromJson toF .long js).map some := by
  cases js <;> simp [castD, fromD, init, freeze, fromJson] at h ⊢

end Verif.JsonCast.Props
