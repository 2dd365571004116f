import Verif.JsonEq.Lemmas
/-! Property C42: equality and merging of JSON values. -/

namespace Verif.JsonEq.Props
open Verif.Json Verif.JsonEq Verif.JsonEq.Spec Verif.JsonEq.Lemmas Verif.AssocMap

variable {F : Type}

/-! ## Equality -/

/-- C42: `equals` decides the structural equality of values, in which the order of members does not matter. With `conv` an integer and a
floating point number can be equal. (`==` on `double` is symmetric, also with NaN.) -/
theorem equals_correct (eqF : F → F → Bool) (toF : Int → F) (conv : Bool) (hsym : ∀ x y, eqF x y = eqF y x) (a b : Value F)
    (ha : Distinct a) (hb : Distinct b) :
    equals eqF toF conv a b = true ↔ Same (fun x y => eqF x y = true) (fun n x => conv = true ∧ eqF (toF n) x = true) a b :=
  equals_iff eqF toF conv hsym a b ha hb

/-- Numbers with halves: `x` stands for `x / 2`. -/
def eqH (x y : Int) : Bool := x == y

example : Distinct (F := Int) (.obj [([97], .arr [.int 1, .flt 3]), ([98], .null)]) := by simp [Distinct, DistinctM, DistinctL]
example : equals eqH (2 * ·) true (.obj [([97], .arr [.int 1, .flt 3]), ([98], .null)]) (.obj [([98], .null), ([97], .arr [.flt 2, .flt 3])])
    = true := by decide +kernel
example : equals eqH (2 * ·) false (.obj [([97], .arr [.int 1, .flt 3]), ([98], .null)]) (.obj [([98], .null), ([97], .arr [.flt 2, .flt 3])])
    = false := by decide +kernel

/-- C42: every value without a NaN equals itself. -/
theorem equals_refl (eqF : F → F → Bool) (toF : Int → F) (conv : Bool) (hsym : ∀ x y, eqF x y = eqF y x) (hrefl : ∀ x, eqF x x = true)
    (a : Value F) (ha : Distinct a) : equals eqF toF conv a a = true :=
  (equals_iff eqF toF conv hsym a a ha ha).mpr (same_refl hrefl a ha)

/-- C42: equality is symmetric. -/
theorem equals_symm (eqF : F → F → Bool) (toF : Int → F) (conv : Bool) (hsym : ∀ x y, eqF x y = eqF y x) (a b : Value F)
    (ha : Distinct a) (hb : Distinct b) : equals eqF toF conv a b = equals eqF toF conv b a := by
  rw [Bool.eq_iff_iff, equals_iff eqF toF conv hsym a b ha hb, equals_iff eqF toF conv hsym b a hb ha]
  exact ⟨same_symm (fun x y h => by rw [hsym]; exact h), same_symm (fun x y h => by rw [hsym]; exact h)⟩

/-- C42: without the implicit conversion equality is transitive. Missing from the full claim: with the conversion, which `==` uses, it
is not (`eq_not_transitive`). -/
theorem equals_trans_partial (eqF : F → F → Bool) (toF : Int → F) (hsym : ∀ x y, eqF x y = eqF y x)
    (htrans : ∀ x y z, eqF x y = true → eqF y z = true → eqF x z = true) (a b c : Value F) (ha : Distinct a) (hb : Distinct b)
    (hc : Distinct c) (hab : equals eqF toF false a b = true) (hbc : equals eqF toF false b c = true) :
    equals eqF toF false a c = true := by
  have e : (fun (n : Int) (x : F) => false = true ∧ eqF (toF n) x = true) = fun _ _ => False := by funext; simp
  rw [equals_iff eqF toF false hsym _ _ ha hb, e] at hab
  rw [equals_iff eqF toF false hsym _ _ hb hc, e] at hbc
  rw [equals_iff eqF toF false hsym _ _ ha hc, e]
  exact same_trans htrans hab c hbc

example : (∀ x y, eqH x y = eqH y x) ∧ (∀ x, eqH x x = true) ∧ ∀ x y z, eqH x y = true → eqH y z = true → eqH x z = true := by
  refine ⟨fun x y => ?_, fun x => by simp [eqH], fun x y z => ?_⟩
  · simp only [eqH]; rw [Bool.eq_iff_iff, beq_iff_eq, beq_iff_eq]; exact eq_comm
  · simp only [eqH, beq_iff_eq]; exact Eq.trans

/-- C42: `==` is not transitive: two different integers that convert to the same floating point number both equal it (2^53 and
2^53 + 1 do). -/
theorem eq_not_transitive (eqF : F → F → Bool) (toF : Int → F) (a b : Int) (hne : a ≠ b) (h : toF a = toF b)
    (hrefl : eqF (toF a) (toF a) = true) :
    eqJson eqF toF (.int a) (.flt (toF a)) = true ∧ eqJson eqF toF (.flt (toF a)) (.int b) = true ∧
    eqJson eqF toF (.int a) (.int b) = false := by
  simp [eqJson, equals, hrefl, ← h, hne]

/-- A conversion with a precision of even numbers. -/
example : eqJson (fun x y : Int => x == y) (fun n => n / 2) (.int 4) (.flt 2) = true ∧
    eqJson (fun x y : Int => x == y) (fun n => n / 2) (.flt 2) (.int 5) = true ∧
    eqJson (fun x y : Int => x == y) (fun n => n / 2) (.int 4) (.int 5) = false := by decide +kernel

/-- C42: the order in which the members of an object are listed does not matter. -/
theorem equals_reorder (eqF : F → F → Bool) (toF : Int → F) (conv : Bool) (hsym : ∀ x y, eqF x y = eqF y x)
    (hrefl : ∀ x, eqF x x = true) (ms ns : List (Str × Value F)) (hp : ms.Perm ns) (hd : Distinct (.obj ms)) :
    equals eqF toF conv (.obj ms) (.obj ns) = true := by
  have hdn : Distinct (.obj ns) := by
    rw [Distinct] at hd ⊢
    refine ⟨(hp.map _).nodup_iff.mp hd.1, ?_⟩
    have : ∀ l : List (Str × Value F), (∀ k v, (k, v) ∈ l → Distinct v) → DistinctM l := by
      intro l hl
      induction l with
      | nil => trivial
      | cons m l ih =>
        obtain ⟨k, v⟩ := m
        rw [DistinctM]
        exact ⟨hl k v (by simp), ih fun k' v' h => hl k' v' (List.mem_cons_of_mem _ h)⟩
    exact this ns fun k v h => distinctM_mem hd.2 k v (hp.mem_iff.mpr h)
  rw [equals_iff eqF toF conv hsym _ _ hd hdn]
  refine .obj _ _ (fun k => (hp.map _).mem_iff) ?_
  intro k v w hv hw
  have hs := same_refl (flt := fun x y => eqF x y = true) (num := fun n x => conv = true ∧ eqF (toF n) x = true) hrefl _ hd
  exact (same_obj.mp hs).2 k v w hv (hp.mem_iff.mpr hw)

example : ([([97], .int 1), ([98], .int 2)] : List (Str × Value Int)).Perm [([98], .int 2), ([97], .int 1)] := by decide +kernel

/-! ## Merging -/

/-- C42: `merge_with` on objects: a key of both gets the combination of both values, the other keys keep their value; no key comes
twice. -/
theorem mergeWith_members (f : Value F → Value F → Value F) (ms ns : List (Str × Value F)) (h1 : (ms.map (·.1)).Nodup)
    (h2 : (ns.map (·.1)).Nodup) : ∃ r, mergeWith f (.obj ms) (.obj ns) = some (.obj r) ∧ (r.map (·.1)).Nodup ∧
    ∀ k x, (k, x) ∈ r ↔ (∃ a b, (k, a) ∈ ms ∧ (k, b) ∈ ns ∧ x = f a b) ∨ ((k, x) ∈ ms ∧ k ∉ ns.map (·.1)) ∨
      ((k, x) ∈ ns ∧ k ∉ ms.map (·.1)) := by
  refine ⟨_, rfl, mergeObj_nodup f ms ns, fun k x => ?_⟩
  rw [← find_eq_some_iff (mergeObj_nodup f ms ns), mergeObj_find f ms ns h1 h2]
  simp only [← find_eq_some_iff h1, ← find_eq_some_iff h2, ← find_eq_none_iff]
  cases find ms k <;> cases find ns k <;> simp [join, eq_comm]

example : mergeWith (F := Int) (fun a b => .arr [a, b]) (.obj [([97], .int 1), ([98], .int 2)]) (.obj [([99], .int 3), ([97], .int 4)]) =
    some (.obj [([98], .int 2), ([99], .int 3), ([97], .arr [.int 1, .int 4])]) := by decide +kernel

/-- C42: `merge`: the right-hand value of a key counts, if there is one, else the left-hand one. -/
theorem merge_members (ms ns : List (Str × Value F)) (h1 : (ms.map (·.1)).Nodup) (h2 : (ns.map (·.1)).Nodup) :
    ∃ r, merge (.obj ms) (.obj ns) = some (.obj r) ∧ (r.map (·.1)).Nodup ∧
    ∀ k x, (k, x) ∈ r ↔ (k, x) ∈ ns ∨ ((k, x) ∈ ms ∧ k ∉ ns.map (·.1)) := by
  obtain ⟨r, hr, hn, _⟩ := mergeWith_members (fun _ y => y) ms ns h1 h2
  refine ⟨_, rfl, mergeObj_nodup _ ms ns, fun k x => ?_⟩
  rw [← find_eq_some_iff (mergeObj_nodup _ ms ns), mergeObj_find _ ms ns h1 h2]
  simp only [← find_eq_some_iff h1, ← find_eq_some_iff h2, ← find_eq_none_iff]
  cases find ms k <;> cases find ns k <;> simp [join, eq_comm]

/-- The values under a common key are not merged in turn. -/
example : merge (F := Int) (.obj [([97], .obj [([98], .int 1)])]) (.obj [([97], .obj [([99], .int 2)])]) =
    some (.obj [([97], .obj [([99], .int 2)])]) := by decide +kernel

/-- C42: merging a value with itself changes nothing. -/
theorem merge_idempotent (ms : List (Str × Value F)) (h : (ms.map (·.1)).Nodup) :
    ∃ r, merge (.obj ms) (.obj ms) = some (.obj r) ∧ r.Perm ms := by
  obtain ⟨r, hr, hn, hm⟩ := merge_members ms ms h h
  refine ⟨r, hr, (List.perm_ext_iff_of_nodup (List.Nodup.of_map _ hn) (List.Nodup.of_map _ h)).mpr ?_⟩
  rintro ⟨k, x⟩
  rw [hm]
  constructor
  · rintro (h | h)
    · exact h
    · exact h.1
  · exact .inl

/-- C42: merging is associative. -/
theorem merge_associative (a b c : List (Str × Value F)) (ha : (a.map (·.1)).Nodup) (hb : (b.map (·.1)).Nodup) (hc : (c.map (·.1)).Nodup) :
    ∃ ab bc l r, merge (.obj a) (.obj b) = some ab ∧ merge (.obj b) (.obj c) = some bc ∧ merge ab (.obj c) = some (.obj l) ∧
      merge (.obj a) bc = some (.obj r) ∧ l.Perm r := by
  obtain ⟨ab, hab, nab, mab⟩ := merge_members a b ha hb
  obtain ⟨bc, hbc, nbc, mbc⟩ := merge_members b c hb hc
  obtain ⟨l, hl, nl, ml⟩ := merge_members ab c nab hc
  obtain ⟨r, hr, nr, mr⟩ := merge_members a bc ha nbc
  refine ⟨_, _, l, r, hab, hbc, hl, hr, (List.perm_ext_iff_of_nodup (List.Nodup.of_map _ nl) (List.Nodup.of_map _ nr)).mpr ?_⟩
  rintro ⟨k, x⟩
  have hk : k ∈ bc.map (·.1) ↔ k ∈ b.map (·.1) ∨ k ∈ c.map (·.1) := by
    simp only [List.mem_map, Prod.exists, exists_and_right, exists_eq_right]
    constructor
    · rintro ⟨y, hy⟩
      rcases (mbc k y).mp hy with h | h
      · exact .inr ⟨y, h⟩
      · exact .inl ⟨y, h.1⟩
    · rintro (⟨y, hy⟩ | ⟨y, hy⟩)
      · by_cases hc' : k ∈ c.map (·.1)
        · obtain ⟨⟨k', z⟩, hz, rfl⟩ := List.mem_map.mp hc'
          exact ⟨z, (mbc k' z).mpr (.inl hz)⟩
        · exact ⟨y, (mbc k y).mpr (.inr ⟨hy, hc'⟩)⟩
      · exact ⟨y, (mbc k y).mpr (.inl hy)⟩
  rw [ml, mr, mab, mbc, hk]
  constructor
  · rintro (h | ⟨h | ⟨h, h'⟩, h''⟩)
    · exact .inl (.inl h)
    · exact .inl (.inr ⟨h, h''⟩)
    · exact .inr ⟨h, fun e => e.elim h' h''⟩
  · rintro ((h | ⟨h, h'⟩) | ⟨h, h'⟩)
    · exact .inl h
    · exact .inr ⟨.inl h, h'⟩
    · exact .inr ⟨.inr ⟨h, fun e => h' (.inl e)⟩, fun e => h' (.inr e)⟩

example : ∃ a b c : List (Str × Value Int), (a.map (·.1)).Nodup ∧ (b.map (·.1)).Nodup ∧ (c.map (·.1)).Nodup ∧
    ((merge (.obj a) (.obj b)).bind (merge · (.obj c))) = some (.obj [([98], .int 3), ([97], .int 5), ([99], .int 6)]) :=
  ⟨[([97], .int 1)], [([97], .int 2), ([98], .int 3)], [([97], .int 5), ([99], .int 6)], by decide, by decide, by decide, by decide +kernel⟩

/-- C42: merging anything but two objects throws. -/
theorem merge_throws (f : Value F → Value F → Value F) (a b : Value F) (h : (∀ ms, a ≠ .obj ms) ∨ ∀ ns, b ≠ .obj ns) :
    mergeWith f a b = none := by
  cases a with
  | obj ms =>
    cases b with
    | obj ns =>
      rcases h with h | h
      · exact absurd rfl (h ms)
      · exact absurd rfl (h ns)
    | _ => rfl
  | _ => rfl

example : merge (F := Int) (.obj []) (.arr []) = none := by decide +kernel

end Verif.JsonEq.Props
