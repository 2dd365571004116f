import Verif.Reflect.Spec
/-!
# Lemmas on descriptions of types
-/
namespace Verif.Reflect.Lemmas
open Verif.Reflect Verif.Reflect.Spec

/-! ### The archive -/

theorem viaNew_eq (f : Refl → Option Refl) (e : Rep)
    (h : ∀ (ms : List Mem) (st : List (List Mem)) (ns : List Str),
      f ⟨ms :: st, ns⟩ = some ⟨(ms ++ [.mk [] e]) :: st, ns⟩) : viaNew f = some e := by
  unfold viaNew Refl.new enterClass
  rw [h]
  rfl

theorem getLast?_cons_getD {α : Type} (a b : α) (l : List α) :
    ((a :: l).getLast?).getD b = (l.getLast?).getD a := by
  cases l with
  | nil => rfl
  | cons c l => simp [List.getLast?_cons_cons]; rw [List.getLast?_eq_some_getLast (by simp)]; rfl

mutual
theorem serialize_eq : ∀ (t : Ty) (ms : List Mem) (st : List (List Mem)) (ns : List Str),
    serialize t ⟨ms :: st, ns⟩ = some ⟨(ms ++ [.mk [] (desc t)]) :: st, ns⟩
  | .bool, ms, st, ns => by simp [serialize, add, desc]
  | .char, ms, st, ns => by simp [serialize, add, desc]
  | .int _ _, ms, st, ns => by simp [serialize, add, desc]
  | .float _, ms, st, ns => by simp [serialize, add, desc]
  | .str, ms, st, ns => by simp [serialize, add, desc]
  | .stream, ms, st, ns => by simp [serialize, add, desc]
  | .vec t, ms, st, ns => by
    simp [serialize, add, desc, viaNew_eq _ _ (serialize_eq t)]
  | .map k v, ms, st, ns => by
    simp [serialize, add, desc, viaNew_eq _ _ (serialize_eq k), viaNew_eq _ _ (serialize_eq v)]
  | .cls body, ms, st, ns => by
    simp [serialize, enterClass, desc, nameOf, serBody_eq body, leaveClass, add]
theorem serBody_eq : ∀ (as : List Act) (ms : List Mem) (st : List (List Mem)) (n : Str) (ns : List Str),
    serBody as ⟨ms :: st, n :: ns⟩ =
      some ⟨(ms ++ descBody as) :: st, ((as.filterMap givenName).getLast?).getD n :: ns⟩
  | [], ms, st, n, ns => by simp [serBody, descBody]
  | .name s :: as, ms, st, n, ns => by
    simp only [serBody, serAct, setName, Option.bind_some, serBody_eq as, descBody]
    rw [List.filterMap_cons_some (f := givenName) (a := .name s) (b := s) rfl, getLast?_cons_getD]
  | .member m t :: as, ms, st, n, ns => by
    simp only [serBody, serAct, viaNew_eq _ _ (serialize_eq t), add, Option.bind_some, serBody_eq as,
      descBody, List.append_assoc, List.singleton_append]
    rw [List.filterMap_cons_none rfl]
  | .plain t :: as, ms, st, n, ns => by
    simp only [serBody, serAct, serialize_eq t, Option.bind_some, serBody_eq as, descBody,
      List.append_assoc, List.singleton_append]
    rw [List.filterMap_cons_none rfl]
end

theorem getType_eq (t : Ty) : getType t = some (desc t) := viaNew_eq _ _ (serialize_eq t)

/-! ### Texts -/

theorem t_bool : txt "bool" = [98, 111, 111, 108] := by decide
theorem t_char : txt "char" = [99, 104, 97, 114] := by decide
theorem t_int : txt "int" = [105, 110, 116] := by decide
theorem t_uint : txt "uint" = [117, 105, 110, 116] := by decide
theorem t_float : txt "float" = [102, 108, 111, 97, 116] := by decide
theorem t_string : txt "string" = [115, 116, 114, 105, 110, 103] := by decide
theorem t_stream : txt "stream" = [115, 116, 114, 101, 97, 109] := by decide
theorem t_array : txt "array<" = [97, 114, 114, 97, 121, 60] := by decide
theorem t_map : txt "map<" = [109, 97, 112, 60] := by decide
theorem t_class : txt "class(" = [99, 108, 97, 115, 115, 40] := by decide
theorem t_open : txt "(" = [40] := by decide
theorem t_close : txt ")" = [41] := by decide
theorem t_gt : txt ">" = [62] := by decide
theorem t_comma : txt "," = [44] := by decide
theorem t_colon : txt ":" = [58] := by decide
theorem t_body : txt "){" = [41, 123] := by decide
theorem t_end : txt "}" = [125] := by decide

/-- Texts up to a character that occurs in neither. -/
theorem split_at {a b x y : Str} {c : UInt8} (ha : c ∉ a) (hb : c ∉ b) (h : a ++ c :: x = b ++ c :: y) :
    a = b ∧ x = y := by
  induction a generalizing b with
  | nil =>
    cases b with
    | nil => simpa using h
    | cons d b => simp at h; exact absurd h.1 (fun e => hb (e ▸ List.mem_cons_self))
  | cons d a ih =>
    cases b with
    | nil => simp at h; exact absurd h.1.symm (fun e => ha (e ▸ List.mem_cons_self))
    | cons e b =>
      simp only [List.cons_append, List.cons.injEq] at h
      obtain ⟨h1, h2⟩ := ih (fun m => ha (List.mem_cons_of_mem _ m)) (fun m => hb (List.mem_cons_of_mem _ m)) h.2
      exact ⟨by rw [h.1, h1], h2⟩

theorem split_two {a b x y : Str} {c d : UInt8} (hc : c = 44 ∨ c = 125) (hd : d = 44 ∨ d = 125)
    (ha : 44 ∉ a ∧ 125 ∉ a) (hb : 44 ∉ b ∧ 125 ∉ b) (h : a ++ c :: x = b ++ d :: y) :
    a = b ∧ c :: x = d :: y := by
  induction a generalizing b with
  | nil =>
    cases b with
    | nil => exact ⟨rfl, h⟩
    | cons e b =>
      simp at h
      exfalso
      rcases hc with rfl | rfl
      · exact hb.1 (h.1 ▸ List.mem_cons_self)
      · exact hb.2 (h.1 ▸ List.mem_cons_self)
  | cons e a ih =>
    cases b with
    | nil =>
      simp at h
      exfalso
      rcases hd with rfl | rfl
      · exact ha.1 (h.1 ▸ List.mem_cons_self)
      · exact ha.2 (h.1 ▸ List.mem_cons_self)
    | cons f b =>
      simp only [List.cons_append, List.cons.injEq] at h
      obtain ⟨h1, h2⟩ := ih ⟨fun m => ha.1 (List.mem_cons_of_mem _ m), fun m => ha.2 (List.mem_cons_of_mem _ m)⟩
        ⟨fun m => hb.1 (List.mem_cons_of_mem _ m), fun m => hb.2 (List.mem_cons_of_mem _ m)⟩ h.2
      exact ⟨by rw [h.1, h1], h2⟩

theorem nameText_split {a b x y : Str} {c d : UInt8} (hc : c = 44 ∨ c = 125) (hd : d = 44 ∨ d = 125)
    (ha : 44 ∉ a ∧ 125 ∉ a) (hb : 44 ∉ b ∧ 125 ∉ b) (h : nameText a ++ c :: x = nameText b ++ d :: y) :
    a = b ∧ c :: x = d :: y := by
  unfold nameText at h
  rw [t_colon] at h
  by_cases h1 : a = [] <;> by_cases h2 : b = []
  · subst h1; subst h2; simpa using h
  · subst h1; simp [h2] at h; exfalso; rcases hc with rfl | rfl <;> exact absurd h.1 (by decide)
  · subst h2; simp [h1] at h; exfalso; rcases hd with rfl | rfl <;> exact absurd h.1 (by decide)
  · rw [if_pos h1, if_pos h2] at h
    simp only [List.cons_append, List.cons.injEq, true_and] at h
    exact split_two hc hd ha hb h

theorem digits_split {n m : Nat} {x y : Str} (h : Decimal.digits n ++ 41 :: x = Decimal.digits m ++ 41 :: y) :
    n = m ∧ x = y := by
  have hx : ∀ k, (41 : UInt8) ∉ Decimal.digits k := fun k hk =>
    absurd ((Decimal.digits_spec k).2.1 41 hk) (by decide)
  obtain ⟨h1, h2⟩ := split_at (hx n) (hx m) h
  refine ⟨?_, h2⟩
  rw [← (Decimal.digits_spec n).2.2, ← (Decimal.digits_spec m).2.2, h1]

/-- What follows a member begins with a comma or the end of the class. -/
theorem mems_head (ms : List Mem) (x : Str) :
    ∃ c z, (c = (44 : UInt8) ∨ c = 125) ∧ printMems false ms ++ 125 :: x = c :: z := by
  cases ms with
  | nil => exact ⟨125, x, .inr rfl, by simp [printMems]⟩
  | cons m ms =>
    exact ⟨44, printMem m ++ (printMems false ms ++ 125 :: x), .inl rfl, by simp [printMems, t_comma]⟩

/-- A printed member does not begin like the end of a class. -/
theorem mem_head (m : Mem) : ∃ c z, printMem m = c :: z ∧ c ≠ 125 ∧ c ≠ 44 := by
  obtain ⟨n, t⟩ := m
  cases t <;> simp [printMem, print, t_bool, t_char, t_int, t_uint, t_float, t_string, t_stream, t_array, t_map,
    t_class]
  rename_i s k
  cases s <;> simp

mutual
theorem cancel : ∀ (r r' : Rep) (x y : Str), Clear r → Clear r' → print r ++ x = print r' ++ y →
    r = r' ∧ x = y
  | .bool, r', x, y, hc, hc', h => by
    cases r' <;> (try cases ‹Bool›) <;> simp_all [print, t_bool, t_char, t_int, t_uint, t_float, t_string, t_stream, t_array, t_map, t_class]
  | .char, r', x, y, hc, hc', h => by
    cases r' <;> (try cases ‹Bool›) <;> simp_all [print, t_bool, t_char, t_int, t_uint, t_float, t_string, t_stream, t_array, t_map, t_class]
  | .float, r', x, y, hc, hc', h => by
    cases r' <;> (try cases ‹Bool›) <;> simp_all [print, t_bool, t_char, t_int, t_uint, t_float, t_string, t_stream, t_array, t_map, t_class]
  | .str, r', x, y, hc, hc', h => by
    cases r' <;> (try cases ‹Bool›) <;> simp_all [print, t_bool, t_char, t_int, t_uint, t_float, t_string, t_stream, t_array, t_map, t_class]
  | .stream, r', x, y, hc, hc', h => by
    cases r' <;> (try cases ‹Bool›) <;> simp_all [print, t_bool, t_char, t_int, t_uint, t_float, t_string, t_stream, t_array, t_map, t_class]
  | .int s n, r', x, y, hc, hc', h => by
    cases r' with
    | int s' n' =>
      cases s <;> cases s' <;>
        simp [print, t_int, t_uint, t_open, t_close] at h
      all_goals
        obtain ⟨h1, h2⟩ := digits_split h
        exact ⟨by rw [h1], h2⟩
    | _ => cases s <;> simp [print, t_bool, t_char, t_int, t_uint, t_float, t_string, t_stream, t_array, t_map, t_class] at h
  | .arr r, r', x, y, hc, hc', h => by
    cases r' with
    | arr q =>
      simp only [print, List.append_assoc] at h
      have h := List.append_cancel_left h
      simp only [Clear] at hc hc'
      obtain ⟨h1, h2⟩ := cancel r q _ _ hc hc' h
      exact ⟨by rw [h1], List.append_cancel_left h2⟩
    | int s n => cases s <;> simp [print, t_int, t_uint, t_array] at h
    | _ => simp [print, t_bool, t_char, t_float, t_string, t_stream, t_array, t_map, t_class] at h
  | .map k v, r', x, y, hc, hc', h => by
    cases r' with
    | map k' v' =>
      simp only [print, List.append_assoc] at h
      have h := List.append_cancel_left h
      simp only [Clear] at hc hc'
      obtain ⟨h1, h2⟩ := cancel k k' _ _ hc.1 hc'.1 h
      obtain ⟨h3, h4⟩ := cancel v v' _ _ hc.2 hc'.2 (List.append_cancel_left h2)
      exact ⟨by rw [h1, h3], List.append_cancel_left h4⟩
    | int s n => cases s <;> simp [print, t_int, t_uint, t_map] at h
    | _ => simp [print, t_bool, t_char, t_float, t_string, t_stream, t_array, t_map, t_class] at h
  | .cls n ms, r', x, y, hc, hc', h => by
    cases r' with
    | cls n' ms' =>
      simp only [print, List.append_assoc] at h
      have h := List.append_cancel_left h
      simp only [Clear] at hc hc'
      rw [t_body, t_end] at h
      simp only [List.cons_append, List.nil_append] at h
      obtain ⟨h1, h2⟩ := split_at hc.1 hc'.1 h
      simp only [List.cons.injEq, true_and] at h2
      obtain ⟨h3, h4⟩ := cancelMems true ms ms' x y hc.2 hc'.2 h2
      exact ⟨by rw [h1, h3], h4⟩
    | int s n => cases s <;> simp [print, t_int, t_uint, t_class] at h
    | _ => simp [print, t_bool, t_char, t_float, t_string, t_stream, t_array, t_map, t_class] at h
theorem cancelMems : ∀ (b : Bool) (ms ms' : List Mem) (x y : Str), ClearMems ms → ClearMems ms' →
    printMems b ms ++ 125 :: x = printMems b ms' ++ 125 :: y → ms = ms' ∧ x = y
  | b, [], ms', x, y, _, _, h => by
    cases ms' with
    | nil => simpa [printMems] using h
    | cons m ms' =>
      obtain ⟨c, z, hz, hc, _⟩ := mem_head m
      cases b <;> simp [printMems, t_comma, hz] at h
      exact absurd h.1.symm hc
  | b, m :: ms, ms', x, y, hc, hc', h => by
    cases ms' with
    | nil =>
      obtain ⟨c, z, hz, hc, _⟩ := mem_head m
      cases b <;> simp [printMems, t_comma, hz] at h
      exact absurd h.1 hc
    | cons m' ms' =>
      simp only [printMems, List.append_assoc] at h
      have h := List.append_cancel_left h
      simp only [ClearMems] at hc hc'
      obtain ⟨h1, h2⟩ := cancelMem m m' _ _ hc.1 hc'.1 (mems_head ms x) (mems_head ms' y) h
      obtain ⟨h3, h4⟩ := cancelMems false ms ms' x y hc.2 hc'.2 h2
      exact ⟨by rw [h1, h3], h4⟩
theorem cancelMem : ∀ (m m' : Mem) (x y : Str), ClearMem m → ClearMem m' →
    (∃ c z, (c = (44 : UInt8) ∨ c = 125) ∧ x = c :: z) → (∃ c z, (c = (44 : UInt8) ∨ c = 125) ∧ y = c :: z) →
    printMem m ++ x = printMem m' ++ y → m = m' ∧ x = y
  | .mk n t, .mk n' t', x, y, hc, hc', hx, hy, h => by
    simp only [printMem, List.append_assoc] at h
    simp only [ClearMem] at hc hc'
    obtain ⟨h1, h2⟩ := cancel t t' _ _ hc.2 hc'.2 h
    obtain ⟨c, z, hcz, rfl⟩ := hx
    obtain ⟨d, w, hdw, rfl⟩ := hy
    obtain ⟨h3, h4⟩ := nameText_split hcz hdw hc.1 hc'.1 h2
    exact ⟨by rw [h1, h3], h4⟩
end

/-! ### Traversal -/

theorem traverseMems_eq (ms : List Mem) : traverseMems ms = (ms.map memType).flatMap traverse := by
  induction ms with
  | nil => simp [traverseMems]
  | cons m ms ih => obtain ⟨n, t⟩ := m; simp [traverseMems, traverseMem, ih, memType]

theorem traverse_eq (r : Rep) : traverse r = r :: (parts r).flatMap traverse := by
  cases r <;> simp [traverse, parts, traverseMems_eq]

mutual
theorem traverse_part : ∀ (r p : Rep), p ∈ traverse r → Part p r
  | .arr r, p, h => by
    simp only [traverse, List.mem_cons] at h
    rcases h with rfl | h
    · exact .self _
    · exact .inside _ r _ (traverse_part r p h) (by simp [parts])
  | .map k v, p, h => by
    simp only [traverse, List.mem_cons, List.mem_append] at h
    rcases h with rfl | h | h
    · exact .self _
    · exact .inside _ k _ (traverse_part k p h) (by simp [parts])
    · exact .inside _ v _ (traverse_part v p h) (by simp [parts])
  | .cls n ms, p, h => by
    simp only [traverse, List.mem_cons] at h
    rcases h with rfl | h
    · exact .self _
    · obtain ⟨q, hq, hp⟩ := traverseMems_part ms p h
      exact .inside _ q _ hp (by simpa [parts] using hq)
  | .bool, p, h => by simp only [traverse, List.mem_singleton] at h; subst h; exact .self _
  | .char, p, h => by simp only [traverse, List.mem_singleton] at h; subst h; exact .self _
  | .int _ _, p, h => by simp only [traverse, List.mem_singleton] at h; subst h; exact .self _
  | .float, p, h => by simp only [traverse, List.mem_singleton] at h; subst h; exact .self _
  | .str, p, h => by simp only [traverse, List.mem_singleton] at h; subst h; exact .self _
  | .stream, p, h => by simp only [traverse, List.mem_singleton] at h; subst h; exact .self _
theorem traverseMems_part : ∀ (ms : List Mem) (p : Rep), p ∈ traverseMems ms →
    ∃ q, q ∈ ms.map memType ∧ Part p q
  | [], p, h => by simp [traverseMems] at h
  | .mk n t :: ms, p, h => by
    simp only [traverseMems, traverseMem, List.mem_append] at h
    rcases h with h | h
    · exact ⟨t, by simp [memType], traverse_part t p h⟩
    · obtain ⟨q, hq, hp⟩ := traverseMems_part ms p h
      exact ⟨q, by simp only [List.map_cons, List.mem_cons]; exact .inr hq, hp⟩
end

theorem part_traverse {p r : Rep} (h : Part p r) : p ∈ traverse r := by
  induction h with
  | self => rw [traverse_eq]; exact List.mem_cons_self
  | inside q r _ h2 ih =>
    rw [traverse_eq r]
    exact List.mem_cons_of_mem _ (List.mem_flatMap.2 ⟨q, h2, ih⟩)

mutual
theorem traverse_length : ∀ r : Rep, (traverse r).length = size r
  | .arr r => by simp [traverse, size, traverse_length r]; omega
  | .map k v => by simp [traverse, size, traverse_length k, traverse_length v]; omega
  | .cls n ms => by simp [traverse, size, traverseMems_length ms]; omega
  | .bool => rfl
  | .char => rfl
  | .int _ _ => rfl
  | .float => rfl
  | .str => rfl
  | .stream => rfl
theorem traverseMems_length : ∀ ms : List Mem, (traverseMems ms).length = sizeMems ms
  | [] => rfl
  | .mk n t :: ms => by simp [traverseMems, traverseMem, sizeMems, sizeMem, traverse_length t, traverseMems_length ms]
end

/-! ### Wire formats -/

mutual
/-- The format that a description without floating point numbers stands for. -/
def fmt : Rep → Option Serial.Ty
  | .bool => some .bool
  | .char => some (.prim 1 true)
  | .int s n => some (.prim n s)
  | .float => none
  | .str => some .str
  | .stream => none
  | .arr t => (fmt t).map .vec
  | .map k v => (fmt k).bind fun a => (fmt v).map fun b => .map a b
  | .cls _ ms => fmtMems ms
def fmtMems : List Mem → Option Serial.Ty
  | [] => some (.arr 0 .bool)
  | .mk _ t :: ms => (fmt t).bind fun a => (fmtMems ms).map fun b => .pair a b
end

mutual
theorem wire_fmt : ∀ t : Ty, NoFloat t → wire t = fmt (desc t)
  | .bool, _ => rfl
  | .char, _ => rfl
  | .int _ _, _ => rfl
  | .float _, h => by simp [NoFloat] at h
  | .str, _ => rfl
  | .stream, _ => rfl
  | .vec t, h => by simp only [NoFloat] at h; simp [wire, desc, fmt, wire_fmt t h]
  | .map k v, h => by simp only [NoFloat] at h; simp [wire, desc, fmt, wire_fmt k h.1, wire_fmt v h.2]
  | .cls body, h => by simp only [NoFloat] at h; simp [wire, desc, fmt, wireBody_fmt body h]
theorem wireBody_fmt : ∀ as : List Act, NoFloatBody as → wireBody as = fmtMems (descBody as)
  | [], _ => rfl
  | .name _ :: as, h => by simp only [NoFloatBody] at h; simp [wireBody, descBody, wireBody_fmt as h]
  | .member _ t :: as, h => by
    simp only [NoFloatBody] at h
    simp [wireBody, descBody, fmtMems, wire_fmt t h.1, wireBody_fmt as h.2]
  | .plain t :: as, h => by
    simp only [NoFloatBody] at h
    simp [wireBody, descBody, fmtMems, wire_fmt t h.1, wireBody_fmt as h.2]
end

/-! ### Interfaces -/

theorem foldl_extract (args : List Ty) (l : List Rep) :
    args.foldl (fun acc t => acc.bind fun l => (getType t).map fun a => l ++ [a]) (some l) =
      some (l ++ args.map desc) := by
  induction args generalizing l with
  | nil => simp
  | cons t args ih =>
    rw [List.foldl_cons, getType_eq]
    simp only [Option.bind_some, Option.map_some, ih, List.map_cons, List.append_assoc, List.singleton_append]

theorem extract_eq (ret : Ty) (args : List Ty) : extract ret args = some (desc ret, args.map desc) := by
  rw [extract, getType_eq, foldl_extract]; rfl

/-- The entry of a method. -/
def entry (p : Str × Ty × List Ty) : Str × Rep × List Rep := (p.1, desc p.2.1, p.2.2.map desc)

theorem procCtors_eq (ps : List (Str × Ty × List Ty)) (b : Base) (hn : (ps.map (·.1)).Nodup)
    (hd : ∀ n ∈ ps.map (·.1), n ∉ b.mem.map (·.1)) :
    ∃ mem, procCtors ps b = some { b with mem := mem } ∧ mem.Perm (ps.map entry ++ b.mem) := by
  induction ps generalizing b with
  | nil => exact ⟨b.mem, by simp [procCtors], by simp⟩
  | cons p ps ih =>
    simp only [List.map_cons, List.nodup_cons] at hn
    have hp : p.1 ∉ b.mem.map (·.1) := hd p.1 (by simp)
    have he : AssocMap.upsert b.mem p.1 (desc p.2.1, p.2.2.map desc) = entry p :: b.mem := by
      simp [AssocMap.upsert, AssocMap.erase_of_not_mem hp, entry]
    obtain ⟨mem, h1, h2⟩ := ih { b with mem := entry p :: b.mem } hn.2 (by
      intro n hin
      simp only [List.map_cons, List.mem_cons, not_or]
      refine ⟨fun e => hn.1 (e ▸ hin), hd n ?_⟩
      simp only [List.map_cons, List.mem_cons]; exact .inr hin)
    refine ⟨mem, ?_, h2.trans ?_⟩
    · simp [procCtors, procCtor, extract_eq, he, h1]
    · simp only [List.map_cons, List.cons_append]
      exact List.perm_middle

end Verif.Reflect.Lemmas
