import Verif.JsonCast.Spec
import Verif.JsonEq.Lemmas
/-! Auxiliary lemmas on the JSON conversions (no claims). -/

set_option linter.unusedSectionVars false

namespace Verif.JsonCast.Lemmas
open Verif.Json Verif.JsonCast Verif.JsonCast.Spec Verif.AssocMap Verif.JsonEq.Lemmas

variable {F : Type} [Floats F]

theorem bind_some_id {α : Type} (o : Option α) : (o.bind fun x => some x) = o := by cases o <;> rfl

theorem toInt32_id {n : Int} (h : - 2 ^ 31 ≤ n ∧ n < 2 ^ 31) : toInt32 n = n := by
  unfold toInt32
  rw [Int.bmod_eq_of_le] <;> omega

theorem each_map {α β : Type} (f : β → Option α) (g : α → β) (xs : List α) (h : ∀ x ∈ xs, f (g x) = some x) :
    each f (xs.map g) = some xs := by
  induction xs with
  | nil => rfl
  | cons x xs ih =>
    rw [List.map_cons, each, h x (by simp), ih (fun y hy => h y (by simp [hy]))]
    rfl

theorem foldl_add_append (xs : List (Str × Value F)) (r : List (Str × Value F)) (h : ((r ++ xs).map (·.1)).Nodup) :
    xs.foldl (fun ms m => addMember ms m.1 m.2) r = r ++ xs := by
  induction xs generalizing r with
  | nil => simp
  | cons m xs ih =>
    have hm : addMember r m.1 m.2 = r ++ [m] := by
      unfold addMember
      rw [List.filter_eq_self.mpr]
      intro a ha
      simp only [ne_eq, decide_not, Bool.not_eq_eq_eq_not, Bool.not_true, decide_eq_false_iff_not]
      intro e
      rw [List.map_append, List.nodup_append] at h
      exact h.2.2 a.1 (List.mem_map_of_mem (f := (·.1)) ha) m.1 (by simp) e
    rw [List.foldl_cons, hm, ih _ (by simpa using h)]
    simp

theorem toJson_map (t : Ty) (xs : List (Str × Val F t)) (h : (xs.map (·.1)).Nodup) :
    toJson (.map t) xs = .obj (xs.map (fun m => (m.1, toJson t m.2))) := by
  have e : xs.foldl (fun ms m => addMember ms m.1 (toJson t m.2)) [] =
      (xs.map (fun m => (m.1, toJson t m.2))).foldl (fun ms m => addMember ms m.1 m.2) [] := by rw [List.foldl_map]
  have e2 : xs.foldl (fun ms m => addMember ms m.1 (toJson t m.2)) [] = xs.map (fun m => (m.1, toJson t m.2)) := by
    rw [e, foldl_add_append _ _ (by simpa [Function.comp_def] using h)]; rfl
  rw [toJson, ← e2]

theorem toJson_ne_null (t : Ty) (x : Val F t) (h : ¬ Nullable t) : toJson t x ≠ .null := by
  cases t <;> simp [Nullable] at h <;> rw [toJson] <;> exact nofun

theorem find_addFields (fs : Fields) (x : Vals F fs) (ms : List (Str × Value F)) (n : Str) (h : n ∉ names fs) :
    find (addFields fs x ms) n = find ms n := by
  induction fs using names.induct generalizing ms with
  | case1 => rfl
  | case2 n' t fs ih =>
    rw [names, List.mem_cons, not_or] at h
    rw [addFields, ih _ _ h.2, find_addMember, if_neg h.1]

theorem find_addFields_cons (n : Str) (t : Ty) (fs : Fields) (x : Vals F (.cons n t fs)) (ms : List (Str × Value F))
    (h : (names (.cons n t fs)).Nodup) : find (addFields (.cons n t fs) x ms) n = some (toJson t x.1) := by
  rw [names, List.nodup_cons] at h
  rw [addFields, find_addFields _ _ _ _ h.1, find_addMember, if_pos rfl]

/-- `obj` holds what the members of the class are written as. -/
def Holds (ms : List (Str × Value F)) : (fs : Fields) → Vals F fs → Prop
  | .nil => fun _ => True
  | .cons n t fs => fun x => find ms n = some (toJson t x.1) ∧ Holds ms fs x.2

theorem holds_addFields (fs : Fields) (x : Vals F fs) (ms : List (Str × Value F)) (h : (names fs).Nodup) :
    Holds (addFields fs x ms) fs x := by
  induction fs using names.induct generalizing ms with
  | case1 => trivial
  | case2 n t fs ih =>
    refine ⟨find_addFields_cons n t fs x ms h, ?_⟩
    rw [names, List.nodup_cons] at h
    rw [addFields]
    exact ih _ _ h.2

mutual
theorem roundtrip (toF : Int → F) : (t : Ty) → (x : Val F t) → Good t x → fromJson toF t (toJson t x) = some x
  | .int, x, h => by
    rw [Good] at h
    simp [toJson, fromJson, toInt32_id h]
  | .long, x, _ => by simp [toJson, fromJson]
  | .flt, x, h => by simp only [Good] at h; simp [toJson, fromJson, h]
  | .dbl, x, _ => by simp [toJson, fromJson]
  | .bool, x, _ => by simp [toJson, fromJson]
  | .str, x, _ => by simp [toJson, fromJson]
  | .json, x, _ => by simp [toJson, fromJson]
  | .vec t, xs, h => by
    rw [Good] at h
    simp only [toJson, fromJson]
    exact each_map _ _ xs (fun x hx => roundtrip toF t x (h x hx))
  | .map t, xs, h => by
    rw [Good] at h
    rw [toJson_map t xs h.1]
    simp only [fromJson]
    refine each_map (fun m => (fromJson toF t m.2).map (fun x => (m.1, x))) (fun m => (m.1, toJson t m.2)) xs ?_
    intro m hm
    simp only
    rw [roundtrip toF t m.2 (h.2 m hm)]
    rfl
  | .opt t, none, _ => by simp [toJson, fromJson]
  | .opt t, some y, h => by
    simp only [Good] at h
    simp only [toJson, fromJson]
    have := toJson_ne_null t y h.1
    split
    · rename_i e; exact absurd e this
    · rename_i v hv
      rw [roundtrip toF t y h.2]; rfl
  | .cls fs, x, h => by
    rw [Good] at h
    simp only [toJson, fromJson]
    exact roundtrips toF fs x h.2 (addFields fs x []) (holds_addFields fs x [] h.1)
theorem roundtrips (toF : Int → F) : (fs : Fields) → (x : Vals F fs) → Goods fs x → (ms : List (Str × Value F)) → Holds ms fs x →
    fromFields toF fs (.obj ms) = some x
  | .nil, _, _, _, _ => by simp [fromFields]
  | .cons n t fs, x, h, ms, hm => by
    rw [Goods] at h
    rw [Holds] at hm
    simp only [fromFields, hm.1]
    rw [roundtrip toF t x.1 h.1]
    simp only
    rw [roundtrips toF fs x.2 h.2 ms hm.2]
    rfl
end

theorem missing_some (t : Ty) (x : Val F t) : missing t = some x ↔ Absent t x := by
  cases t with
  | opt t =>
    simp only [missing, Option.some.injEq, Absent]
    exact ⟨fun h => h.symm, fun h => h.symm⟩
  | _ => simp [missing, Absent]

theorem fromFields_iff (toF : Int → F) (ms : List (Str × Value F)) (hn : (ms.map (·.1)).Nodup) (fs : Fields) (x : Vals F fs) :
    fromFields toF fs (.obj ms) = some x ↔ Reads (fromJson toF) ms fs x := by
  induction fs using names.induct with
  | case1 => simp [fromFields, Reads]
  | case2 n t fs ih =>
    obtain ⟨a, b⟩ := x
    simp only [fromFields, Reads]
    rw [← ih b]
    cases hf : find ms n with
    | none =>
      have hni := find_eq_none_iff.mp hf
      simp only
      have h1 : ∀ v, (n, v) ∈ ms → fromJson toF t v = some a := fun v hv => absurd (List.mem_map_of_mem (f := (·.1)) hv) hni
      constructor
      · intro h
        cases hm : (missing t : Option (Val F t)) with
        | none => rw [hm] at h; cases h
        | some y =>
          rw [hm] at h
          simp only [Option.map_eq_some_iff, Prod.mk.injEq] at h
          obtain ⟨r, h2, rfl, rfl⟩ := h
          exact ⟨h1, fun _ => (missing_some t y).mp hm, h2⟩
      · rintro ⟨_, h2, h3⟩
        rw [(missing_some t a).mpr (h2 hni), h3]
        rfl
    | some v =>
      have hmem := (find_eq_some_iff hn).mp hf
      simp only
      constructor
      · intro h
        cases hm : fromJson toF t v with
        | none => rw [hm] at h; cases h
        | some y =>
          rw [hm] at h
          simp only [Option.map_eq_some_iff, Prod.mk.injEq] at h
          obtain ⟨r, h2, rfl, rfl⟩ := h
          refine ⟨?_, fun h => absurd (List.mem_map_of_mem (f := (·.1)) hmem) h, h2⟩
          intro v' hv'
          have := (find_eq_some_iff hn).mpr hv'
          rw [hf] at this
          simp only [Option.some.injEq] at this
          rw [← this, hm]
      · rintro ⟨h1, _, h3⟩
        rw [h1 v hmem, h3]
        rfl

/-! With defaults. -/

mutual
theorem freeze_thaw : (t : Ty) → (x : Val F t) → freeze t (thaw t x) = some x
  | .int, _ => by simp [freeze, thaw]
  | .long, _ => by simp [freeze, thaw]
  | .flt, _ => by simp [freeze, thaw]
  | .dbl, _ => by simp [freeze, thaw]
  | .bool, _ => by simp [freeze, thaw]
  | .str, _ => by simp [freeze, thaw]
  | .json, _ => by simp [freeze, thaw]
  | .vec _, _ => by simp [freeze, thaw]
  | .map _, _ => by simp [freeze, thaw]
  | .opt _, _ => by simp [freeze, thaw]
  | .cls fs, x => by rw [freeze, thaw]; exact freezes_thaws fs x
theorem freezes_thaws : (fs : Fields) → (x : Vals F fs) → freezes fs (thaws fs x) = some x
  | .nil, _ => by simp [freezes]
  | .cons n t fs, x => by
    simp only [freezes, thaws]
    rw [freeze_thaw t x.1]
    simp only
    rw [freezes_thaws fs x.2]
    rfl
end

theorem zipD_total {α : Type} (f : Value F → α → Option α) (z : α) (h : ∀ j x, ∃ y, f j x = some y) (js : List (Value F)) (xs : List α) :
    ∃ ys, zipD f z js xs = some ys := by
  induction js generalizing xs with
  | nil => exact ⟨xs, by simp [zipD]⟩
  | cons j js ih =>
    cases xs with
    | nil =>
      obtain ⟨y, hy⟩ := h j z
      obtain ⟨ys, hys⟩ := ih []
      exact ⟨y :: ys, by simp [zipD, hy, hys]⟩
    | cons x xs =>
      obtain ⟨y, hy⟩ := h j x
      obtain ⟨ys, hys⟩ := ih xs
      exact ⟨y :: ys, by simp [zipD, hy, hys]⟩

theorem foldD_total {α : Type} (f : Value F → α → Option α) (z : α) (h : ∀ j x, ∃ y, f j x = some y) (ms : List (Str × Value F))
    (xs : List (Str × α)) : ∃ ys, foldD f z ms xs = some ys := by
  induction ms generalizing xs with
  | nil => exact ⟨xs, by simp [foldD]⟩
  | cons m ms ih =>
    obtain ⟨k, j⟩ := m
    obtain ⟨y, hy⟩ := h j ((find xs k).getD z)
    obtain ⟨ys, hys⟩ := ih (put xs k y)
    exact ⟨ys, by simp [foldD, hy, hys]⟩

mutual
theorem fromD_total (toF : Int → F) : (t : Ty) → Plain t → (js : Value F) → (x : Val F t) → ∃ y, fromD toF t js (thaw t x) = some (thaw t y)
  | .int, _, js, x => by
    cases js with
    | int n => exact ⟨toInt32 n, by simp [fromD, thaw]⟩
    | _ => exact ⟨x, by simp [fromD, thaw]⟩
  | .long, _, js, x => by
    cases js with
    | int n => exact ⟨n, by simp [fromD, thaw]⟩
    | _ => exact ⟨x, by simp [fromD, thaw]⟩
  | .flt, _, js, x => by
    cases js with
    | int n => exact ⟨Floats.ofInt n, by simp [fromD, thaw]⟩
    | flt y => exact ⟨Floats.narrow y, by simp [fromD, thaw]⟩
    | _ => exact ⟨x, by simp [fromD, thaw]⟩
  | .dbl, _, js, x => by
    cases js with
    | int n => exact ⟨toF n, by simp [fromD, thaw]⟩
    | flt y => exact ⟨y, by simp [fromD, thaw]⟩
    | _ => exact ⟨x, by simp [fromD, thaw]⟩
  | .bool, _, js, x => by
    cases js with
    | bool y => exact ⟨y, by simp [fromD, thaw]⟩
    | _ => exact ⟨x, by simp [fromD, thaw]⟩
  | .str, _, js, x => by
    cases js with
    | str y => exact ⟨y, by simp [fromD, thaw]⟩
    | _ => exact ⟨x, by simp [fromD, thaw]⟩
  | .json, _, js, x => ⟨js, by simp [fromD, thaw]⟩
  | .vec t, h, js, x => by
    rw [Plain] at h
    cases js with
    | arr vs =>
      obtain ⟨ys, hys⟩ := zipD_total (fun j x => (fromD toF t j (thaw t x)).bind (freeze t)) (zero toF t) (fun j x => by
        obtain ⟨y, hy⟩ := fromD_total toF t h j x
        exact ⟨y, by rw [hy]; exact freeze_thaw t y⟩) vs x
      exact ⟨ys, by simp only [fromD, thaw]; exact hys⟩
    | _ => exact ⟨x, by simp [fromD, thaw]⟩
  | .map t, h, js, x => by
    rw [Plain] at h
    cases js with
    | obj ms =>
      obtain ⟨ys, hys⟩ := foldD_total (fun j x => (fromD toF t j (thaw t x)).bind (freeze t)) (zero toF t) (fun j x => by
        obtain ⟨y, hy⟩ := fromD_total toF t h j x
        exact ⟨y, by rw [hy]; exact freeze_thaw t y⟩) ms x
      exact ⟨ys, by simp only [fromD, thaw]; exact hys⟩
    | _ => exact ⟨x, by simp [fromD, thaw]⟩
  | .opt t, h, _, _ => by rw [Plain] at h; exact h.elim
  | .cls fs, h, js, x => by
    rw [Plain] at h
    rw [fromD, thaw]
    exact fieldsD_total toF fs h js x
theorem fieldsD_total (toF : Int → F) : (fs : Fields) → Plains fs → (js : Value F) → (x : Vals F fs) →
    ∃ y, fieldsD toF fs js (thaws fs x) = some (thaws fs y)
  | .nil, _, _, _ => ⟨(), by simp [fieldsD]⟩
  | .cons n t fs, h, js, x => by
    rw [Plains] at h
    obtain ⟨b, hb⟩ := fieldsD_total toF fs h.2 js x.2
    have ha : ∃ a, memberD (fromD toF t) js n (thaw t x.1) = some (thaw t a) := by
      unfold memberD
      cases js with
      | obj ms =>
        simp only
        cases find ms n with
        | none => exact ⟨x.1, rfl⟩
        | some v => exact fromD_total toF t h.1 v x.1
      | _ => exact ⟨x.1, rfl⟩
    obtain ⟨a, ha⟩ := ha
    refine ⟨(a, b), ?_⟩
    simp only [fieldsD, thaws]
    rw [ha, Option.bind_some, hb]
    rfl
end

theorem zipD_new {α : Type} (f : Value F → α → Option α) (z : α) (g : α → Value F) (xs : List α) (h : ∀ x ∈ xs, f (g x) z = some x) :
    zipD f z (xs.map g) [] = some xs := by
  induction xs with
  | nil => simp [zipD]
  | cons x xs ih =>
    rw [List.map_cons, zipD, h x (by simp), ih (fun y hy => h y (by simp [hy]))]
    rfl

theorem foldD_new {α : Type} (f : Value F → α → Option α) (z : α) (g : α → Value F) (xs r : List (Str × α))
    (hn : ((r ++ xs).map (·.1)).Nodup) (h : ∀ m ∈ xs, f (g m.2) z = some m.2) :
    foldD f z (xs.map (fun m => (m.1, g m.2))) r = some (r ++ xs) := by
  induction xs generalizing r with
  | nil => simp [foldD]
  | cons m xs ih =>
    have hni : m.1 ∉ r.map (·.1) := by
      intro hm
      rw [List.map_append, List.nodup_append] at hn
      exact hn.2.2 m.1 hm m.1 (by simp) rfl
    have hf : find r m.1 = none := find_eq_none_iff.mpr hni
    have hp : put r m.1 m.2 = r ++ [m] := by
      unfold put
      rw [List.filter_eq_self.mpr]
      intro a ha
      simp only [ne_eq, decide_not, Bool.not_eq_eq_eq_not, Bool.not_true, decide_eq_false_iff_not]
      intro e
      exact hni (e ▸ List.mem_map_of_mem (f := (·.1)) ha)
    rw [List.map_cons, foldD, hf, Option.getD_none, h m (by simp)]
    simp only
    rw [hp, ih _ (by simpa using hn) (fun m' hm' => h m' (List.mem_cons_of_mem _ hm'))]
    simp

mutual
theorem roundtripD (toF : Int → F) : (t : Ty) → Plain t → (x : Val F t) → Good t x →
    fromD toF t (toJson t x) (thaw t (zero toF t)) = some (thaw t x)
  | .int, _, x, h => by
    rw [Good] at h
    simp [toJson, fromD, thaw, toInt32_id h]
  | .long, _, x, _ => by simp [toJson, fromD, thaw]
  | .flt, _, x, h => by simp only [Good] at h; simp [toJson, fromD, thaw, h]
  | .dbl, _, x, _ => by simp [toJson, fromD, thaw]
  | .bool, _, x, _ => by simp [toJson, fromD, thaw]
  | .str, _, x, _ => by simp [toJson, fromD, thaw]
  | .json, _, x, _ => by simp [toJson, fromD, thaw]
  | .vec t, hp, xs, h => by
    rw [Good] at h
    rw [Plain] at hp
    simp only [toJson, fromD, thaw, zero]
    refine zipD_new _ _ _ xs (fun x hx => ?_)
    rw [roundtripD toF t hp x (h x hx)]
    exact freeze_thaw t x
  | .map t, hp, xs, h => by
    rw [Good] at h
    rw [Plain] at hp
    rw [toJson_map t xs h.1]
    simp only [fromD, thaw, zero]
    refine foldD_new _ _ _ xs [] (by simpa using h.1) ?_
    intro m hm
    rw [roundtripD toF t hp m.2 (h.2 m hm)]
    exact freeze_thaw t m.2
  | .opt t, hp, _, _ => by rw [Plain] at hp; exact hp.elim
  | .cls fs, hp, x, h => by
    rw [Good] at h
    rw [Plain] at hp
    simp only [toJson, fromD, thaw, zero]
    exact roundtripsD toF fs hp x h.2 (addFields fs x []) (holds_addFields fs x [] h.1)
theorem roundtripsD (toF : Int → F) : (fs : Fields) → Plains fs → (x : Vals F fs) → Goods fs x → (ms : List (Str × Value F)) →
    Holds ms fs x → fieldsD toF fs (.obj ms) (thaws fs (zeros toF fs)) = some (thaws fs x)
  | .nil, _, _, _, _, _ => by simp [fieldsD]
  | .cons n t fs, hp, x, h, ms, hm => by
    rw [Goods] at h
    rw [Plains] at hp
    rw [Holds] at hm
    simp only [fieldsD, thaws, zeros, memberD, hm.1]
    rw [roundtripD toF t hp.1 x.1 h.1, Option.bind_some, roundtripsD toF fs hp.2 x.2 h.2 ms hm.2]
    rfl
end

theorem fieldsD_iff (toF : Int → F) (ms : List (Str × Value F)) (hn : (ms.map (·.1)).Nodup) (fs : Fields) (d x : Vals F fs) :
    (fieldsD toF fs (.obj ms) (thaws fs d)).bind (freezes fs) = some x ↔ ReadsD (castD toF) ms fs d x := by
  induction fs using names.induct with
  | case1 => simp [fieldsD, freezes, ReadsD]
  | case2 n t fs ih =>
    obtain ⟨a, b⟩ := x
    obtain ⟨d1, d2⟩ := d
    simp only [fieldsD, thaws, ReadsD]
    rw [← ih d2 b]
    have key : ∀ o : Option (Mem F t), ((o.bind (fun y => (fieldsD toF fs (.obj ms) (thaws fs d2)).map (fun r => (y, r)))).bind (freezes (.cons n t fs)) = some (a, b) ↔
        o.bind (freeze t) = some a ∧ (fieldsD toF fs (.obj ms) (thaws fs d2)).bind (freezes fs) = some b) := by
      intro o
      cases o with
      | none => simp
      | some y =>
        cases hr : fieldsD toF fs (.obj ms) (thaws fs d2) with
        | none => simp
        | some r =>
          simp only [Option.map_some, Option.bind_some, freezes]
          cases freeze t y with
          | none => simp
          | some a' =>
            simp only [Option.map_eq_some_iff, Prod.mk.injEq, Option.some.injEq]
            constructor
            · rintro ⟨r', h1, h2, h3⟩; exact ⟨h2, h3 ▸ h1⟩
            · rintro ⟨h1, h2⟩; exact ⟨b, h2, h1, rfl⟩
    rw [key]
    cases hf : find ms n with
    | none =>
      have hni := find_eq_none_iff.mp hf
      have e : memberD (fromD toF t) (.obj ms) n (thaw t d1) = some (thaw t d1) := by simp only [memberD, hf]
      rw [e, Option.bind_some, freeze_thaw]
      simp only [Option.some.injEq]
      constructor
      · rintro ⟨h1, h2⟩
        exact ⟨fun v hv => absurd (List.mem_map_of_mem (f := (·.1)) hv) hni, fun _ => h1.symm, h2⟩
      · rintro ⟨_, h1, h2⟩
        exact ⟨(h1 hni).symm, h2⟩
    | some v =>
      have hmem := (find_eq_some_iff hn).mp hf
      have e : memberD (fromD toF t) (.obj ms) n (thaw t d1) = fromD toF t v (thaw t d1) := by simp only [memberD, hf]
      rw [e]
      constructor
      · rintro ⟨h1, h2⟩
        refine ⟨?_, fun h => absurd (List.mem_map_of_mem (f := (·.1)) hmem) h, h2⟩
        intro v' hv'
        have := (find_eq_some_iff hn).mpr hv'
        rw [hf] at this
        simp only [Option.some.injEq] at this
        rw [castD, ← this]
        exact h1
      · rintro ⟨h1, _, h2⟩
        exact ⟨h1 v hmem, h2⟩

theorem fieldsD_other (toF : Int → F) (js : Value F) (hj : ∀ ms, js ≠ .obj ms) (fs : Fields) (m : Mems F fs) :
    fieldsD toF fs js m = some m := by
  induction fs using names.induct with
  | case1 => simp [fieldsD]
  | case2 n t fs ih =>
    obtain ⟨a, b⟩ := m
    cases js with
    | obj ms => exact absurd rfl (hj ms)
    | _ => simp only [fieldsD, memberD]; rw [Option.bind_some, ih b]; rfl

theorem each_iff {α β : Type} (f : α → Option β) (vs : List α) (xs : List β) :
    each f vs = some xs ↔ vs.length = xs.length ∧ ∀ (i : Nat) v x, vs[i]? = some v → xs[i]? = some x → f v = some x := by
  induction vs generalizing xs with
  | nil =>
    simp only [each, Option.some.injEq, List.length_nil]
    constructor
    · rintro rfl; simp
    · rintro ⟨h, _⟩; exact (List.length_eq_zero_iff.mp h.symm).symm
  | cons v vs ih =>
    cases xs with
    | nil =>
      simp only [each, List.length_cons, List.length_nil, Nat.add_one_ne_zero, false_and, iff_false]
      cases f v <;> simp
    | cons x xs =>
      rw [each]
      constructor
      · intro h
        cases hf : f v with
        | none => rw [hf] at h; cases h
        | some y =>
          rw [hf] at h
          simp only [Option.map_eq_some_iff, List.cons.injEq] at h
          obtain ⟨ys, h1, rfl, rfl⟩ := h
          obtain ⟨h2, h3⟩ := (ih ys).mp h1
          refine ⟨by simp [h2], fun i a b ha hb => ?_⟩
          cases i with
          | zero =>
            simp only [List.getElem?_cons_zero, Option.some.injEq] at ha hb
            rw [← ha, ← hb, hf]
          | succ i => exact h3 i a b (by simpa using ha) (by simpa using hb)
      · rintro ⟨h1, h2⟩
        rw [h2 0 v x rfl rfl]
        simp only
        rw [(ih xs).mpr ⟨by simpa using h1, fun i a b ha hb => h2 (i + 1) a b (by simpa using ha) (by simpa using hb)⟩]
        rfl

theorem eachMember_iff {α β κ : Type} (f : α → Option β) (ms : List (κ × α)) (xs : List (κ × β)) :
    each (fun m => (f m.2).map (fun x => (m.1, x))) ms = some xs ↔
      ms.map (·.1) = xs.map (·.1) ∧ ∀ (i : Nat) v x, ms[i]? = some v → xs[i]? = some x → f v.2 = some x.2 := by
  rw [each_iff]
  constructor
  · rintro ⟨h1, h2⟩
    refine ⟨List.ext_getElem? (fun i => ?_), fun i v x hv hx => ?_⟩
    · rw [List.getElem?_map, List.getElem?_map]
      cases hv : ms[i]? with
      | none =>
        have : xs[i]? = none := by rw [List.getElem?_eq_none_iff] at hv ⊢; omega
        rw [this]; rfl
      | some v =>
        have hi := (List.getElem?_eq_some_iff.mp hv).1
        have hx : xs[i]? = some (xs[i]'(by omega)) := List.getElem?_eq_getElem _
        have := h2 i v _ hv hx
        simp only [Option.map_eq_some_iff] at this
        obtain ⟨y, _, h4⟩ := this
        rw [hx, ← h4]; rfl
    · have := h2 i v x hv hx
      simp only [Option.map_eq_some_iff] at this
      obtain ⟨y, h3, rfl⟩ := this
      exact h3
  · rintro ⟨h1, h2⟩
    refine ⟨by simpa using congrArg List.length h1, fun i v x hv hx => ?_⟩
    rw [h2 i v x hv hx]
    have := congrArg (·[i]?) h1
    simp only [List.getElem?_map, hv, hx, Option.map_some, Option.some.injEq] at this
    simp [this]

theorem fromFields_missing (toF : Int → F) (n : Str) (t : Ty) (fs : Fields) (js : Value F) (ht : ∀ t', t ≠ .opt t')
    (h : ∀ ms, js = .obj ms → n ∉ ms.map (·.1)) : fromFields toF (.cons n t fs) js = none := by
  cases js with
  | obj ms =>
    have hf : find ms n = none := find_eq_none_iff.mpr (h ms rfl)
    simp only [fromFields, hf]
    cases t with
    | opt t => exact absurd rfl (ht t)
    | _ => rfl
  | _ => simp [fromFields]

theorem toInt32_range (n : Int) : - 2 ^ 31 ≤ toInt32 n ∧ toInt32 n < 2 ^ 31 ∧ (2 ^ 32 : Int) ∣ toInt32 n - n := by
  unfold toInt32
  refine ⟨?_, ?_, ?_⟩
  · have := Int.le_bmod (x := n) (m := 2 ^ 32) (by decide); omega
  · have := Int.bmod_lt (x := n) (m := 2 ^ 32) (by decide); omega
  · exact Int.dvd_bmod_sub_self

theorem zipD_iff {α : Type} (f : Value F → α → Option α) (z : α) (vs : List (Value F)) (d xs : List α) :
    zipD f z vs d = some xs ↔ xs.length = max vs.length d.length ∧
      (∀ (i : Nat) v x, vs[i]? = some v → xs[i]? = some x → f v (d[i]?.getD z) = some x) ∧ xs.drop vs.length = d.drop vs.length := by
  induction vs generalizing d xs with
  | nil =>
    simp only [zipD, Option.some.injEq, List.length_nil, List.drop_zero]
    constructor
    · rintro rfl; simp
    · rintro ⟨_, _, h⟩; exact h.symm
  | cons v vs ih =>
    have key : zipD f z (v :: vs) d = (match f v (d[0]?.getD z) with
      | none => none
      | some y => (zipD f z vs d.tail).map (y :: ·)) := by
      cases d with
      | nil => simp only [zipD, List.getElem?_nil, Option.getD_none, List.tail_nil]; cases f v z <;> rfl
      | cons x d => simp only [zipD, List.getElem?_cons_zero, Option.getD_some, List.tail_cons]; cases f v x <;> rfl
    have hlen : (d.tail).length = d.length - 1 := by simp
    rw [key]
    constructor
    · intro h
      cases hf : f v (d[0]?.getD z) with
      | none => rw [hf] at h; cases h
      | some y =>
        rw [hf] at h
        simp only [Option.map_eq_some_iff] at h
        obtain ⟨ys, h1, rfl⟩ := h
        obtain ⟨h2, h3, h4⟩ := (ih d.tail ys).mp h1
        refine ⟨by simp only [List.length_cons]; omega, ?_, ?_⟩
        · intro i a b ha hb
          cases i with
          | zero =>
            simp only [List.getElem?_cons_zero, Option.some.injEq] at ha hb
            rw [← ha, ← hb, hf]
          | succ i =>
            have := h3 i a b (by simpa using ha) (by simpa using hb)
            rw [List.getElem?_tail] at this
            exact this
        · rw [List.length_cons, List.drop_succ_cons, h4]
          simp
    · rintro ⟨h1, h2, h3⟩
      cases xs with
      | nil => simp only [List.length_nil, List.length_cons] at h1; omega
      | cons x xs =>
        rw [h2 0 v x rfl rfl]
        simp only
        rw [(ih d.tail xs).mpr ⟨by simp only [List.length_cons] at h1; omega, ?_, ?_⟩]
        · rfl
        · intro i a b ha hb
          rw [List.getElem?_tail]
          exact h2 (i + 1) a b (by simpa using ha) (by simpa using hb)
        · rw [List.length_cons, List.drop_succ_cons] at h3
          rw [h3]; simp

theorem find_put {α : Type} (ms : List (Str × α)) (k : Str) (x : α) (k' : Str) :
    find (put ms k x) k' = if k' = k then some x else find ms k' := by
  unfold put find
  rw [List.find?_append, List.find?_filter]
  by_cases h : k' = k
  · subst h
    rw [if_pos rfl]
    have : List.find? (fun _ : Str × α => false) ms = none := by rw [List.find?_eq_none]; simp
    simp [this]
  · rw [if_neg h]
    have e : (fun a : Str × α => decide (decide (a.1 ≠ k) = true ∧ decide (a.1 = k') = true)) = fun a => decide (a.1 = k') := by
      funext a
      by_cases ha : a.1 = k'
      · simp [ha, h]
      · simp [ha]
    rw [e]
    have e2 : List.find? (fun a : Str × α => decide (a.1 = k')) [(k, x)] = none := by
      simp; exact fun hh => h hh.symm
    rw [e2, Option.or_none]

theorem foldD_find {α : Type} (f : Value F → α → Option α) (z : α) (ms : List (Str × Value F)) (hn : (ms.map (·.1)).Nodup)
    (d xs : List (Str × α)) (h : foldD f z ms d = some xs) (k : Str) :
    (∀ v, (k, v) ∈ ms → ∃ x, find xs k = some x ∧ f v ((find d k).getD z) = some x) ∧ (k ∉ ms.map (·.1) → find xs k = find d k) := by
  induction ms generalizing d with
  | nil =>
    simp only [foldD, Option.some.injEq] at h
    subst h
    simp
  | cons m ms ih =>
    obtain ⟨k', j⟩ := m
    simp only [List.map_cons, List.nodup_cons] at hn
    rw [foldD] at h
    cases hf : f j ((find d k').getD z) with
    | none => rw [hf] at h; cases h
    | some y =>
      rw [hf] at h
      obtain ⟨h1, h2⟩ := ih hn.2 _ h
      by_cases hk : k = k'
      · subst hk
        refine ⟨?_, fun h => absurd (by simp) h⟩
        intro v hv
        have hv2 : v = j := by
          rcases List.mem_cons.mp hv with e | e
          · exact (Prod.mk.inj e).2
          · exact absurd (List.mem_map_of_mem (f := (·.1)) e) hn.1
        subst hv2
        exact ⟨y, by rw [h2 hn.1, find_put, if_pos rfl], hf⟩
      · have e : find (put d k' y) k = find d k := by rw [find_put, if_neg hk]
        rw [e] at h1 h2
        refine ⟨?_, fun hni => h2 (fun hm => hni (by simp [hm]))⟩
        intro v hv
        rcases List.mem_cons.mp hv with e' | e'
        · exact absurd (Prod.mk.inj e').1 hk
        · exact h1 v e'

end Verif.JsonCast.Lemmas
