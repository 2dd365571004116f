import Verif.JsonEq.Model
import Verif.JsonEq.Spec
import Verif.Json.Spec
/-! Auxiliary lemmas on equality and merging (no claims). -/

namespace Verif.JsonEq.Lemmas
open Verif.Json Verif.JsonEq Verif.JsonEq.Spec Verif.AssocMap

variable {F : Type}

theorem keys_eq {ms ns : List (Str × Value F)} (h1 : (ms.map (·.1)).Nodup) (hl : ms.length = ns.length)
    (hs : ∀ k ∈ ms.map (·.1), k ∈ ns.map (·.1)) : ∀ k, k ∈ ms.map (·.1) ↔ k ∈ ns.map (·.1) := by
  have hp : (ms.map (·.1)).Perm (ns.map (·.1)) := (List.subperm_of_subset h1 hs).perm_of_length_le (by simp [hl])
  exact fun k => hp.mem_iff

theorem len_eq {ms ns : List (Str × Value F)} (h1 : (ms.map (·.1)).Nodup) (h2 : (ns.map (·.1)).Nodup)
    (hs : ∀ k, k ∈ ms.map (·.1) ↔ k ∈ ns.map (·.1)) : ms.length = ns.length := by
  have hp : (ms.map (·.1)).Perm (ns.map (·.1)) := (List.perm_ext_iff_of_nodup h1 h2).mpr hs
  simpa using hp.length_eq

theorem distinctM_mem {ms : List (Str × Value F)} (h : DistinctM ms) : ∀ k v, (k, v) ∈ ms → Distinct v := by
  induction ms with
  | nil => simp
  | cons m ms ih =>
    obtain ⟨k', v'⟩ := m
    rw [DistinctM] at h
    intro k v hm
    rcases List.mem_cons.mp hm with hm | hm
    · simp only [Prod.mk.injEq] at hm; rw [hm.2]; exact h.1
    · exact ih h.2 k v hm

theorem distinctL_mem {vs : List (Value F)} (h : DistinctL vs) : ∀ v ∈ vs, Distinct v := by
  induction vs with
  | nil => simp
  | cons m ms ih =>
    rw [DistinctL] at h
    intro v hm
    rcases List.mem_cons.mp hm with rfl | hm
    · exact h.1
    · exact ih h.2 v hm

theorem same_arr {flt : F → F → Prop} {num : Int → F → Prop} {vs ws : List (Value F)} :
    Same flt num (.arr vs) (.arr ws) ↔ vs.length = ws.length ∧ ∀ (i : Nat) v w, vs[i]? = some v → ws[i]? = some w → Same flt num v w := by
  constructor
  · intro h; cases h with | arr _ _ h1 h2 => exact ⟨h1, h2⟩
  · rintro ⟨h1, h2⟩; exact .arr _ _ h1 h2

theorem same_obj {flt : F → F → Prop} {num : Int → F → Prop} {ms ns : List (Str × Value F)} :
    Same flt num (.obj ms) (.obj ns) ↔ (∀ k, k ∈ ms.map (·.1) ↔ k ∈ ns.map (·.1)) ∧
      ∀ k v w, (k, v) ∈ ms → (k, w) ∈ ns → Same flt num v w := by
  constructor
  · intro h; cases h with | obj _ _ h1 h2 => exact ⟨h1, h2⟩
  · rintro ⟨h1, h2⟩; exact .obj _ _ h1 h2

theorem equals_iff (eqF : F → F → Bool) (toF : Int → F) (conv : Bool) (hsym : ∀ x y, eqF x y = eqF y x) (a : Value F) :
    ∀ b, Distinct a → Distinct b →
    (equals eqF toF conv a b = true ↔ Same (fun x y => eqF x y = true) (fun n x => conv = true ∧ eqF (toF n) x = true) a b) := by
  induction a using Verif.Json.Spec.events.induct
    (motive_3 := fun vs => ∀ ws, vs.length = ws.length → DistinctL vs → DistinctL ws → (equalsL eqF toF conv vs ws = true ↔
      ∀ (i : Nat) v w, vs[i]? = some v → ws[i]? = some w → Same (fun x y => eqF x y = true) (fun n x => conv = true ∧ eqF (toF n) x = true) v w))
    (motive_2 := fun ms => ∀ ns, (ns.map (·.1)).Nodup → DistinctM ms → DistinctM ns → (equalsM eqF toF conv ms ns = true ↔
      (∀ k ∈ ms.map (·.1), k ∈ ns.map (·.1)) ∧
      ∀ k v w, (k, v) ∈ ms → (k, w) ∈ ns → Same (fun x y => eqF x y = true) (fun n x => conv = true ∧ eqF (toF n) x = true) v w)) with
  | case1 =>
    intro b _ _
    cases b with
    | null => simp only [equals, true_iff]; exact .null
    | _ => simp only [equals, Bool.false_eq_true, false_iff]; exact nofun
  | case2 n =>
    intro b _ _
    cases b with
    | int m =>
      simp only [equals, beq_iff_eq]
      constructor
      · rintro rfl; exact .int _
      · intro h; cases h; rfl
    | flt x =>
      simp only [equals, Bool.and_eq_true]
      constructor
      · intro h; exact .intFlt _ _ h
      · intro h; cases h with | intFlt _ _ h => exact h
    | _ => simp only [equals, Bool.false_eq_true, false_iff]; exact nofun
  | case3 x =>
    intro b _ _
    cases b with
    | int m =>
      simp only [equals, Bool.and_eq_true]
      constructor
      · intro h; exact .fltInt _ _ ⟨h.1, by rw [hsym]; exact h.2⟩
      · intro h; cases h with | fltInt _ _ h => exact ⟨h.1, by rw [hsym]; exact h.2⟩
    | flt y =>
      simp only [equals]
      constructor
      · intro h; exact .flt _ _ h
      · intro h; cases h with | flt _ _ h => exact h
    | _ => simp only [equals, Bool.false_eq_true, false_iff]; exact nofun
  | case4 p =>
    intro b _ _
    cases b with
    | bool m =>
      simp only [equals, beq_iff_eq]
      constructor
      · rintro rfl; exact .bool _
      · intro h; cases h; rfl
    | _ => simp only [equals, Bool.false_eq_true, false_iff]; exact nofun
  | case5 s =>
    intro b _ _
    cases b with
    | str m =>
      simp only [equals, beq_iff_eq]
      constructor
      · rintro rfl; exact .str _
      · intro h; cases h; rfl
    | _ => simp only [equals, Bool.false_eq_true, false_iff]; exact nofun
  | case6 vs ih =>
    intro b ha hb
    cases b with
    | arr ws =>
      rw [Distinct] at ha hb
      rw [equals, Bool.and_eq_true, beq_iff_eq, same_arr]
      constructor
      · rintro ⟨h1, h2⟩; exact ⟨h1, (ih ws h1 ha hb).mp h2⟩
      · rintro ⟨h1, h2⟩; exact ⟨h1, (ih ws h1 ha hb).mpr h2⟩
    | _ => simp only [equals, Bool.false_eq_true, false_iff]; exact nofun
  | case7 ms ih =>
    intro b ha hb
    cases b with
    | obj ns =>
      rw [Distinct] at ha hb
      rw [equals, Bool.and_eq_true, beq_iff_eq, same_obj, ih ns hb.1 ha.2 hb.2]
      constructor
      · rintro ⟨h1, h2, h3⟩; exact ⟨keys_eq ha.1 h1 h2, h3⟩
      · rintro ⟨h1, h2⟩; exact ⟨len_eq ha.1 hb.1 h1, fun k hk => (h1 k).mp hk, h2⟩
    | _ => simp only [equals, Bool.false_eq_true, false_iff]; exact nofun
  | case8 => simp [equalsL]
  | case9 v vs ih1 ih2 =>
    rename_i ws hl h1 h2
    cases ws with
    | nil => cases hl
    | cons w ws =>
      rw [DistinctL] at h1 h2
      simp only [List.length_cons, Nat.add_right_cancel_iff] at hl
      rw [equalsL, Bool.and_eq_true, ih1 w h1.1 h2.1, ih2 ws hl h1.2 h2.2]
      constructor
      · rintro ⟨h3, h4⟩ i a b ha hb
        cases i with
        | zero => simp at ha hb; subst ha hb; exact h3
        | succ i => simp at ha hb; exact h4 i a b ha hb
      · intro h
        exact ⟨h 0 v w rfl rfl, fun i a b ha hb => h (i + 1) a b (by simpa using ha) (by simpa using hb)⟩
  | case10 => simp [equalsM]
  | case11 k v ms ih1 ih2 =>
    rename_i ns hn h1 h2
    rw [DistinctM] at h1
    rw [equalsM]
    cases hf : AssocMap.find ns k with
    | none =>
      simp only [Bool.false_eq_true, false_iff]
      intro h
      exact find_eq_none_iff.mp hf (h.1 k (by simp))
    | some w =>
      have hm := (find_eq_some_iff hn).mp hf
      have hdw := distinctM_mem h2 k w hm
      simp only [Bool.and_eq_true]
      rw [ih1 w h1.1 hdw, ih2 ns hn h1.2 h2]
      constructor
      · rintro ⟨h3, h4, h5⟩
        refine ⟨?_, ?_⟩
        · intro k' hk'
          rw [List.map_cons, List.mem_cons] at hk'
          rcases hk' with rfl | hk'
          · exact List.mem_map_of_mem (f := (·.1)) hm
          · exact h4 k' hk'
        · intro k' v' w' hv' hw'
          rcases List.mem_cons.mp hv' with hv' | hv'
          · simp only [Prod.mk.injEq] at hv'
            obtain ⟨rfl, rfl⟩ := hv'
            have := (find_eq_some_iff hn).mpr hw'
            rw [hf] at this
            simp only [Option.some.injEq] at this
            exact this ▸ h3
          · exact h5 k' v' w' hv' hw'
      · rintro ⟨h3, h4⟩
        exact ⟨h4 k v w (by simp) hm, fun k' hk' => h3 k' (by rw [List.map_cons]; exact List.mem_cons_of_mem _ hk'),
          fun k' v' w' hv' hw' => h4 k' v' w' (List.mem_cons_of_mem _ hv') hw'⟩

/-! The specification is an equivalence. -/

theorem same_refl {flt : F → F → Prop} {num : Int → F → Prop} (hr : ∀ x, flt x x) (a : Value F) : Distinct a → Same flt num a a := by
  induction a using Verif.Json.Spec.events.induct
    (motive_3 := fun vs => DistinctL vs → ∀ v ∈ vs, Same flt num v v)
    (motive_2 := fun ms => DistinctM ms → ∀ k v, (k, v) ∈ ms → Same flt num v v) with
  | case1 => intro _; exact .null
  | case2 => intro _; exact .int _
  | case3 x => intro _; exact .flt _ _ (hr x)
  | case4 => intro _; exact .bool _
  | case5 => intro _; exact .str _
  | case6 vs ih =>
    intro h; rw [Distinct] at h
    refine .arr _ _ rfl ?_
    intro i v w hv hw
    rw [hv] at hw; simp only [Option.some.injEq] at hw; subst hw
    exact ih h v (List.mem_of_getElem? hv)
  | case7 ms ih =>
    intro h; rw [Distinct] at h
    refine .obj _ _ (fun _ => Iff.rfl) ?_
    intro k v w hv hw
    have e1 := (find_eq_some_iff h.1).mpr hv
    have e2 := (find_eq_some_iff h.1).mpr hw
    rw [e1] at e2; simp only [Option.some.injEq] at e2; subst e2
    exact ih h.2 k v hv
  | case8 => rename_i hv; simp at hv
  | case9 v vs ih1 ih2 =>
    rename_i h x hx
    rw [DistinctL] at h
    rcases List.mem_cons.mp hx with rfl | hx
    · exact ih1 h.1
    · exact ih2 h.2 x hx
  | case10 => rename_i hv; simp at hv
  | case11 k v ms ih1 ih2 =>
    rename_i h k' x hx
    rw [DistinctM] at h
    rcases List.mem_cons.mp hx with hx | hx
    · simp only [Prod.mk.injEq] at hx; rw [hx.2]; exact ih1 h.1
    · exact ih2 h.2 k' x hx

theorem same_symm {flt : F → F → Prop} {num : Int → F → Prop} (hs : ∀ x y, flt x y → flt y x) {a b : Value F} (h : Same flt num a b) :
    Same flt num b a := by
  induction h with
  | null => exact .null
  | bool => exact .bool _
  | int => exact .int _
  | str => exact .str _
  | flt x y h => exact .flt _ _ (hs x y h)
  | intFlt n x h => exact .fltInt _ _ h
  | fltInt n x h => exact .intFlt _ _ h
  | arr vs ws h1 _ ih => exact .arr _ _ h1.symm (fun i v w hv hw => ih i w v hw hv)
  | obj ms ns h1 _ ih => exact .obj _ _ (fun k => (h1 k).symm) (fun k v w hv hw => ih k w v hw hv)

theorem same_trans {flt : F → F → Prop} (ht : ∀ x y z, flt x y → flt y z → flt x z) {a b : Value F} (h : Same flt (fun _ _ => False) a b) :
    ∀ c, Same flt (fun _ _ => False) b c → Same flt (fun _ _ => False) a c := by
  induction h with
  | null => intro c h; exact h
  | bool => intro c h; exact h
  | int => intro c h; exact h
  | str => intro c h; exact h
  | flt x y h1 =>
    intro c h
    cases h with
    | flt _ z h2 => exact .flt _ _ (ht x y z h1 h2)
    | fltInt _ _ h => exact h.elim
  | intFlt _ _ h => exact h.elim
  | fltInt _ _ h => exact h.elim
  | arr vs ws h1 _ ih =>
    intro c h
    cases h with
    | arr _ us h2 h3 =>
      refine .arr _ _ (h1.trans h2) ?_
      intro i v u hv hu
      have hi : i < ws.length := by rw [← h1]; exact (List.getElem?_eq_some_iff.mp hv).1
      exact ih i v ws[i] hv (List.getElem?_eq_getElem hi) u (h3 i ws[i] u (List.getElem?_eq_getElem hi) hu)
  | obj ms ns h1 _ ih =>
    intro c h
    cases h with
    | obj _ us h2 h3 =>
      refine .obj _ _ (fun k => (h1 k).trans (h2 k)) ?_
      intro k v u hv hu
      have hk : k ∈ ns.map (·.1) := (h1 k).mp (List.mem_map_of_mem (f := (·.1)) hv)
      obtain ⟨⟨k', w⟩, hw, rfl⟩ := List.mem_map.mp hk
      exact ih k' v w hv hw u (h3 k' w u hw hu)

/-! Merging. -/

theorem find_addMember (ms : List (Str × Value F)) (k k' : Str) (v : Value F) :
    find (addMember ms k v) k' = if k' = k then some v else find ms k' := by
  have he := find_erase ms k k'
  unfold erase at he
  unfold addMember
  have happ : ∀ (a b : List (Str × Value F)) (x : Str), find (a ++ b) x = (find a x).or (find b x) := by
    intro a b x
    unfold find
    rw [List.find?_append]
    cases List.find? (fun e => decide (e.1 = x)) a <;> rfl
  rw [happ, he]
  by_cases h : k' = k
  · subst h; simp [find]
  · rw [if_neg h, if_neg h]
    have hkk : ¬ k = k' := fun e => h e.symm
    have : find [(k, v)] k' = none := by simp [find, hkk]
    rw [this, Option.or_none]

theorem nodup_addMember {ms : List (Str × Value F)} (h : (ms.map (·.1)).Nodup) (k : Str) (v : Value F) :
    ((addMember ms k v).map (·.1)).Nodup := by
  have he := keys_erase ms k
  have hn := nodup_erase h k
  unfold erase at he hn
  unfold addMember
  rw [List.map_append, List.nodup_append]
  refine ⟨hn, by simp, ?_⟩
  intro a ha b hb
  simp at hb
  subst hb
  rw [he] at ha
  simp at ha
  exact ha.2

theorem foldl_add_find (ms r : List (Str × Value F)) (h : (ms.map (·.1)).Nodup) (k : Str) :
    find (ms.foldl (fun r m => addMember r m.1 m.2) r) k = (find ms k).or (find r k) := by
  induction ms generalizing r with
  | nil => simp [find]
  | cons m ms ih =>
    obtain ⟨k', v⟩ := m
    rw [List.map_cons, List.nodup_cons] at h
    rw [List.foldl_cons, ih _ h.2, find_addMember]
    by_cases hk : k = k'
    · subst hk
      have : find ms k = none := find_eq_none_iff.mpr h.1
      rw [this, if_pos rfl]
      simp [find]
    · have hkk : ¬ k' = k := fun e => hk e.symm
      rw [if_neg hk]
      have : find ((k', v) :: ms) k = find ms k := by unfold find; rw [List.find?_cons_of_neg (by simp [hkk])]
      rw [this]

theorem foldl_add_nodup (ms r : List (Str × Value F)) (h : (r.map (·.1)).Nodup) :
    ((ms.foldl (fun r m => addMember r m.1 m.2) r).map (·.1)).Nodup := by
  induction ms generalizing r with
  | nil => exact h
  | cons m ms ih => exact ih _ (nodup_addMember h _ _)

theorem mergeStep_nodup (f : Value F → Value F → Value F) (r : List (Str × Value F)) (h : (r.map (·.1)).Nodup) (m : Str × Value F) :
    ((mergeStep f r m).map (·.1)).Nodup := by
  unfold mergeStep
  split
  · exact nodup_addMember h _ _
  · exact nodup_addMember h _ _

theorem foldl_merge_nodup (f : Value F → Value F → Value F) (ns r : List (Str × Value F)) (h : (r.map (·.1)).Nodup) :
    ((ns.foldl (mergeStep f) r).map (·.1)).Nodup := by
  induction ns generalizing r with
  | nil => exact h
  | cons m ms ih => exact ih _ (mergeStep_nodup f r h m)

/-- The member of the merged object. -/
def join (f : Value F → Value F → Value F) : Option (Value F) → Option (Value F) → Option (Value F)
  | some x, some y => some (f x y)
  | some x, none => some x
  | none, y => y

theorem foldl_merge_find (f : Value F → Value F → Value F) (ns r : List (Str × Value F)) (h : (ns.map (·.1)).Nodup) (k : Str) :
    find (ns.foldl (mergeStep f) r) k = join f (find r k) (find ns k) := by
  induction ns generalizing r with
  | nil =>
    simp only [List.foldl_nil]
    cases h : find r k <;> simp [join, find]
  | cons m ms ih =>
    obtain ⟨k', v⟩ := m
    rw [List.map_cons, List.nodup_cons] at h
    rw [List.foldl_cons, ih _ h.2]
    by_cases hk : k = k'
    · subst hk
      have h1 : find ms k = none := find_eq_none_iff.mpr h.1
      have h2 : find ((k, v) :: ms) k = some v := by simp [find]
      rw [h1, h2]
      unfold mergeStep
      cases hr : find r k with
      | none => simp [find_addMember, join]
      | some x => simp [find_addMember, join]
    · have hkk : ¬ k' = k := fun e => hk e.symm
      have h2 : find ((k', v) :: ms) k = find ms k := by unfold find; rw [List.find?_cons_of_neg (by simp [hkk])]
      rw [h2]
      congr 1
      unfold mergeStep
      split <;> rw [find_addMember, if_neg hk]

theorem mergeObj_find (f : Value F → Value F → Value F) (ms ns : List (Str × Value F)) (h1 : (ms.map (·.1)).Nodup)
    (h2 : (ns.map (·.1)).Nodup) (k : Str) : find (mergeObj f ms ns) k = join f (find ms k) (find ns k) := by
  rw [mergeObj, foldl_merge_find f ns _ h2, foldl_add_find ms [] h1]
  simp [find]

theorem mergeObj_nodup (f : Value F → Value F → Value F) (ms ns : List (Str × Value F)) : ((mergeObj f ms ns).map (·.1)).Nodup :=
  foldl_merge_nodup f ns _ (foldl_add_nodup ms [] (by simp))

end Verif.JsonEq.Lemmas
