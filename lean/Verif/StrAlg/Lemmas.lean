import Verif.StrAlg.Model
import Verif.StrAlg.Spec
/-! Helper lemmas for the dynamic programs. -/

namespace Verif.StrAlg

variable {α : Type} [DecidableEq α]

/-! ### Edit distance -/

/-- The textbook recursion. -/
def lev : List α → List α → Nat
  | [], b => b.length
  | a, [] => a.length
  | x :: a, y :: b => min (lev a b + (if x ≠ y then 1 else 0)) (min (lev a (y :: b)) (lev (x :: a) b) + 1)

theorem lev_nil_left (b : List α) : lev [] b = b.length := by cases b <;> simp [lev]
theorem lev_nil_right (a : List α) : lev a [] = a.length := by cases a <;> simp [lev]

/-- A row of the table: distances from `ra` to the prefixes of the remaining `b` (reversed). -/
def levRow (ra rb : List α) : List α → List Nat
  | [] => [lev ra rb]
  | y :: b => lev ra rb :: levRow ra (y :: rb) b

theorem levRow_length (ra rb b : List α) : (levRow ra rb b).length = b.length + 1 := by
  induction b generalizing rb with
  | nil => rfl
  | cons y b ih => simp [levRow, ih]

theorem levRow_last (ra rb b : List α) : (levRow ra rb b)[b.length]? = some (lev ra (b.reverse ++ rb)) := by
  induction b generalizing rb with
  | nil => rfl
  | cons y b ih => simp only [levRow, List.length_cons, List.getElem?_cons_succ, ih]; simp

theorem levRow_nil (rb b : List α) : levRow ([] : List α) rb b = List.range' rb.length (b.length + 1) := by
  induction b generalizing rb with
  | nil => simp [levRow, lev_nil_left]
  | cons y b ih => rw [levRow, ih, lev_nil_left]; simp [List.range'_succ]

theorem levRow_cons (ra rb b : List α) : ∃ t, levRow ra rb b = lev ra rb :: t := by
  cases b with
  | nil => exact ⟨[], rfl⟩
  | cons y b => exact ⟨_, rfl⟩

theorem edRow_levRow (x : α) (ra rb b : List α) :
    lev (x :: ra) rb :: edRow x b (levRow ra rb b) (lev (x :: ra) rb) = levRow (x :: ra) rb b := by
  induction b generalizing rb with
  | nil => simp [levRow, edRow]
  | cons y b ih =>
    have h : edRow x (y :: b) (levRow ra rb (y :: b)) (lev (x :: ra) rb)
        = lev (x :: ra) (y :: rb) :: edRow x b (levRow ra (y :: rb) b) (lev (x :: ra) (y :: rb)) := by
      obtain ⟨t, ht⟩ := levRow_cons ra (y :: rb) b
      rw [levRow, ht, edRow, ← lev]
    rw [h, ih]
    rfl

theorem edRows_levRow (b a ra : List α) : edRows b a (ra.length + 1) (levRow ra [] b) = levRow (a.reverse ++ ra) [] b := by
  induction a generalizing ra with
  | nil => rfl
  | cons x a ih =>
    rw [edRows]
    have := edRow_levRow x ra [] b
    rw [lev_nil_right, List.length_cons] at this
    rw [this]
    have := ih (x :: ra)
    rw [List.length_cons] at this
    rw [this]
    simp

theorem editDistance_eq (a b : List α) : editDistance a b = some (lev a.reverse b.reverse) := by
  unfold editDistance
  have h : List.range (b.length + 1) = levRow ([] : List α) [] b := by rw [levRow_nil]; simp [List.range_eq_range']
  rw [h]
  have := edRows_levRow b a []
  simp only [List.length_nil] at this
  rw [this, levRow_last]
  simp

/-- Alignments of two strings, with their cost. -/
inductive Align : Nat → List α → List α → Prop where
  | nil : Align 0 [] []
  | keep {n a b} (x : α) : Align n a b → Align n (x :: a) (x :: b)
  | sub {n a b} (x y : α) : Align n a b → Align (n + 1) (x :: a) (y :: b)
  | ins {n a b} (y : α) : Align n a b → Align (n + 1) a (y :: b)
  | del {n a b} (x : α) : Align n a b → Align (n + 1) (x :: a) b

omit [DecidableEq α] in
theorem align_nil_left (b : List α) : Align b.length [] b := by
  induction b with
  | nil => exact .nil
  | cons y b ih => exact .ins y ih

omit [DecidableEq α] in
theorem align_nil_right (a : List α) : Align a.length a [] := by
  induction a with
  | nil => exact .nil
  | cons y b ih => exact .del y ih

omit [DecidableEq α] in
theorem align_refl (a : List α) : Align 0 a a := by
  induction a with
  | nil => exact .nil
  | cons x a ih => exact .keep x ih

theorem align_lev (a b : List α) : Align (lev a b) a b := by
  fun_induction lev a b with
  | case1 b => exact align_nil_left b
  | case2 a _ => exact align_nil_right a
  | case3 x a y b ih1 ih2 ih3 =>
    rcases Nat.le_total (lev a b + (if x ≠ y then 1 else 0)) (min (lev a (y :: b)) (lev (x :: a) b) + 1) with h | h
    · rw [Nat.min_eq_left h]
      by_cases hxy : x = y
      · subst hxy; simpa using Align.keep x ih1
      · simpa [hxy] using Align.sub x y ih1
    · rw [Nat.min_eq_right h]
      rcases Nat.le_total (lev a (y :: b)) (lev (x :: a) b) with h2 | h2
      · rw [Nat.min_eq_left h2]; exact .del x ih2
      · rw [Nat.min_eq_right h2]; exact .ins y ih3

theorem lev_cons_le (x : α) (a b : List α) : lev (x :: a) b ≤ lev a b + 1 := by
  cases b with
  | nil => simp [lev_nil_right]
  | cons y b => rw [lev]; omega

theorem lev_le_cons (a b : List α) (y : α) : lev a (y :: b) ≤ lev a b + 1 := by
  cases a with
  | nil => simp [lev_nil_left]
  | cons x a => rw [lev]; omega

theorem lev_le_align {n : Nat} {a b : List α} (h : Align n a b) : lev a b ≤ n := by
  induction h with
  | nil => simp [lev]
  | keep x _ ih => rw [lev]; simp only [ne_eq, not_true_eq_false, if_false]; omega
  | sub x y _ ih => rw [lev]; split <;> omega
  | ins y _ ih => have := lev_le_cons (α := α); exact Nat.le_trans (this _ _ y) (by omega)
  | del x _ ih => exact Nat.le_trans (lev_cons_le x _ _) (by omega)

omit [DecidableEq α] in
theorem edits_cons {n : Nat} {a b : List α} (x : α) (h : Spec.Edits n a b) : Spec.Edits n (x :: a) (x :: b) := by
  induction h with
  | refl a => exact .refl _
  | step _ e ih =>
    refine .step ih ?_
    cases e with
    | insert p s y => exact .insert (x :: p) s y
    | delete p s y => exact .delete (x :: p) s y
    | substitute p s y z => exact .substitute (x :: p) s y z

omit [DecidableEq α] in
theorem edits_of_align {n : Nat} {a b : List α} (h : Align n a b) : Spec.Edits n a b := by
  induction h with
  | nil => exact .refl _
  | keep x _ ih => exact edits_cons x ih
  | @sub n a b x y _ ih => exact .step (edits_cons x ih) (.substitute [] b x y)
  | @ins n a b y _ ih => exact .step ih (.insert [] b y)
  | @del n a b x _ ih => exact .step (edits_cons x ih) (.delete [] b x)

omit [DecidableEq α] in
/-- Change the target of an alignment by one edit. -/
theorem align_edit {n : Nat} {a b c : List α} (h : Align n a b) (e : Spec.Edit b c) : ∃ m, m ≤ n + 1 ∧ Align m a c := by
  induction h generalizing c with
  | nil =>
    generalize hb : ([] : List α) = b at e
    cases e with
    | insert p s y =>
      have h := List.append_eq_nil_iff.mp hb.symm
      rw [h.1, h.2]; exact ⟨1, by omega, .ins y .nil⟩
    | delete p s x => simp at hb
    | substitute p s x y => simp at hb
  | @keep n a b x hab ih =>
    generalize hb : x :: b = b' at e
    cases e with
    | insert p s y =>
      cases p with
      | nil => simp only [List.nil_append] at hb ⊢; subst hb; exact ⟨n + 1, by omega, .ins y (.keep x hab)⟩
      | cons z p =>
        simp only [List.cons_append, List.cons.injEq] at hb
        obtain ⟨rfl, rfl⟩ := hb
        obtain ⟨m, hm, h⟩ := ih (.insert p s y)
        exact ⟨m, hm, .keep x h⟩
    | delete p s z =>
      cases p with
      | nil => simp only [List.nil_append, List.cons.injEq] at hb ⊢; obtain ⟨rfl, rfl⟩ := hb; exact ⟨n + 1, by omega, .del x hab⟩
      | cons w p =>
        simp only [List.cons_append, List.cons.injEq] at hb
        obtain ⟨rfl, rfl⟩ := hb
        obtain ⟨m, hm, h⟩ := ih (.delete p s z)
        exact ⟨m, hm, .keep x h⟩
    | substitute p s z y =>
      cases p with
      | nil => simp only [List.nil_append, List.cons.injEq] at hb ⊢; obtain ⟨rfl, rfl⟩ := hb; exact ⟨n + 1, by omega, .sub x y hab⟩
      | cons w p =>
        simp only [List.cons_append, List.cons.injEq] at hb
        obtain ⟨rfl, rfl⟩ := hb
        obtain ⟨m, hm, h⟩ := ih (.substitute p s z y)
        exact ⟨m, hm, .keep x h⟩
  | @sub n a b x0 x hab ih =>
    generalize hb : x :: b = b' at e
    cases e with
    | insert p s y =>
      cases p with
      | nil => simp only [List.nil_append] at hb ⊢; subst hb; exact ⟨n + 2, by omega, .ins y (.sub x0 x hab)⟩
      | cons z p =>
        simp only [List.cons_append, List.cons.injEq] at hb
        obtain ⟨rfl, rfl⟩ := hb
        obtain ⟨m, hm, h⟩ := ih (.insert p s y)
        exact ⟨m + 1, by omega, .sub x0 x h⟩
    | delete p s z =>
      cases p with
      | nil => simp only [List.nil_append, List.cons.injEq] at hb ⊢; obtain ⟨rfl, rfl⟩ := hb; exact ⟨n + 1, by omega, .del x0 hab⟩
      | cons w p =>
        simp only [List.cons_append, List.cons.injEq] at hb
        obtain ⟨rfl, rfl⟩ := hb
        obtain ⟨m, hm, h⟩ := ih (.delete p s z)
        exact ⟨m + 1, by omega, .sub x0 x h⟩
    | substitute p s z y =>
      cases p with
      | nil => simp only [List.nil_append, List.cons.injEq] at hb ⊢; obtain ⟨rfl, rfl⟩ := hb; exact ⟨n + 1, by omega, .sub x0 y hab⟩
      | cons w p =>
        simp only [List.cons_append, List.cons.injEq] at hb
        obtain ⟨rfl, rfl⟩ := hb
        obtain ⟨m, hm, h⟩ := ih (.substitute p s z y)
        exact ⟨m + 1, by omega, .sub x0 x h⟩
  | @ins n a b x hab ih =>
    generalize hb : x :: b = b' at e
    cases e with
    | insert p s y =>
      cases p with
      | nil => simp only [List.nil_append] at hb ⊢; subst hb; exact ⟨n + 2, by omega, .ins y (.ins x hab)⟩
      | cons z p =>
        simp only [List.cons_append, List.cons.injEq] at hb
        obtain ⟨rfl, rfl⟩ := hb
        obtain ⟨m, hm, h⟩ := ih (.insert p s y)
        exact ⟨m + 1, by omega, .ins x h⟩
    | delete p s z =>
      cases p with
      | nil => simp only [List.nil_append, List.cons.injEq] at hb ⊢; obtain ⟨rfl, rfl⟩ := hb; exact ⟨n, by omega, hab⟩
      | cons w p =>
        simp only [List.cons_append, List.cons.injEq] at hb
        obtain ⟨rfl, rfl⟩ := hb
        obtain ⟨m, hm, h⟩ := ih (.delete p s z)
        exact ⟨m + 1, by omega, .ins x h⟩
    | substitute p s z y =>
      cases p with
      | nil => simp only [List.nil_append, List.cons.injEq] at hb ⊢; obtain ⟨rfl, rfl⟩ := hb; exact ⟨n + 1, by omega, .ins y hab⟩
      | cons w p =>
        simp only [List.cons_append, List.cons.injEq] at hb
        obtain ⟨rfl, rfl⟩ := hb
        obtain ⟨m, hm, h⟩ := ih (.substitute p s z y)
        exact ⟨m + 1, by omega, .ins x h⟩
  | @del n a b x hab ih =>
    obtain ⟨m, hm, h⟩ := ih e
    exact ⟨m + 1, by omega, .del x h⟩

theorem lev_le_edits {n : Nat} {a b : List α} (h : Spec.Edits n a b) : lev a b ≤ n := by
  suffices ∃ m, m ≤ n ∧ Align m a b by
    obtain ⟨m, hm, h⟩ := this
    exact Nat.le_trans (lev_le_align h) hm
  induction h with
  | refl a => exact ⟨0, Nat.le_refl _, align_refl a⟩
  | step _ e ih =>
    obtain ⟨m, hm, h⟩ := ih
    obtain ⟨m', hm', h'⟩ := align_edit h e
    exact ⟨m', by omega, h'⟩

omit [DecidableEq α] in
theorem edits_reverse {n : Nat} {a b : List α} (h : Spec.Edits n a b) : Spec.Edits n a.reverse b.reverse := by
  induction h with
  | refl a => exact .refl _
  | step _ e ih =>
    refine .step ih ?_
    cases e with
    | insert p s y => simpa using Spec.Edit.insert s.reverse p.reverse y
    | delete p s y => simpa using Spec.Edit.delete s.reverse p.reverse y
    | substitute p s y z => simpa using Spec.Edit.substitute s.reverse p.reverse y z

/-! ### Longest common subsequence -/

/-- The textbook recursion in the form the code uses. -/
def lc : List α → List α → Nat
  | [], _ => 0
  | _, [] => 0
  | x :: a, y :: b => max (lc a b + (if x = y then 1 else 0)) (max (lc a (y :: b)) (lc (x :: a) b))

theorem lc_nil_left (b : List α) : lc [] b = 0 := by cases b <;> simp [lc]
theorem lc_nil_right (a : List α) : lc a [] = 0 := by cases a <;> simp [lc]

/-- A row of the table. -/
def lcRow (ra rb : List α) : List α → List Nat
  | [] => [lc ra rb]
  | y :: b => lc ra rb :: lcRow ra (y :: rb) b

theorem lcRow_last (ra rb b : List α) : (lcRow ra rb b)[b.length]? = some (lc ra (b.reverse ++ rb)) := by
  induction b generalizing rb with
  | nil => rfl
  | cons y b ih => simp only [lcRow, List.length_cons, List.getElem?_cons_succ, ih]; simp

theorem lcRow_nil (rb b : List α) : lcRow ([] : List α) rb b = List.replicate (b.length + 1) 0 := by
  induction b generalizing rb with
  | nil => simp [lcRow, lc_nil_left]
  | cons y b ih => rw [lcRow, ih, lc_nil_left]; rfl

theorem lcRow_cons (ra rb b : List α) : ∃ t, lcRow ra rb b = lc ra rb :: t := by
  cases b with
  | nil => exact ⟨[], rfl⟩
  | cons y b => exact ⟨_, rfl⟩

theorem lcsRow_lcRow (x : α) (ra rb b : List α) :
    lc (x :: ra) rb :: lcsRow x b (lcRow ra rb b) (lc (x :: ra) rb) = lcRow (x :: ra) rb b := by
  induction b generalizing rb with
  | nil => simp [lcRow, lcsRow]
  | cons y b ih =>
    have h : lcsRow x (y :: b) (lcRow ra rb (y :: b)) (lc (x :: ra) rb)
        = lc (x :: ra) (y :: rb) :: lcsRow x b (lcRow ra (y :: rb) b) (lc (x :: ra) (y :: rb)) := by
      obtain ⟨t, ht⟩ := lcRow_cons ra (y :: rb) b
      rw [lcRow, ht, lcsRow, ← lc]
    rw [h, ih]
    rfl

theorem lcsRows_lcRow (b a ra : List α) : lcsRows b a (lcRow ra [] b) = lcRow (a.reverse ++ ra) [] b := by
  induction a generalizing ra with
  | nil => rfl
  | cons x a ih =>
    rw [lcsRows]
    have := lcsRow_lcRow x ra [] b
    rw [lc_nil_right] at this
    rw [this, ih]
    simp

theorem lcs_eq (a b : List α) : lcs a b = some (lc a.reverse b.reverse) := by
  unfold lcs
  rw [← lcRow_nil (α := α) [] b, lcsRows_lcRow, lcRow_last]
  simp

theorem lc_attained (a b : List α) : ∃ l : List α, l.Sublist a ∧ l.Sublist b ∧ l.length = lc a b := by
  fun_induction lc a b with
  | case1 b => exact ⟨[], List.nil_sublist _, List.nil_sublist _, rfl⟩
  | case2 a _ => exact ⟨[], List.nil_sublist _, List.nil_sublist _, rfl⟩
  | case3 x a y b ih1 ih2 ih3 =>
    rcases Nat.le_total (lc a b + (if x = y then 1 else 0)) (max (lc a (y :: b)) (lc (x :: a) b)) with h | h
    · rw [Nat.max_eq_right h]
      rcases Nat.le_total (lc a (y :: b)) (lc (x :: a) b) with h2 | h2
      · rw [Nat.max_eq_right h2]
        obtain ⟨l, h1, h2, h3⟩ := ih3
        exact ⟨l, h1, h2.cons y, h3⟩
      · rw [Nat.max_eq_left h2]
        obtain ⟨l, h1, h2, h3⟩ := ih2
        exact ⟨l, h1.cons x, h2, h3⟩
    · rw [Nat.max_eq_left h]
      obtain ⟨l, h1, h2, h3⟩ := ih1
      by_cases hxy : x = y
      · subst hxy
        exact ⟨x :: l, h1.cons_cons x, h2.cons_cons x, by simp [h3]⟩
      · exact ⟨l, h1.cons x, h2.cons y, by simp [hxy, h3]⟩

theorem lc_maximal (a b l : List α) (h1 : l.Sublist a) (h2 : l.Sublist b) : l.length ≤ lc a b := by
  fun_induction lc a b generalizing l with
  | case1 b => simp [List.sublist_nil.mp h1]
  | case2 a _ => simp [List.sublist_nil.mp h2]
  | case3 x a y b ih1 ih2 ih3 =>
    cases h1 with
    | cons _ h1 => have := ih2 l h1 h2; omega
    | cons_cons _ h1 =>
      rename_i l'
      cases h2 with
      | cons _ h2 => have := ih3 (x :: l') (h1.cons_cons x) h2; omega
      | cons_cons _ h2 =>
        have := ih1 l' h1 h2
        simp only [List.length_cons, if_true]
        omega

/-! ### Longest increasing subsequence -/

theorem toInt32_id (x : Int) (h1 : -2147483648 ≤ x) (h2 : x ≤ 2147483647) : toInt32 x = x := by
  unfold toInt32; omega

/-- Table invariant after processing `w`: entry `p` is at most the last element of every increasing subsequence of `w` of length `p+1`, and
is attained if it is in use (`p < m`); the unused entries are the sentinel. -/
structure LisInv (w : List Int) (tbl : List Int) (m : Nat) : Prop where
  mlen : m ≤ w.length
  mtbl : m ≤ tbl.length
  sorted : tbl.Pairwise (· ≤ ·)
  strict : ∀ p q x y, p < q → q < m → tbl[p]? = some x → tbl[q]? = some y → x < y
  attained : ∀ p x, p < m → tbl[p]? = some x → ∃ l, (l ++ [x]).Sublist w ∧ (l ++ [x]).Pairwise (· < ·) ∧ l.length = p
  least : ∀ l x, (l ++ [x]).Sublist w → (l ++ [x]).Pairwise (· < ·) → l.length < m ∧ ∃ y, tbl[l.length]? = some y ∧ y ≤ x
  sentinel : ∀ p, m ≤ p → p < tbl.length → tbl[p]? = some intMax

theorem lowerBound_le (tbl : List Int) (x : Int) : lowerBound tbl x ≤ tbl.length := by
  unfold lowerBound; exact (List.takeWhile_sublist _).length_le

theorem lowerBound_lt (tbl : List Int) (x : Int) (p : Nat) (hp : p < lowerBound tbl x) : ∃ y, tbl[p]? = some y ∧ y < x := by
  unfold lowerBound at hp
  induction tbl generalizing p with
  | nil => simp at hp
  | cons z tbl ih =>
    by_cases hz : z < x
    · rw [List.takeWhile_cons_of_pos (by simpa using hz), List.length_cons] at hp
      cases p with
      | zero => exact ⟨z, rfl, hz⟩
      | succ p => simpa using ih p (by omega)
    · rw [List.takeWhile_cons_of_neg (by simpa using hz)] at hp
      simp at hp

theorem lowerBound_ge (tbl : List Int) (x y : Int) (h : tbl[lowerBound tbl x]? = some y) : x ≤ y := by
  unfold lowerBound at h
  induction tbl with
  | nil => simp at h
  | cons z tbl ih =>
    by_cases hz : z < x
    · rw [List.takeWhile_cons_of_pos (by simpa using hz), List.length_cons, List.getElem?_cons_succ] at h
      exact ih h
    · rw [List.takeWhile_cons_of_neg (by simpa using hz)] at h
      simp at h
      omega

theorem sorted_get {tbl : List Int} (h : tbl.Pairwise (· ≤ ·)) {p q : Nat} {x y : Int} (hpq : p ≤ q)
    (hx : tbl[p]? = some x) (hy : tbl[q]? = some y) : x ≤ y := by
  rcases Nat.lt_or_eq_of_le hpq with h' | h'
  · obtain ⟨hp, rfl⟩ := List.getElem?_eq_some_iff.mp hx
    obtain ⟨hq, rfl⟩ := List.getElem?_eq_some_iff.mp hy
    exact List.pairwise_iff_getElem.mp h p q hp hq h'
  · subst h'
    rw [hx] at hy
    simp only [Option.some.injEq] at hy
    omega

theorem snoc_sublist_snoc {l w : List Int} {x c : Int} (h : (l ++ [x]).Sublist (w ++ [c])) :
    (l ++ [x]).Sublist w ∨ (x = c ∧ l.Sublist w) := by
  have h := h.reverse
  simp only [List.reverse_append, List.reverse_cons, List.reverse_nil, List.nil_append, List.singleton_append] at h
  cases h with
  | cons _ h =>
    left
    have := h.reverse
    simpa using this
  | cons_cons _ h =>
    right
    exact ⟨rfl, by simpa using h.reverse⟩

/-- One step of the loop preserves the invariant. -/
theorem lis_step {w tbl : List Int} {m : Nat} (h : LisInv w tbl m) (c : Int) (hc : c ≤ intMax) (hlen : w.length < tbl.length) :
    lowerBound tbl c < tbl.length ∧ lowerBound tbl c ≤ m ∧
      LisInv (w ++ [c]) (tbl.set (lowerBound tbl c) c) (max m (lowerBound tbl c + 1)) := by
  have hm := h.mlen
  have hpm : lowerBound tbl c ≤ m := by
    by_cases hlt : m < lowerBound tbl c
    · obtain ⟨y, h1, h2⟩ := lowerBound_lt tbl c m hlt
      rw [h.sentinel m (Nat.le_refl _) (by omega)] at h1
      simp only [Option.some.injEq] at h1
      omega
    · omega
  have hp : lowerBound tbl c < tbl.length := by omega
  refine ⟨hp, hpm, ?_⟩
  generalize hpe : lowerBound tbl c = p at *
  have hbelow : ∀ q, q < p → ∃ y, tbl[q]? = some y ∧ y < c := fun q hq => lowerBound_lt tbl c q (by omega)
  have habove : ∀ q y, p ≤ q → tbl[q]? = some y → c ≤ y := by
    intro q y hq hy
    have h1 : tbl[p]? = some tbl[p] := List.getElem?_eq_getElem hp
    have h2 := lowerBound_ge tbl c tbl[p] (by rw [hpe]; exact h1)
    exact Int.le_trans h2 (sorted_get h.sorted hq h1 hy)
  have hget : ∀ q, (tbl.set p c)[q]? = if p = q then some c else tbl[q]? := by
    intro q
    rw [List.getElem?_set]
    split
    · rename_i hpq; subst hpq; simp [hp]
    · rfl
  have hmt := h.mtbl
  refine ⟨by simp; omega, by rw [List.length_set]; omega, ?_, ?_, ?_, ?_, ?_⟩
  · rw [List.pairwise_iff_getElem]
    intro i j hi hj hij
    have h1 : (tbl.set p c)[i]? = some (tbl.set p c)[i] := List.getElem?_eq_getElem hi
    have h2 : (tbl.set p c)[j]? = some (tbl.set p c)[j] := List.getElem?_eq_getElem hj
    rw [hget] at h1 h2
    split at h1 <;> split at h2
    · omega
    · rename_i e _; subst e
      simp only [Option.some.injEq] at h1
      rw [← h1]
      exact habove j _ (by omega) h2
    · rename_i e; subst e
      simp only [Option.some.injEq] at h2
      rw [← h2]
      obtain ⟨y, hy1, hy2⟩ := hbelow i hij
      rw [h1] at hy1
      simp only [Option.some.injEq] at hy1
      omega
    · exact sorted_get h.sorted (by omega) h1 h2
  · intro i j x y hij hj hx hy
    rw [hget] at hx hy
    split at hx <;> split at hy
    · omega
    · rename_i e _; subst e
      -- p < j < m: the old entry at p is below the one at j, and c is at most the old one at p
      simp only [Option.some.injEq] at hx
      have h1 : tbl[p]? = some tbl[p] := List.getElem?_eq_getElem hp
      have h2 := h.strict p j _ y hij (by omega) h1 hy
      have h3 := habove p _ (Nat.le_refl _) h1
      omega
    · rename_i e; subst e
      simp only [Option.some.injEq] at hy
      obtain ⟨z, hz1, hz2⟩ := hbelow i hij
      rw [hx] at hz1
      simp only [Option.some.injEq] at hz1
      omega
    · rename_i e1 e2
      exact h.strict i j x y hij (by omega) hx hy
  · intro q x hq hx
    rw [hget] at hx
    split at hx
    · rename_i e; subst e
      simp only [Option.some.injEq] at hx
      subst hx
      cases p with
      | zero => exact ⟨[], by simp, by simp, rfl⟩
      | succ p =>
        obtain ⟨y, hy1, hy2⟩ := hbelow p (by omega)
        obtain ⟨l, hl1, hl2, hl3⟩ := h.attained p y (by omega) hy1
        refine ⟨l ++ [y], ?_, ?_, by simp [hl3]⟩
        · exact List.Sublist.append hl1 (List.Sublist.refl _)
        · rw [List.pairwise_append]
          refine ⟨hl2, by simp, ?_⟩
          intro a ha b hb
          simp only [List.mem_singleton] at hb
          subst hb
          rw [List.mem_append, List.mem_singleton] at ha
          rcases ha with ha | rfl
          · rw [List.pairwise_append] at hl2
            have := hl2.2.2 a ha y (by simp)
            omega
          · exact hy2
    · rename_i e
      obtain ⟨l, hl1, hl2, hl3⟩ := h.attained q x (by omega) hx
      exact ⟨l, hl1.trans (List.sublist_append_left _ _), hl2, hl3⟩
  · intro l x hl hinc
    rcases snoc_sublist_snoc hl with hl | ⟨hxc, hl'⟩
    · obtain ⟨h1, y, h2, h3⟩ := h.least l x hl hinc
      refine ⟨by omega, ?_⟩
      rw [hget]
      split
      · rename_i e
        exact ⟨c, rfl, Int.le_trans (habove l.length y (by omega) h2) h3⟩
      · exact ⟨y, h2, h3⟩
    · subst hxc
      clear hl
      rename (List.Sublist l w) => hl
      -- l is an increasing subsequence of w whose elements are below x
      have hlp : l.length ≤ p := by
        rcases Nat.lt_or_ge p l.length with hlt | hge
        · exfalso
          rcases List.eq_nil_or_concat l with hnil | ⟨l', z, hl'⟩
          · rw [hnil] at hlt; simp at hlt
          · rw [List.concat_eq_append] at hl'
            rw [List.pairwise_append] at hinc
            have hz : z < x := hinc.2.2 z (by rw [hl']; simp) x (by simp)
            obtain ⟨h1, y, h2, h3⟩ := h.least l' z (by rw [← hl']; exact hl) (by rw [← hl']; exact hinc.1)
            have hlen' : l.length = l'.length + 1 := by rw [hl']; simp
            have := habove l'.length y (by omega) h2
            omega
        · exact hge
      refine ⟨by omega, ?_⟩
      rw [hget]
      split
      · exact ⟨x, rfl, Int.le_refl _⟩
      · obtain ⟨y, hy1, hy2⟩ := hbelow l.length (by omega)
        exact ⟨y, hy1, by omega⟩
  · intro q hq hql
    rw [List.length_set] at hql
    rw [hget, if_neg (by omega)]
    exact h.sentinel q (by omega) hql

/-- `max?` of a list of naturals, as used with `+1`. -/
theorem max?_cons_some (p : Nat) (ids : List Nat) : ∃ r, (p :: ids).max? = some r := by
  cases h : (p :: ids).max? with
  | none => simp at h
  | some r => exact ⟨r, rfl⟩

theorem lisLoop_spec (rest : List Int) : ∀ (w tbl : List Int) (m : Nat), LisInv w tbl m → tbl.length = w.length + rest.length →
    (∀ x ∈ rest, -2147483648 ≤ x ∧ x ≤ 2147483647) →
    ∃ ids tbl' m', lisLoop rest tbl = some ids ∧ LisInv (w ++ rest) tbl' m' ∧ m' = ids.foldl (fun a p => max a (p + 1)) m ∧ ids.length = rest.length := by
  induction rest with
  | nil => intro w tbl m h _ _; exact ⟨[], tbl, m, rfl, by rw [List.append_nil]; exact h, rfl, rfl⟩
  | cons c rest ih =>
    intro w tbl m h hlen hr
    obtain ⟨h1, h2⟩ := hr c (by simp)
    obtain ⟨s1, s2, s3⟩ := lis_step h c (by unfold intMax; omega) (by rw [hlen]; simp)
    obtain ⟨ids, tbl', m', e1, e2, e3, e4⟩ := ih (w ++ [c]) _ _ s3 (by simp [hlen]; omega) (fun x hx => hr x (by simp [hx]))
    refine ⟨lowerBound tbl c :: ids, tbl', m', ?_, by simpa using e2, ?_, by simp [e4]⟩
    · unfold lisLoop
      rw [if_pos s1, toInt32_id c h1 h2, e1]
      rfl
    · rw [List.foldl_cons]; exact e3

theorem foldl_max_le (ids : List Nat) (m : Nat) : m ≤ ids.foldl (fun a p => max a (p + 1)) m := by
  induction ids generalizing m with
  | nil => exact Nat.le_refl _
  | cons p ids ih => exact Nat.le_trans (Nat.le_max_left _ _) (ih _)

theorem max?_foldl (p : Nat) (ids : List Nat) : (p :: ids).max?.map (· + 1) = some (ids.foldl (fun a p => max a (p + 1)) (p + 1)) := by
  rw [List.max?_cons', Option.map_some]
  congr 1
  induction ids generalizing p with
  | nil => rfl
  | cons q ids ih =>
    simp only [List.foldl_cons]
    rw [ih]
    congr 1
    omega

end Verif.StrAlg
