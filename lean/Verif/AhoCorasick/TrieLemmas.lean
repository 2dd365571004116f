import Verif.AhoCorasick.Spec
/-!
# The trie that `construct` builds
-/
namespace Verif.AhoCorasick.Lemmas
open Verif.AhoCorasick

/-! ### The order of the words -/

theorem leStr_refl (a : Str) : leStr a a = true := by
  induction a with
  | nil => rfl
  | cons x a ih => simp [leStr, ih]

theorem leStr_trans {a b c : Str} (h1 : leStr a b = true) (h2 : leStr b c = true) : leStr a c = true := by
  induction a generalizing b c with
  | nil => rfl
  | cons x a ih =>
    cases b with
    | nil => simp [leStr] at h1
    | cons y b =>
      cases c with
      | nil => simp [leStr] at h2
      | cons z c =>
        simp only [leStr, Bool.or_eq_true, Bool.and_eq_true, decide_eq_true_eq, beq_iff_eq] at h1 h2 ⊢
        rcases h1 with h1 | ⟨rfl, h1⟩
        · rcases h2 with h2 | ⟨rfl, h2⟩
          · exact Or.inl (UInt8.lt_trans h1 h2)
          · exact Or.inl h1
        · rcases h2 with h2 | ⟨rfl, h2⟩
          · exact Or.inl h2
          · exact Or.inr ⟨rfl, ih h1 h2⟩

theorem leStr_total (a b : Str) : leStr a b = true ∨ leStr b a = true := by
  induction a generalizing b with
  | nil => exact Or.inl rfl
  | cons x a ih =>
    cases b with
    | nil => exact Or.inr rfl
    | cons y b =>
      simp only [leStr, Bool.or_eq_true, Bool.and_eq_true, decide_eq_true_eq, beq_iff_eq]
      rcases Nat.lt_trichotomy x.toNat y.toNat with h | h | h
      · exact Or.inl (Or.inl h)
      · have := UInt8.toNat_inj.1 h
        subst this
        rcases ih b with h | h
        · exact Or.inl (Or.inr ⟨rfl, h⟩)
        · exact Or.inr (Or.inr ⟨rfl, h⟩)
      · exact Or.inr (Or.inl h)

theorem leStr_antisymm {a b : Str} (h1 : leStr a b = true) (h2 : leStr b a = true) : a = b := by
  induction a generalizing b with
  | nil =>
    cases b with
    | nil => rfl
    | cons y b => simp [leStr] at h2
  | cons x a ih =>
    cases b with
    | nil => simp [leStr] at h1
    | cons y b =>
      simp only [leStr, Bool.or_eq_true, Bool.and_eq_true, decide_eq_true_eq, beq_iff_eq] at h1 h2
      rcases h1 with h1 | ⟨rfl, h1⟩
      · rcases h2 with h2 | ⟨rfl, h2⟩
        · exact absurd (UInt8.lt_trans h1 h2) (UInt8.lt_irrefl _)
        · exact absurd h1 (UInt8.lt_irrefl _)
      · rcases h2 with h2 | ⟨_, h2⟩
        · exact absurd h2 (UInt8.lt_irrefl _)
        · rw [ih h1 h2]

theorem leStr_append (w a b : Str) : leStr (w ++ a) (w ++ b) = leStr a b := by
  induction w with
  | nil => rfl
  | cons x w ih => simp [leStr, ih]

theorem lePair_str {x y : Str × Nat} (h : lePair x y = true) : leStr x.1 y.1 = true := by
  unfold lePair at h
  split at h
  case isTrue h' => rw [h']; exact leStr_refl _
  case isFalse => exact h

theorem lePair_trans (x y z : Str × Nat) (h1 : lePair x y = true) (h2 : lePair y z = true) : lePair x z = true := by
  have h3 := leStr_trans (lePair_str h1) (lePair_str h2)
  by_cases hxz : x.1 = z.1
  · have hy : x.1 = y.1 := leStr_antisymm (lePair_str h1) (by rw [hxz]; exact lePair_str h2)
    rw [lePair, if_pos hy, decide_eq_true_eq] at h1
    rw [lePair, if_pos (by rw [← hy, hxz]), decide_eq_true_eq] at h2
    rw [lePair, if_pos hxz, decide_eq_true_eq]
    exact Nat.le_trans h1 h2
  · simp only [lePair, if_neg hxz]
    exact h3

theorem lePair_total (x y : Str × Nat) : (lePair x y || lePair y x) = true := by
  by_cases h : x.1 = y.1
  · simp only [lePair, h, if_true]
    simp only [Bool.or_eq_true, decide_eq_true_eq]
    exact Nat.le_total _ _
  · have h' : ¬ y.1 = x.1 := fun e => h e.symm
    simp only [lePair, if_neg h, if_neg h', Bool.or_eq_true]
    exact leStr_total _ _

/-- Sorted lists of words. -/
def Sorted (sw : List (Str × Nat)) : Prop := sw.Pairwise fun x y => lePair x y = true

theorem sorted_ixwords (words : List Str) : Sorted (ixwords words) := List.pairwise_mergeSort lePair_trans lePair_total _

theorem perm_ixwords (words : List Str) : (ixwords words).Perm words.zipIdx := List.mergeSort_perm _ _

/-- The words that begin with `w`. -/
def seg (sw : List (Str × Nat)) (w : Str) : List (Str × Nat) := sw.filter fun x => w.isPrefixOf x.1

/-- The nodes of the trie. -/
def T (sw : List (Str × Nat)) (w : Str) : Prop := 0 ∉ w ∧ ∃ x ∈ sw, w <+: x.1

/-- The index of a word. -/
def out (sw : List (Str × Nat)) (w : Str) : Int :=
  match sw.find? fun x => x.1 == w with
  | some x => x.2
  | none => -1

theorem mem_seg {sw : List (Str × Nat)} {w : Str} {x : Str × Nat} : x ∈ seg sw w ↔ x ∈ sw ∧ w <+: x.1 := by
  simp [seg, List.mem_filter]

theorem key_lt (d : Nat) (w : Str) : key d w < 256 := by
  unfold key
  split
  · exact UInt8.toNat_lt _
  · omega

theorem key_mono {a b w : Str} (h : leStr a b = true) (ha : w <+: a) (hb : w <+: b) : key w.length a ≤ key w.length b := by
  obtain ⟨a, rfl⟩ := ha
  obtain ⟨b, rfl⟩ := hb
  rw [leStr_append] at h
  cases a with
  | nil => simp [key]
  | cons x a =>
    cases b with
    | nil => simp [leStr] at h
    | cons y b =>
      simp only [leStr, Bool.or_eq_true, Bool.and_eq_true, decide_eq_true_eq, beq_iff_eq] at h
      simp only [key, List.getElem?_append_right (Nat.le_refl _), Nat.sub_self, List.getElem?_cons_zero]
      rcases h with h | ⟨rfl, _⟩
      · exact Nat.le_of_lt h
      · exact Nat.le_refl _

theorem seg_sorted {sw : List (Str × Nat)} (h : Sorted sw) (w : Str) :
    (seg sw w).Pairwise fun x y => key w.length x.1 ≤ key w.length y.1 := by
  have h1 : (seg sw w).Pairwise fun x y => lePair x y = true := List.Pairwise.filter _ h
  refine List.Pairwise.imp_of_mem ?_ h1
  intro a b ha hb hab
  exact key_mono (lePair_str hab) (mem_seg.1 ha).2 (mem_seg.1 hb).2

theorem key_eq {w x : Str} (h : w <+: x) (c : UInt8) (hc : c ≠ 0) : key w.length x = c.toNat ↔ w ++ [c] <+: x := by
  obtain ⟨t, rfl⟩ := h
  rw [List.prefix_append_right_inj]
  cases t with
  | nil =>
    have : c.toNat ≠ 0 := fun e => hc (UInt8.toNat_inj.1 e)
    simp [key]
    omega
  | cons y t =>
    simp only [key, List.getElem?_append_right (Nat.le_refl _), Nat.sub_self, List.getElem?_cons_zero, List.cons_prefix_cons, List.nil_prefix,
      and_true]
    constructor
    · intro e; exact (UInt8.toNat_inj.1 e).symm
    · rintro rfl; rfl

theorem seg_child {sw : List (Str × Nat)} {w : Str} {c : UInt8} (hc : c ≠ 0) :
    (seg sw w).filter (fun x => key w.length x.1 == c.toNat) = seg sw (w ++ [c]) := by
  unfold seg
  rw [List.filter_filter]
  refine List.filter_congr ?_
  intro x _
  by_cases h : w <+: x.1
  · have := key_eq h c hc
    have h' : w.isPrefixOf x.1 = true := List.isPrefixOf_iff_prefix.2 h
    rw [h', Bool.and_true, Bool.eq_iff_iff, beq_iff_eq, this, List.isPrefixOf_iff_prefix]
  · have h' : ¬ w ++ [c] <+: x.1 := fun e => h ((List.prefix_append w [c]).trans e)
    rw [← List.isPrefixOf_iff_prefix, Bool.not_eq_true] at h h'
    rw [h, h', Bool.and_false]

theorem find_first {sw : List (Str × Nat)} {w : Str} {x : Str × Nat} {rest : List (Str × Nat)} (h : seg sw w = x :: rest) (hx : x.1 = w) :
    sw.find? (fun x => x.1 == w) = some x := by
  induction sw with
  | nil => simp [seg] at h
  | cons y sw ih =>
    by_cases hy : w.isPrefixOf y.1 = true
    · simp only [seg, List.filter_cons, hy, if_true] at h
      cases h
      simp [hx]
    · simp only [seg, List.filter_cons, hy] at h
      have : (y.1 == w) = false := by
        rw [Bool.eq_false_iff]
        intro e
        rw [beq_iff_eq] at e
        exact hy (by rw [e]; exact List.isPrefixOf_iff_prefix.2 (List.prefix_refl w))
      rw [List.find?_cons, this]
      exact ih h

theorem out_head {sw : List (Str × Nat)} (hs : Sorted sw) {w : Str} {x : Str × Nat} {rest : List (Str × Nat)} (h : seg sw w = x :: rest) :
    out sw w = if x.1.length = w.length then (x.2 : Int) else -1 := by
  have hpx : w <+: x.1 := (mem_seg.1 (by rw [h]; exact List.mem_cons_self ..)).2
  by_cases hl : x.1.length = w.length
  · have hx : x.1 = w := (hpx.eq_of_length hl.symm).symm
    rw [if_pos hl, out, find_first h hx]
  · rw [if_neg hl, out]
    cases hf : sw.find? fun x => x.1 == w with
    | none => rfl
    | some y =>
      exfalso
      have h1 : y ∈ sw := List.mem_of_find?_eq_some hf
      have h2 : y.1 = w := by simpa using List.find?_some hf
      have h3 : y ∈ seg sw w := mem_seg.2 ⟨h1, h2 ▸ List.prefix_refl _⟩
      have h4 : (seg sw w).Pairwise fun x y => lePair x y = true := List.Pairwise.filter _ hs
      rw [h] at h3 h4
      rcases List.mem_cons.1 h3 with rfl | h3
      · exact hl (by rw [h2])
      · have h5 := lePair_str ((List.pairwise_cons.1 h4).1 y h3)
        obtain ⟨z, hz⟩ := hpx
        rw [h2, ← hz] at h5
        have h6 : leStr (w ++ z) (w ++ []) = true := by rw [List.append_nil]; exact h5
        rw [leStr_append] at h6
        cases z with
        | nil => rw [← hz] at hl; simp at hl
        | cons a z => simp [leStr] at h6

/-! ### Counting the children -/

theorem tally_spec (dep : Nat) (l : List (Str × Nat)) (tbl : Nat → Nat) (cs : List Nat) (hsort : l.Pairwise fun x y => key dep x.1 ≤ key dep y.1)
    (hle : ∀ c ∈ cs, ∀ x ∈ l, c ≤ key dep x.1) (hcs : cs.Pairwise (· < ·)) (hmem : ∀ c, c ∈ cs ↔ tbl c ≠ 0) :
    (∀ c, (tally dep l tbl cs).1 c = tbl c + (l.filter fun x => key dep x.1 == c).length) ∧ (tally dep l tbl cs).2.Pairwise (· < ·) ∧
    ∀ c, c ∈ (tally dep l tbl cs).2 ↔ c ∈ cs ∨ ∃ x ∈ l, key dep x.1 = c := by
  induction l generalizing tbl cs with
  | nil => simp [tally, hcs]
  | cons x l ih =>
    obtain ⟨hx, hl⟩ := List.pairwise_cons.1 hsort
    have hih := ih (fun y => if y = key dep x.1 then tbl y + 1 else tbl y) (if tbl (key dep x.1) = 0 then cs ++ [key dep x.1] else cs) hl ?_ ?_ ?_
    · obtain ⟨h1, h2, h3⟩ := hih
      refine ⟨?_, h2, ?_⟩
      · intro c
        simp only [tally]
        rw [h1 c]
        by_cases hc : key dep x.1 = c
        · subst hc
          simp; omega
        · have : ¬ c = key dep x.1 := fun e => hc e.symm
          simp [this, hc]
      · intro c
        simp only [tally]
        rw [h3 c]
        by_cases h0 : tbl (key dep x.1) = 0
        · rw [if_pos h0]
          rw [List.mem_append, List.mem_singleton]
          simp only [List.mem_cons, exists_eq_or_imp]
          constructor
          · rintro ((h | rfl) | h)
            · exact Or.inl h
            · exact Or.inr (Or.inl rfl)
            · exact Or.inr (Or.inr h)
          · rintro (h | rfl | h)
            · exact Or.inl (Or.inl h)
            · exact Or.inl (Or.inr rfl)
            · exact Or.inr h
        · rw [if_neg h0]
          simp only [List.mem_cons, exists_eq_or_imp]
          constructor
          · rintro (h | h)
            · exact Or.inl h
            · exact Or.inr (Or.inr h)
          · rintro (h | rfl | h)
            · exact Or.inl h
            · exact Or.inl ((hmem _).2 h0)
            · exact Or.inr h
    · intro c hc y hy
      split at hc
      · rcases List.mem_append.1 hc with hc | hc
        · exact hle c hc y (List.mem_cons_of_mem _ hy)
        · rw [List.mem_singleton.1 hc]; exact hx y hy
      · exact hle c hc y (List.mem_cons_of_mem _ hy)
    · split
      case isTrue h0 =>
        rw [List.pairwise_append]
        refine ⟨hcs, List.pairwise_singleton _ _, ?_⟩
        intro a ha b hb
        rw [List.mem_singleton.1 hb]
        refine Nat.lt_of_le_of_ne (hle a ha x (List.mem_cons_self ..)) ?_
        intro e
        exact ((hmem a).1 ha) (e ▸ h0)
      case isFalse => exact hcs
    · intro c
      by_cases hc : c = key dep x.1
      · subst hc
        by_cases h0 : tbl (key dep x.1) = 0
        · simp [h0]
        · simp [h0, (hmem _).2 h0]
      · by_cases h0 : tbl (key dep x.1) = 0
        · simp only [h0, if_true, List.mem_append, List.mem_singleton, hc, or_false, if_false]
          exact hmem c
        · simp only [h0, if_false, hc]
          exact hmem c

theorem filter_split {α : Type} (k : α → Nat) (c : Nat) (l : List α) (hs : l.Pairwise fun x y => k x ≤ k y) (hc : ∀ x ∈ l, c ≤ k x) :
    l = l.filter (fun x => k x == c) ++ l.filter (fun x => k x != c) := by
  induction l with
  | nil => rfl
  | cons x l ih =>
    obtain ⟨hx, hl⟩ := List.pairwise_cons.1 hs
    by_cases h : k x = c
    · have := ih hl fun y hy => hc y (List.mem_cons_of_mem _ hy)
      simp only [List.filter_cons, h, beq_self_eq_true, bne_self_eq_false, if_true, List.cons_append]
      exact congrArg _ this
    · have hlt : c < k x := Nat.lt_of_le_of_ne (hc x (List.mem_cons_self ..)) fun e => h e.symm
      have h1 : l.filter (fun x => k x == c) = [] := by
        rw [List.filter_eq_nil_iff]
        intro y hy
        have := hx y hy
        simp only [beq_iff_eq]
        omega
      have h2 : l.filter (fun x => k x != c) = l := by
        rw [List.filter_eq_self]
        intro y hy
        have := hx y hy
        simp only [bne_iff_ne]
        omega
      simp [h, h1, h2]

theorem grouped {α : Type} (k : α → Nat) (cs : List Nat) (l : List α) (hs : l.Pairwise fun x y => k x ≤ k y) (hcs : cs.Pairwise (· < ·))
    (hm : ∀ x ∈ l, k x ∈ cs) : l = cs.flatMap fun c => l.filter fun x => k x == c := by
  induction cs generalizing l with
  | nil =>
    cases l with
    | nil => rfl
    | cons x l => exact absurd (hm x (List.mem_cons_self ..)) (by simp)
  | cons c cs ih =>
    obtain ⟨h1, h2⟩ := List.pairwise_cons.1 hcs
    have hc : ∀ x ∈ l, c ≤ k x := by
      intro x hx
      rcases List.mem_cons.1 (hm x hx) with h | h
      · exact Nat.le_of_eq h.symm
      · exact Nat.le_of_lt (h1 _ h)
    have h3 := ih (l.filter fun x => k x != c) (List.Pairwise.filter _ hs) h2 (by
      intro x hx
      rw [List.mem_filter] at hx
      rcases List.mem_cons.1 (hm x hx.1) with h | h
      · simp [h] at hx
      · exact h)
    rw [List.flatMap_cons]
    conv => lhs; rw [filter_split k c l hs hc]
    congr 1
    rw [h3]
    rw [List.flatMap_def, List.flatMap_def]
    congr 1
    refine List.map_congr_left ?_
    intro c' hc'
    have hne : c' ≠ c := fun e => Nat.lt_irrefl _ (e ▸ h1 c' hc')
    rw [List.filter_filter]
    refine List.filter_congr ?_
    intro x _
    by_cases h : k x = c'
    · simp [h, hne]
    · simp [h]

/-! ### Nodes -/

/-- A node; nodes outside of the array count as fresh. -/
def nd (nodes : List Node) (x : Nat) : Node := nodes[x]?.getD {}

theorem get_nd {nodes : List Node} {x : Nat} (h : x < nodes.length) : nodes[x]? = some (nd nodes x) := by
  simp [nd, h]

theorem upd_ok {nodes : List Node} {i : Nat} (f : Node → Node) (h : i < nodes.length) :
    ∃ nodes', upd nodes i f = some nodes' ∧ nodes'.length = nodes.length ∧ nd nodes' i = f (nd nodes i) ∧ ∀ x, x ≠ i → nd nodes' x = nd nodes x := by
  refine ⟨nodes.modify i f, by simp [upd, h], by simp, ?_, ?_⟩
  · simp [nd, h]
  · intro x hx
    have : ¬ i = x := fun e => hx e.symm
    simp [nd, this]

theorem nd_resize {nodes : List Node} {n : Nat} (h : nodes.length ≤ n) (x : Nat) : nd (resize nodes n) x = nd nodes x := by
  unfold nd resize
  rw [List.take_of_length_le h, List.getElem?_append]
  split
  · rfl
  case isFalse h' =>
    have h' : nodes[x]? = none := List.getElem?_eq_none (Nat.le_of_not_lt h')
    rw [h', List.getElem?_replicate]
    split <;> rfl

theorem length_resize {nodes : List Node} {n : Nat} (h : nodes.length ≤ n) : (resize nodes n).length = n := by
  simp [resize]; omega

theorem free_spec (nodes : List Node) (base : Nat) (cs : List Nat) (h : ∀ i ∈ cs, base + i < nodes.length) :
    ∃ r, free nodes base cs = some r ∧ (r = true ↔ ∀ i ∈ cs, (nd nodes (base + i)).check = none) := by
  induction cs with
  | nil => exact ⟨true, rfl, by simp⟩
  | cons i cs ih =>
    obtain ⟨r, h1, h2⟩ := ih fun i hi => h i (List.mem_cons_of_mem _ hi)
    rw [free, get_nd (h i (List.mem_cons_self ..))]
    cases hc : (nd nodes (base + i)).check with
    | none => exact ⟨r, by simp [hc, h1], by simp [hc, h2]⟩
    | some p => exact ⟨false, by simp [hc], by simp [hc]⟩

theorem findBase_spec (nodes : List Node) (cs : List Nat) (M : Nat) (hM : M + 256 ≤ nodes.length) (hcs : ∀ i ∈ cs, 0 < i ∧ i < 256)
    (hchk : ∀ x p, (nd nodes x).check = some p → x ≤ M) (fuel base : Nat) (hb : base ≤ M) (hf : M < fuel + base) :
    ∃ b, findBase nodes cs fuel base = some b ∧ base ≤ b ∧ b ≤ M ∧ ∀ i ∈ cs, (nd nodes (b + i)).check = none := by
  induction fuel generalizing base with
  | zero => omega
  | succ fuel ih =>
    obtain ⟨r, h1, h2⟩ := free_spec nodes base cs fun i hi => by have := hcs i hi; omega
    rw [findBase, h1]
    cases r with
    | true => exact ⟨base, rfl, Nat.le_refl _, hb, h2.1 rfl⟩
    | false =>
      have hlt : base < M := by
        rcases Nat.lt_or_eq_of_le hb with h | h
        · exact h
        · exfalso
          have : false = true := h2.2 fun i hi => by
            cases hc : (nd nodes (base + i)).check with
            | none => rfl
            | some p =>
              have := hchk _ _ hc
              have := hcs i hi
              omega
          cases this
      obtain ⟨b, h3, h4, h5, h6⟩ := ih (base + 1) hlt (by omega)
      exact ⟨b, h3, by omega, h5, h6⟩

/-- The entries put onto the stack. -/
def kids (base dep ix : Nat) (tbl : Nat → Nat) : List Nat → Nat → List Entry
  | [], _ => []
  | i :: cs, cur =>
    if 0 < i ∧ 0 < tbl i then ⟨base + i, dep + 1, ix + cur, tbl i⟩ :: kids base dep ix tbl cs (cur + tbl i)
    else kids base dep ix tbl cs (cur + tbl i)

theorem place_spec (pos base dep ix : Nat) (tbl : Nat → Nat) (cs : List Nat) (cur : Nat) (nodes : List Node) (ss : List Entry) (M : Nat)
    (hM : M + 256 ≤ nodes.length) :
    ∃ nodes' M', place pos base dep ix tbl cs cur nodes ss = some (nodes', (kids base dep ix tbl cs cur).reverse ++ ss) ∧
      M ≤ M' ∧ M' + 256 ≤ nodes'.length ∧ (∀ i ∈ cs, 0 < i → 0 < tbl i → base + i ≤ M') ∧
      (∀ i ∈ cs, 0 < i → 0 < tbl i → nd nodes' (base + i) = { nd nodes (base + i) with check := some pos }) ∧
      ∀ x, (∀ i ∈ cs, 0 < i → 0 < tbl i → x ≠ base + i) → nd nodes' x = nd nodes x := by
  induction cs generalizing cur nodes ss M with
  | nil => exact ⟨nodes, M, by simp [place, kids], Nat.le_refl _, hM, by simp, by simp, fun _ _ => rfl⟩
  | cons i cs ih =>
    by_cases hi : 0 < i ∧ 0 < tbl i
    · rw [place, if_pos hi, kids, if_pos hi]
      simp only
      generalize hn : (if nodes.length ≤ base + i + 256 then resize nodes (base + i + 256) else nodes) = nodes1
      have h1 : (∀ x, nd nodes1 x = nd nodes x) ∧ nodes.length ≤ nodes1.length ∧ base + i + 256 ≤ nodes1.length := by
        subst hn
        split
        case isTrue h => exact ⟨nd_resize h, by rw [length_resize h]; exact h, by rw [length_resize h]; exact Nat.le_refl _⟩
        case isFalse h => exact ⟨fun _ => rfl, Nat.le_refl _, by omega⟩
      obtain ⟨h1, h2, h3⟩ := h1
      obtain ⟨nodes2, h4, h5, h6, h7⟩ := upd_ok (i := base + i) (fun x => { x with check := some pos }) (by omega : base + i < nodes1.length)
      rw [h4]
      obtain ⟨nodes', M', g1, g2, g3, g4, g5, g6⟩ := ih (cur + tbl i) nodes2 (⟨base + i, dep + 1, ix + cur, tbl i⟩ :: ss) (max M (base + i))
        (by omega)
      refine ⟨nodes', M', ?_, by omega, g3, ?_, ?_, ?_⟩
      · simp only [g1, List.reverse_cons, List.append_assoc, List.singleton_append]
      · intro j hj hj0 hjt
        rcases List.mem_cons.1 hj with rfl | hj
        · omega
        · exact g4 j hj hj0 hjt
      · intro j hj hj0 hjt
        by_cases hjc : j ∈ cs
        · rw [g5 j hjc hj0 hjt]
          by_cases he : base + j = base + i
          · rw [he, h6, h1]
          · rw [h7 _ he, h1]
        · rcases List.mem_cons.1 hj with rfl | hj
          · rw [g6 _ (by intro k hk _ _ e; exact hjc (by have : j = k := by omega
                                                         rw [this]; exact hk)), h6, h1]
          · exact absurd hj hjc
      · intro x hx
        rw [g6 x fun k hk => hx k (List.mem_cons_of_mem _ hk), h7 x (hx i (List.mem_cons_self ..) hi.1 hi.2), h1]
    · rw [place, if_neg hi, kids, if_neg hi]
      obtain ⟨nodes', M', g1, g2, g3, g4, g5, g6⟩ := ih (cur + tbl i) nodes ss M hM
      refine ⟨nodes', M', g1, g2, g3, ?_, ?_, ?_⟩
      · intro j hj hj0 hjt
        rcases List.mem_cons.1 hj with rfl | hj
        · exact absurd ⟨hj0, hjt⟩ hi
        · exact g4 j hj hj0 hjt
      · intro j hj hj0 hjt
        rcases List.mem_cons.1 hj with rfl | hj
        · exact absurd ⟨hj0, hjt⟩ hi
        · exact g5 j hj hj0 hjt
      · intro x hx
        exact g6 x fun k hk => hx k (List.mem_cons_of_mem _ hk)

/-- How much there is to do below an entry. -/
def work (sw : List (Str × Nat)) (e : Entry) : Nat := (((sw.drop e.ix).take e.n).map fun x => x.1.length + 1 - e.dep).sum

theorem kids_spec (sw : List (Str × Nat)) (base dep ix : Nat) (tbl : Nat → Nat) (g : Nat → List (Str × Nat)) (hg : ∀ c, (g c).length = tbl c)
    (cs : List Nat) (cur : Nat) (rest : List (Str × Nat)) (hr : rest = cs.flatMap g) (hd : (sw.drop (ix + cur)).take rest.length = rest)
    (hlen : ix + cur + rest.length ≤ sw.length) :
    (∀ e ∈ kids base dep ix tbl cs cur, ∃ c ∈ cs, 0 < c ∧ 0 < tbl c ∧ e.pos = base + c ∧ e.dep = dep + 1 ∧ (sw.drop e.ix).take e.n = g c ∧
      e.ix + e.n ≤ sw.length) ∧
    ((kids base dep ix tbl cs cur).map (work sw)).sum ≤ (rest.map fun x => x.1.length - dep).sum := by
  induction cs generalizing cur rest with
  | nil => simp [kids]
  | cons c cs ih =>
    rw [List.flatMap_cons] at hr
    have hlr : rest.length = tbl c + (cs.flatMap g).length := by rw [hr, List.length_append, hg]
    have h1 : (sw.drop (ix + cur)).take (tbl c) = g c := by
      have : ((sw.drop (ix + cur)).take rest.length).take (tbl c) = g c := by rw [hd, hr, ← hg c, List.take_left']; rfl
      rwa [List.take_take, Nat.min_eq_left (by omega)] at this
    have h2 : (sw.drop (ix + (cur + tbl c))).take (cs.flatMap g).length = cs.flatMap g := by
      have : ((sw.drop (ix + cur)).take rest.length).drop (tbl c) = cs.flatMap g := by rw [hd, hr, ← hg c, List.drop_left']; rfl
      rw [List.drop_take, List.drop_drop, Nat.add_assoc] at this
      rwa [show rest.length - tbl c = (cs.flatMap g).length by omega] at this
    obtain ⟨i1, i2⟩ := ih (cur + tbl c) (cs.flatMap g) rfl h2 (by omega)
    by_cases hc : 0 < c ∧ 0 < tbl c
    · rw [kids, if_pos hc]
      constructor
      · intro e he
        rcases List.mem_cons.1 he with rfl | he
        · exact ⟨c, List.mem_cons_self .., hc.1, hc.2, rfl, rfl, h1, by simp only; omega⟩
        · obtain ⟨c', h, h'⟩ := i1 e he
          exact ⟨c', List.mem_cons_of_mem _ h, h'⟩
      · rw [List.map_cons, List.sum_cons, hr, List.map_append, List.sum_append]
        refine Nat.add_le_add ?_ i2
        simp only [work, h1]
        refine Nat.le_of_eq ?_
        congr 1
        refine List.map_congr_left ?_
        intro x _
        omega
    · rw [kids, if_neg hc]
      constructor
      · intro e he
        obtain ⟨c', h, h'⟩ := i1 e he
        exact ⟨c', List.mem_cons_of_mem _ h, h'⟩
      · rw [hr, List.map_append, List.sum_append]
        omega

theorem kids_pos (base dep ix : Nat) (tbl : Nat → Nat) (cs : List Nat) (cur : Nat) :
    (kids base dep ix tbl cs cur).map Entry.pos = (cs.filter fun c => 0 < c ∧ 0 < tbl c).map (base + ·) := by
  induction cs generalizing cur with
  | nil => rfl
  | cons c cs ih =>
    by_cases hc : 0 < c ∧ 0 < tbl c
    · rw [kids, if_pos hc, List.filter_cons_of_pos (by simpa using hc), List.map_cons, List.map_cons, ih]
    · rw [kids, if_neg hc, List.filter_cons_of_neg (by simpa using hc), ih]

end Verif.AhoCorasick.Lemmas
