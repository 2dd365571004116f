import Verif.AhoCorasick.LinkLemmas
/-!
# Searching
-/
namespace Verif.AhoCorasick.Lemmas
open Verif.AhoCorasick Verif.AhoCorasick.Spec

theorem out_ixwords (words : List Str) (w : Str) : out (ixwords words) w = match words.idxOf? w with
    | some id => (id : Int)
    | none => -1 := by
  have hmem : ∀ x, x ∈ ixwords words ↔ words[x.2]? = some x.1 := by
    intro x
    rw [(perm_ixwords words).mem_iff]
    exact List.mem_zipIdx_iff_getElem?
  unfold out
  cases hf : (ixwords words).find? fun x => x.1 == w with
  | none =>
    have : words.idxOf? w = none := by
      rw [List.idxOf?_eq_none_iff]
      intro hw
      obtain ⟨i, hi⟩ := List.getElem?_of_mem hw
      have := List.find?_eq_none.1 hf (w, i) ((hmem _).2 hi)
      simp at this
    rw [this]
  | some x =>
    obtain ⟨hx, as, bs, hab, has⟩ := List.find?_eq_some_iff_append.1 hf
    have hxw : x.1 = w := by simpa using hx
    have hxm : words[x.2]? = some w := by
      rw [← hxw]
      exact (hmem x).1 (by rw [hab]; simp)
    have hmin : ∀ j, words[j]? = some w → x.2 ≤ j := by
      intro j hj
      have h1 : (w, j) ∈ ixwords words := (hmem _).2 hj
      have hs := sorted_ixwords words
      unfold Sorted at hs
      rw [hab] at h1 hs
      rcases List.mem_append.1 h1 with h1 | h1
      · have := has _ h1
        simp at this
      · rcases List.mem_cons.1 h1 with h1 | h1
        · rw [← h1]; exact Nat.le_refl _
        · have h2 := (List.pairwise_cons.1 (List.pairwise_append.1 hs).2.1).1 _ h1
          rw [lePair, if_pos hxw, decide_eq_true_eq] at h2
          exact h2
    have : words.idxOf? w = some x.2 := by
      rw [List.idxOf?, List.findIdx?_eq_some_iff_getElem]
      obtain ⟨hl, hg⟩ := List.getElem?_eq_some_iff.1 hxm
      refine ⟨hl, by simp [hg], ?_⟩
      intro j hj
      simp only [beq_iff_eq]
      intro e
      have := hmin j (by rw [List.getElem?_eq_getElem (by omega), e])
      omega
    rw [this]

theorem report_T {words : List Str} {v : Str} (e : Nat) (hT : T (ixwords words) v) (hv : v ≠ []) :
    report words e v = if 0 ≤ out (ixwords words) v then [(out (ixwords words) v, e)] else [] := by
  rw [report, if_neg (by simp [hv, hT.1]), out_ixwords]
  cases words.idxOf? v with
  | none => simp
  | some id => simp

theorem report_not_T {words : List Str} {v : Str} (e : Nat) (hT : ¬ T (ixwords words) v) : report words e v = [] := by
  rw [report]
  split
  · rfl
  case isFalse h =>
    cases hi : words.idxOf? v with
    | none => rfl
    | some id =>
      exfalso
      refine hT ⟨fun h0 => h (Or.inr h0), (v, id), ?_, List.prefix_refl _⟩
      rw [(perm_ixwords words).mem_iff, List.mem_zipIdx_iff_getElem?]
      rw [List.idxOf?, List.findIdx?_eq_some_iff_getElem] at hi
      obtain ⟨h1, h2, _⟩ := hi
      rw [List.getElem?_eq_getElem h1]
      simpa using h2

/-- What is to be reported for the suffixes of a text. -/
def occ (words : List Str) (e : Nat) : Str → List (Int × Nat)
  | [] => []
  | a :: t => report words e (a :: t) ++ occ words e t

theorem occ_eq_range (words : List Str) (e : Nat) (t : Str) :
    occ words e t = (List.range t.length).flatMap fun b => report words e (t.drop b) := by
  induction t with
  | nil => rfl
  | cons a t ih =>
    rw [occ, ih, List.length_cons, List.range_succ_eq_map, List.flatMap_cons, List.flatMap_map]
    rfl

theorem occ_suffix {words : List Str} (e : Nat) {t v : Str} (hv : v <:+ t) (h : ∀ u, u <:+ t → T (ixwords words) u → u.length ≤ v.length) :
    occ words e t = occ words e v := by
  induction t with
  | nil => rw [List.suffix_nil.1 hv]
  | cons a t ih =>
    rcases List.suffix_cons_iff.1 hv with rfl | hv'
    · rfl
    · have hn : ¬ T (ixwords words) (a :: t) := by
        intro hT
        have h1 := h _ (List.suffix_refl _) hT
        have h2 := hv'.length_le
        simp at h1
        omega
      rw [occ, report_not_T e hn, List.nil_append]
      exact ih hv' fun u hu => h u (hu.trans (List.suffix_cons a t))

section
variable {words : List Str} {f : Nat → Node} {nodes : List Node} (ht : Trie (ixwords words) f nodes.length) (ha : Auto (ixwords words) f (nd nodes))
include ht ha

theorem emit_spec (e : Nat) (fuel : Nat) {w : Str} {cur : Nat} (hw : At f w cur) (hf : w.length < fuel) :
    emit nodes e fuel cur = some (occ words e w) := by
  induction fuel generalizing w cur with
  | zero => omega
  | succ fuel ih =>
    rw [emit]
    by_cases h0 : cur = 0
    · subst h0
      rw [if_pos rfl, at_inj ht.root hw .root]
      rfl
    · rw [if_neg h0, get_nd (ht.bound _ _ hw).1]
      have hwn : w ≠ [] := by
        rintro rfl
        exact h0 (at_nil hw)
      obtain ⟨v, r, ⟨h1, h2, h3, h4⟩, h5, h6⟩ := (ha.linked w cur hw).2 hwn
      simp only [Option.bind_eq_bind, Option.bind_some, h6, ih h5 (by omega)]
      have hT := ht.sound _ _ hw
      have hr := report_T e hT hwn
      obtain ⟨a, w', rfl⟩ := List.exists_cons_of_ne_nil hwn
      have hv' : v <:+ w' := by
        rcases List.suffix_cons_iff.1 h1 with rfl | h
        · omega
        · exact h
      have ho : occ words e w' = occ words e v := occ_suffix e hv' fun u hu hTu =>
        h4 u (hu.trans (List.suffix_cons a w')) (by have := hu.length_le; simp; omega) hTu
      rw [occ, hr, ho]
      rcases ha.outs _ _ hw with g | ⟨g1, g2⟩
      · rw [g]
        split <;> rfl
      · rw [g2, g1]
        rfl

theorem follow_spec (c : UInt8) (fuel : Nat) {w : Str} {pos : Nat} (hw : At f w pos) (hf : w.length < fuel) :
    ∃ pos' u, follow nodes c.toNat fuel pos = some pos' ∧ At f u pos' ∧ u <:+ w ∧
      (∀ v, v <:+ w → T (ixwords words) (v ++ [c]) → v.length ≤ u.length) ∧
      (¬ T (ixwords words) (u ++ [c]) → u = []) := by
  induction fuel generalizing w pos with
  | zero => omega
  | succ fuel ih =>
    rw [follow]
    by_cases h0 : 0 < pos
    · have hwn : w ≠ [] := by
        rintro rfl
        rw [at_nil hw] at h0
        omega
      have hb := ht.bound _ _ hw
      have hc := UInt8.toNat_lt c
      rw [if_pos h0, get_nd hb.1]
      simp only [Option.bind_eq_bind, Option.bind_some, (ha.shape pos).1]
      rw [get_nd (by omega : (f pos).base + c.toNat < nodes.length)]
      simp only [Option.bind_some, (ha.shape _).2]
      by_cases hT : T (ixwords words) (w ++ [c])
      · rw [if_neg (by rw [(ht.trans hw).2 hT]; simp)]
        exact ⟨pos, w, rfl, hw, List.suffix_refl w, fun v hv _ => hv.length_le, fun h => absurd hT h⟩
      · rw [if_pos (by rw [ne_eq, ht.trans hw]; exact hT)]
        obtain ⟨v, r, ⟨h1, h2, h3, h4⟩, h5, h6⟩ := (ha.linked w pos hw).2 hwn
        obtain ⟨pos', u, g1, g2, g3, g4, g5⟩ := ih h5 (by omega)
        refine ⟨pos', u, by rw [h6]; exact g1, g2, g3.trans h1, ?_, g5⟩
        intro v' hv' hT'
        have hlt : v'.length < w.length := by
          refine Nat.lt_of_le_of_ne hv'.length_le ?_
          intro e
          exact hT (hv'.eq_of_length e ▸ hT')
        exact g4 v' (suffix_le hv' h1 (h4 v' hv' hlt (T_prefix hT').1)) hT'
    · rw [if_neg h0]
      have : pos = 0 := by omega
      subst this
      have hwn := at_inj ht.root hw .root
      subst hwn
      exact ⟨0, [], rfl, .root, List.suffix_refl _, fun v hv _ => hv.length_le, fun _ => rfl⟩

theorem scan_spec (s t : Str) {w : Str} {pos : Nat} (hw : At f w pos) (h1 : w <:+ t) (h2 : ∀ u, u <:+ t → T (ixwords words) u → u.length ≤ w.length) :
    scan nodes s t.length pos = some ((List.range s.length).flatMap fun j => occ words (t.length + j + 1) (t ++ s.take (j + 1))) := by
  induction s generalizing t w pos with
  | nil => simp [scan]
  | cons c s ih =>
    obtain ⟨pos', u, g1, g2, g3, g4, g5⟩ := follow_spec ht ha c (nodes.length + 1) hw (by have := ht.depth hw; omega)
    have hb := ht.bound _ _ g2
    have hc := UInt8.toNat_lt c
    have hbc : (f pos').base + c.toNat < nodes.length := by omega
    rw [scan, g1]
    simp only [Option.bind_eq_bind, Option.bind_some]
    rw [get_nd hb.1]
    simp only [Option.bind_some, (ha.shape pos').1]
    rw [get_nd hbc]
    simp only [Option.bind_some, (ha.shape _).2]
    -- suffixes of the longer text
    have hsuf : ∀ v, v <:+ t ++ [c] → T (ixwords words) v → v = [] ∨ ∃ v', v = v' ++ [c] ∧ v' <:+ w ∧ v'.length ≤ u.length := by
      intro v hv hT
      by_cases hvn : v = []
      · exact Or.inl hvn
      · obtain ⟨v', rfl, hv'⟩ := suffix_snoc hv hvn
        have hv'' := suffix_le hv' h1 (h2 v' hv' (T_prefix hT).1)
        exact Or.inr ⟨v', rfl, hv'', g4 v' hv'' hT⟩
    have hrange : (List.range (c :: s).length).flatMap (fun j => occ words (t.length + j + 1) (t ++ (c :: s).take (j + 1))) =
        occ words (t.length + 1) (t ++ [c]) ++
          (List.range s.length).flatMap fun j => occ words ((t ++ [c]).length + j + 1) (t ++ [c] ++ s.take (j + 1)) := by
      rw [List.length_cons, List.range_succ_eq_map, List.flatMap_cons, List.flatMap_map]
      congr 1
      rw [List.flatMap_def, List.flatMap_def]
      congr 1
      refine List.map_congr_left ?_
      intro j _
      simp only [List.length_append, List.length_singleton, List.take_succ_cons, List.append_assoc, List.singleton_append]
      congr 1
      omega
    rw [hrange]
    by_cases hT : T (ixwords words) (u ++ [c])
    · rw [if_neg (by rw [(ht.trans g2).2 hT]; simp)]
      have hchild := ht.child g2 hT
      have hus : u ++ [c] <:+ t ++ [c] := by
        obtain ⟨x, hx⟩ := g3.trans h1
        exact ⟨x, by rw [← List.append_assoc, hx]⟩
      have hmax : ∀ v, v <:+ t ++ [c] → T (ixwords words) v → v.length ≤ (u ++ [c]).length := by
        intro v hv hTv
        rcases hsuf v hv hTv with rfl | ⟨v', rfl, _, hl⟩
        · simp
        · simpa using hl
      have hrest := ih (t ++ [c]) hchild hus hmax
      rw [List.length_append, List.length_singleton] at hrest
      have hemit : (if (nd nodes ((f pos').base + c.toNat)).output ≠ -1 then
          emit nodes (t.length + 1) (nodes.length + 1) ((f pos').base + c.toNat) else some []) = some (occ words (t.length + 1) (t ++ [c])) := by
        rw [occ_suffix (t.length + 1) hus hmax]
        by_cases ho : (nd nodes ((f pos').base + c.toNat)).output = -1
        · rw [if_neg (by simpa using ho)]
          have hskip := ha.skip _ _ hchild ho
          have hnone : ∀ x : Str, x <:+ u ++ [c] → occ words (t.length + 1) x = [] := by
            intro x
            induction x with
            | nil => intro _; rfl
            | cons a x ihx =>
              intro hx
              rw [occ, ihx ((List.suffix_cons a x).trans hx), List.append_nil]
              by_cases hTx : T (ixwords words) (a :: x)
              · rw [report_T _ hTx (by simp), hskip _ hx hTx]
                rfl
              · exact report_not_T _ hTx
          rw [hnone _ (List.suffix_refl _)]
        · rw [if_pos ho]
          exact emit_spec ht ha _ _ hchild (by have := ht.depth hchild; omega)
      simp only [hemit, Option.bind_some, hrest]
      simp
    · rw [if_pos (by rw [ne_eq, ht.trans g2]; exact hT)]
      have hun := g5 hT
      subst hun
      have hmax : ∀ v, v <:+ t ++ [c] → T (ixwords words) v → v.length ≤ ([] : Str).length := by
        intro v hv hTv
        rcases hsuf v hv hTv with rfl | ⟨v', rfl, _, hl⟩
        · simp
        · have : v' = [] := List.length_eq_zero_iff.1 (by simpa using hl)
          subst this
          exact absurd hTv hT
      have hrest := ih (t ++ [c]) g2 List.nil_suffix hmax
      rw [List.length_append, List.length_singleton] at hrest
      rw [hrest, occ_suffix (t.length + 1) List.nil_suffix hmax]
      simp [occ]

end

end Verif.AhoCorasick.Lemmas
