import Verif.AhoCorasick.TrieLemmas
/-!
# The loop that builds the trie
-/
namespace Verif.AhoCorasick.Lemmas
open Verif.AhoCorasick

/-- The node of a string. -/
inductive At (f : Nat → Node) : Str → Nat → Prop
  | root : At f [] 0
  | child {w : Str} {p q : Nat} {c : UInt8} : At f w p → q = (f p).base + c.toNat → (f q).check = some p → At f (w ++ [c]) q

theorem at_nil {f : Nat → Node} {p : Nat} (h : At f [] p) : p = 0 := by
  generalize hw : ([] : Str) = w at h
  cases h with
  | root => rfl
  | child => simp at hw

theorem at_snoc {f : Nat → Node} {w : Str} {c : UInt8} {q : Nat} (h : At f (w ++ [c]) q) :
    ∃ p, At f w p ∧ q = (f p).base + c.toNat ∧ (f q).check = some p := by
  generalize hw : w ++ [c] = v at h
  cases h with
  | root => simp at hw
  | child h1 h2 h3 =>
    rw [← List.concat_eq_append, ← List.concat_eq_append, List.concat_inj] at hw
    obtain ⟨rfl, rfl⟩ := hw
    exact ⟨_, h1, h2, h3⟩

theorem at_fun {f : Nat → Node} {w : Str} {p q : Nat} (h1 : At f w p) (h2 : At f w q) : p = q := by
  induction h1 generalizing q with
  | root => exact (at_nil h2).symm
  | child h e k ih =>
    obtain ⟨p', g1, g2, g3⟩ := at_snoc h2
    have := ih g1
    subst this
    rw [e, g2]

theorem at_check {f : Nat → Node} {w : Str} {p : Nat} (h : At f w p) : p = 0 ∨ ∃ q, (f p).check = some q := by
  cases h with
  | root => exact Or.inl rfl
  | child _ _ h => exact Or.inr ⟨_, h⟩

theorem at_inj {f : Nat → Node} (hroot : (f 0).check = none) {w v : Str} {p : Nat} (h1 : At f w p) (h2 : At f v p) : w = v := by
  induction h1 generalizing v with
  | root =>
    cases h2 with
    | root => rfl
    | child _ _ h => rw [hroot] at h; cases h
  | @child w p q c h e k ih =>
    cases h2 with
    | root => rw [hroot] at k; cases k
    | @child v p' _ c' h' e' k' =>
      rw [k] at k'
      cases k'
      rw [e] at e'
      have : c = c' := UInt8.toNat_inj.1 (by omega)
      rw [ih h', this]

theorem T_prefix {sw : List (Str × Nat)} {w : Str} {c : UInt8} (h : T sw (w ++ [c])) : T sw w ∧ c ≠ 0 := by
  obtain ⟨h0, x, hx, hp⟩ := h
  refine ⟨⟨fun h => h0 (List.mem_append_left _ h), x, hx, (List.prefix_append w [c]).trans hp⟩, ?_⟩
  rintro rfl
  exact h0 (by simp)

/-- The invariant of the loop. -/
structure Inv (sw : List (Str × Nat)) (f : Nat → Node) (bef M : Nat) (ss : List Entry) : Prop where
  one : 1 ≤ M
  bef : bef ≤ M
  chk : ∀ x p, (f x).check = some p → x ≤ M
  base : ∀ x, (f x).base ≤ M
  root : (f 0).check = none
  fail : ∀ x, (f x).fail = none
  fresh : ∀ x, x ≠ 0 → (f x).check = none → (f x).output = -1
  edge : ∀ x p, (f x).check = some p → p ∉ ss.map Entry.pos ∧ ∃ w c, At f w p ∧ x = (f p).base + c.toNat ∧ T sw (w ++ [c])
  ent : ∀ e ∈ ss, ∃ w, At f w e.pos ∧ e.dep = w.length ∧ T sw w ∧ (sw.drop e.ix).take e.n = seg sw w ∧ e.ix + e.n ≤ sw.length ∧
    (f e.pos).output = -1
  nodup : (ss.map Entry.pos).Nodup
  done : ∀ w p, At f w p → p ∉ ss.map Entry.pos → (f p).output = out sw w ∧ ∀ c, T sw (w ++ [c]) → (f ((f p).base + c.toNat)).check = some p

/-- The nodes after one round. -/
structure Next (f f' : Nat → Node) (pos b : Nat) (o : Int) (C : List Nat) : Prop where
  self : f' pos = { f pos with base := b, output := o }
  slot : ∀ i ∈ C, f' (b + i) = { f (b + i) with check := some pos }
  rest : ∀ x, x ≠ pos → (∀ i ∈ C, x ≠ b + i) → f' x = f x

theorem inv_at_T {sw : List (Str × Nat)} {f : Nat → Node} {bef M : Nat} {ss : List Entry} (h : Inv sw f bef M ss) (hne : sw ≠ []) {w : Str} {p : Nat}
    (hw : At f w p) : T sw w := by
  cases hw with
  | root =>
    obtain ⟨x, hx⟩ := List.exists_mem_of_ne_nil _ hne
    exact ⟨by simp, x, hx, List.nil_prefix⟩
  | @child w p q c h1 h2 h3 =>
    obtain ⟨_, v, c', h4, h5, h6⟩ := h.edge _ _ h3
    have := at_inj h.root h1 h4
    subst this
    have : c = c' := UInt8.toNat_inj.1 (by omega)
    rw [this]
    exact h6

theorem inv_at_le {sw : List (Str × Nat)} {f : Nat → Node} {bef M : Nat} {ss : List Entry} (h : Inv sw f bef M ss) {w : Str} {p : Nat}
    (hw : At f w p) : p ≤ M := by
  rcases at_check hw with rfl | ⟨q, hq⟩
  · omega
  · exact h.chk _ _ hq

theorem inv_next {sw : List (Str × Nat)} (hne : sw ≠ []) {f f' : Nat → Node} {bef M M' : Nat} {e : Entry} {ss : List Entry}
    (h : Inv sw f bef M (e :: ss)) {w : Str} (hw : At f w e.pos) (hdep : e.dep = w.length) {b : Nat} (hb1 : 1 ≤ b) (hbM : b ≤ M) {C : List Nat}
    (hC : ∀ i, i ∈ C ↔ 0 < i ∧ ∃ x ∈ seg sw w, key w.length x.1 = i) (hfree : ∀ i ∈ C, (f (b + i)).check = none)
    (hn : Next f f' e.pos b (out sw w) C) (hMM : M ≤ M') (hCM : ∀ i ∈ C, b + i ≤ M') {ks : List Entry}
    (hks : ∀ k ∈ ks, ∃ i ∈ C, k.pos = b + i ∧ k.dep = e.dep + 1 ∧ (sw.drop k.ix).take k.n = (seg sw w).filter (fun x => key w.length x.1 == i) ∧
      k.ix + k.n ≤ sw.length)
    (hkp : ks.map Entry.pos = C.map (b + ·)) (hCn : C.Nodup) : Inv sw f' b M' (ks.reverse ++ ss) := by
  have hT : T sw w := inv_at_T h hne hw
  have hCT : ∀ i, i ∈ C ↔ ∃ c : UInt8, c.toNat = i ∧ T sw (w ++ [c]) := by
    intro i
    rw [hC i]
    constructor
    · rintro ⟨h0, x, hx, rfl⟩
      have hlt := key_lt w.length x.1
      refine ⟨UInt8.ofNat (key w.length x.1), ?_, ?_⟩
      · simp; omega
      · have hne0 : UInt8.ofNat (key w.length x.1) ≠ 0 := by
          intro e
          have := congrArg UInt8.toNat e
          simp at this
          omega
        have hk := (key_eq (mem_seg.1 hx).2 _ hne0).1 (by simp; omega)
        refine ⟨?_, x, (mem_seg.1 hx).1, hk⟩
        intro hm
        rcases List.mem_append.1 hm with hm | hm
        · exact hT.1 hm
        · exact hne0 (List.mem_singleton.1 hm).symm
    · rintro ⟨c, rfl, hc⟩
      obtain ⟨hT', hc0⟩ := T_prefix hc
      obtain ⟨_, x, hx, hp⟩ := hc
      have hp' : w <+: x.1 := (List.prefix_append w [c]).trans hp
      refine ⟨?_, x, mem_seg.2 ⟨hx, hp'⟩, (key_eq hp' c hc0).2 hp⟩
      have : c.toNat ≠ 0 := fun e => hc0 (UInt8.toNat_inj.1 e)
      omega
  have hposin : e.pos ∈ (e :: ss).map Entry.pos := by simp
  have hposcheck : ∀ i ∈ C, b + i ≠ e.pos := by
    intro i hi he
    rcases at_check hw with h0 | ⟨q, hq⟩
    · omega
    · rw [← he, hfree i hi] at hq; cases hq
  -- the nodes that were there
  have hold : ∀ x p, (f x).check = some p → (f' x).check = some p := by
    intro x p hx
    by_cases hxp : x = e.pos
    · subst hxp; rw [hn.self]; exact hx
    · by_cases hs : ∃ i ∈ C, x = b + i
      · obtain ⟨i, hi, rfl⟩ := hs
        rw [hfree i hi] at hx; cases hx
      · rw [hn.rest x hxp fun i hi he => hs ⟨i, hi, he⟩]; exact hx
  have hnew : ∀ x p, (f' x).check = some p → (f x).check = some p ∨ (p = e.pos ∧ ∃ i ∈ C, x = b + i) := by
    intro x p hx
    by_cases hs : ∃ i ∈ C, x = b + i
    · obtain ⟨i, hi, rfl⟩ := hs
      rw [hn.slot i hi] at hx
      cases hx
      exact Or.inr ⟨rfl, i, hi, rfl⟩
    · by_cases hxp : x = e.pos
      · subst hxp
        rw [hn.self] at hx
        exact Or.inl hx
      · rw [hn.rest x hxp fun i hi he => hs ⟨i, hi, he⟩] at hx
        exact Or.inl hx
  have hbase : ∀ x, x ≠ e.pos → (f' x).base = (f x).base := by
    intro x hxp
    by_cases hs : ∃ i ∈ C, x = b + i
    · obtain ⟨i, hi, rfl⟩ := hs
      rw [hn.slot i hi]
    · rw [hn.rest x hxp fun i hi he => hs ⟨i, hi, he⟩]
  have hout : ∀ x, x ≠ e.pos → (f' x).output = (f x).output := by
    intro x hxp
    by_cases hs : ∃ i ∈ C, x = b + i
    · obtain ⟨i, hi, rfl⟩ := hs
      rw [hn.slot i hi]
    · rw [hn.rest x hxp fun i hi he => hs ⟨i, hi, he⟩]
  have hpb : (f' e.pos).base = b := by rw [hn.self]
  have hnot : ∀ x p, (f x).check = some p → p ≠ e.pos := by
    intro x p hx he
    exact (h.edge x p hx).1 (by simp [he])
  have hat : ∀ v q, At f v q → At f' v q := by
    intro v q hv
    induction hv with
    | root => exact .root
    | child h1 h2 h3 ih => exact .child ih (by rw [hbase _ (hnot _ _ h3)]; exact h2) (hold _ _ h3)
  have hslotC : ∀ i ∈ C, ∃ c : UInt8, c.toNat = i ∧ T sw (w ++ [c]) ∧ At f' (w ++ [c]) (b + i) := by
    intro i hi
    obtain ⟨c, hc, hcT⟩ := (hCT i).1 hi
    refine ⟨c, hc, hcT, .child (hat _ _ hw) ?_ ?_⟩
    · rw [hpb, hc]
    · rw [hn.slot i hi]
  have hat' : ∀ v q, At f' v q → (At f v q ∧ ∀ i ∈ C, q ≠ b + i) ∨ ∃ c : UInt8, v = w ++ [c] ∧ c.toNat ∈ C ∧ q = b + c.toNat := by
    intro v q hv
    induction hv with
    | root => exact Or.inl ⟨.root, fun i hi => by omega⟩
    | @child v p q c h1 h2 h3 ih =>
      rcases hnew _ _ h3 with h4 | ⟨rfl, i, hi, rfl⟩
      · rcases ih with ⟨ih, _⟩ | ⟨c', rfl, hc', rfl⟩
        · refine Or.inl ⟨.child ih (by rw [← hbase _ (hnot _ _ h4)]; exact h2) h4, ?_⟩
          intro i hi he
          rw [he, hfree i hi] at h4; cases h4
        · obtain ⟨_, u, _, hu, _⟩ := h.edge _ _ h4
          rcases at_check hu with h0 | ⟨r, hr⟩
          · omega
          · rw [hfree _ hc'] at hr; cases hr
      · rcases ih with ⟨ih, _⟩ | ⟨c', rfl, hc', hq⟩
        · have := at_inj h.root ih hw
          subst this
          rw [hpb] at h2
          have hci : c.toNat = i := by omega
          exact Or.inr ⟨c, rfl, hci ▸ hi, by rw [hci]⟩
        · exact absurd hq.symm (hposcheck _ hc')
  have hmem : ∀ x, x ∈ (ks.reverse ++ ss).map Entry.pos ↔ (∃ i ∈ C, x = b + i) ∨ x ∈ ss.map Entry.pos := by
    intro x
    rw [List.map_append, List.mem_append, List.map_reverse, List.mem_reverse, hkp, List.mem_map]
    constructor
    · rintro (⟨i, hi, rfl⟩ | h)
      · exact Or.inl ⟨i, hi, rfl⟩
      · exact Or.inr h
    · rintro (⟨i, hi, rfl⟩ | h)
      · exact Or.inl ⟨i, hi, rfl⟩
      · exact Or.inr h
  have hssfree : ∀ x ∈ ss.map Entry.pos, x ≠ e.pos ∧ ∀ i ∈ C, x ≠ b + i := by
    intro x hx
    have hnd := h.nodup
    rw [List.map_cons, List.nodup_cons] at hnd
    refine ⟨fun he => hnd.1 (he ▸ hx), ?_⟩
    intro i hi he
    obtain ⟨k, hk, rfl⟩ := List.mem_map.1 hx
    obtain ⟨v, hv, _⟩ := h.ent k (List.mem_cons_of_mem _ hk)
    rcases at_check hv with h0 | ⟨r, hr⟩
    · omega
    · rw [he, hfree i hi] at hr; cases hr
  refine ⟨Nat.le_trans h.one hMM, Nat.le_trans hbM hMM, ?_, ?_, ?_, ?_, ?_, ?_, ?_, ?_, ?_⟩
  · intro x p hx
    rcases hnew x p hx with h1 | ⟨_, i, hi, rfl⟩
    · exact Nat.le_trans (h.chk x p h1) hMM
    · exact hCM i hi
  · intro x
    by_cases hx : x = e.pos
    · subst hx; rw [hpb]; exact Nat.le_trans hbM hMM
    · rw [hbase x hx]; exact Nat.le_trans (h.base x) hMM
  · by_cases h0 : (0 : Nat) = e.pos
    · have h1 := hn.self
      rw [← h0] at h1
      rw [h1]
      exact h.root
    · rw [hn.rest 0 h0 fun i hi => by omega]; exact h.root
  · intro x
    by_cases hx : x = e.pos
    · subst hx; rw [hn.self]; exact h.fail _
    · by_cases hs : ∃ i ∈ C, x = b + i
      · obtain ⟨i, hi, rfl⟩ := hs
        rw [hn.slot i hi]; exact h.fail _
      · rw [hn.rest x hx fun i hi he => hs ⟨i, hi, he⟩]; exact h.fail _
  · intro x hx0 hx
    have hxp : x ≠ e.pos := by
      rintro rfl
      rw [hn.self] at hx
      rcases at_check hw with h0 | ⟨q, hq⟩
      · exact hx0 h0
      · simp [hq] at hx
    have hxs : ∀ i ∈ C, x ≠ b + i := by
      rintro i hi rfl
      rw [hn.slot i hi] at hx; cases hx
    rw [hn.rest x hxp hxs] at hx ⊢
    exact h.fresh x hx0 hx
  · intro x p hx
    rcases hnew x p hx with h1 | ⟨rfl, i, hi, rfl⟩
    · obtain ⟨h2, v, c, h3, h4, h5⟩ := h.edge x p h1
      refine ⟨?_, v, c, hat _ _ h3, by rw [hbase _ (hnot _ _ h1)]; exact h4, h5⟩
      rw [hmem]
      rintro (⟨i, hi, rfl⟩ | h6)
      · rcases at_check h3 with h0 | ⟨r, hr⟩
        · omega
        · rw [hfree i hi] at hr; cases hr
      · exact h2 (by rw [List.map_cons]; exact List.mem_cons_of_mem _ h6)
    · obtain ⟨c, hc, hcT, _⟩ := hslotC i hi
      refine ⟨?_, w, c, hat _ _ hw, by rw [hpb, hc], hcT⟩
      rw [hmem]
      rintro (⟨j, hj, he⟩ | h6)
      · exact hposcheck j hj he.symm
      · exact (hssfree _ h6).1 rfl
  · intro k hk
    rcases List.mem_append.1 hk with hk | hk
    · obtain ⟨i, hi, h1, h2, h3, h4⟩ := hks k (List.mem_reverse.1 hk)
      obtain ⟨c, hc, hcT, hcA⟩ := hslotC i hi
      refine ⟨w ++ [c], by rw [h1]; exact hcA, by simp [h2, hdep], hcT, ?_, h4, ?_⟩
      · rw [h3, ← hc]; exact seg_child (T_prefix hcT).2
      · rw [h1, hout _ (hposcheck i hi)]
        exact h.fresh _ (by omega) (hfree i hi)
    · obtain ⟨v, h1, h2, h3, h4, h5, h6⟩ := h.ent k (List.mem_cons_of_mem _ hk)
      refine ⟨v, hat _ _ h1, h2, h3, h4, h5, ?_⟩
      rw [hout _ (hssfree _ (List.mem_map_of_mem hk)).1]; exact h6
  · rw [List.map_append, List.nodup_append, List.map_reverse, (List.reverse_perm _).nodup_iff, hkp]
    have hnd := h.nodup
    rw [List.map_cons, List.nodup_cons] at hnd
    refine ⟨?_, hnd.2, ?_⟩
    · rw [List.Nodup, List.pairwise_map]
      exact hCn.imp fun h => by omega
    · intro x hx y hy he
      rw [List.mem_reverse, List.mem_map] at hx
      obtain ⟨i, hi, rfl⟩ := hx
      exact (hssfree y hy).2 i hi he.symm
  · intro v p hv hp
    rw [hmem] at hp
    rcases hat' v p hv with ⟨h1, h2⟩ | ⟨c, rfl, hc, rfl⟩
    · by_cases hpe : p = e.pos
      · subst hpe
        have := at_inj h.root h1 hw
        subst this
        refine ⟨by rw [hn.self], ?_⟩
        intro c hc
        rw [hpb, hn.slot _ ((hCT _).2 ⟨c, rfl, hc⟩)]
      · obtain ⟨h3, h4⟩ := h.done v p h1 (by
          rw [List.map_cons]
          intro hm
          rcases List.mem_cons.1 hm with hm | hm
          · exact hpe hm
          · exact hp (Or.inr hm))
        refine ⟨by rw [hout p hpe]; exact h3, ?_⟩
        intro c hc
        rw [hbase p hpe]
        exact hold _ _ (h4 c hc)
    · exact absurd (Or.inl ⟨_, hc, rfl⟩) hp

theorem head_filter (cs : List Nat) (h : cs.Pairwise (· < ·)) (tbl : Nat → Nat) (ht : ∀ c ∈ cs, 0 < tbl c) :
    (if cs.head? = some 0 then cs.tail else cs) = cs.filter fun c => 0 < c ∧ 0 < tbl c := by
  have h1 : ∀ l : List Nat, (∀ c ∈ l, 0 < c ∧ 0 < tbl c) → l.filter (fun c => decide (0 < c ∧ 0 < tbl c)) = l := by
    intro l hl
    rw [List.filter_eq_self]
    intro c hc
    simpa using hl c hc
  cases cs with
  | nil => rfl
  | cons c cs =>
    obtain ⟨g1, g2⟩ := List.pairwise_cons.1 h
    have h2 : ∀ d ∈ cs, 0 < d ∧ 0 < tbl d := fun d hd => ⟨by have := g1 d hd; omega, ht d (List.mem_cons_of_mem _ hd)⟩
    by_cases hc : c = 0
    · subst hc
      rw [List.filter_cons_of_neg (by simp), h1 cs h2]
      rfl
    · have h3 := h1 (c :: cs) (by
        intro d hd
        rcases List.mem_cons.1 hd with rfl | hd
        · exact ⟨by omega, ht d (List.mem_cons_self ..)⟩
        · exact h2 d hd)
      rw [h3]
      simp [hc]

theorem sum_lt {α : Type} (l : List α) (g k : α → Nat) (hne : l ≠ []) (h : ∀ x ∈ l, g x < k x) : (l.map g).sum < (l.map k).sum := by
  induction l with
  | nil => exact absurd rfl hne
  | cons x l ih =>
    have hx := h x (List.mem_cons_self ..)
    rw [List.map_cons, List.map_cons, List.sum_cons, List.sum_cons]
    by_cases hl : l = []
    · subst hl; simpa using hx
    · have := ih hl fun y hy => h y (List.mem_cons_of_mem _ hy)
      omega

theorem visit_spec {sw : List (Str × Nat)} (hsw : Sorted sw) (hne : sw ≠ []) {nodes : List Node} {bef M : Nat} {e : Entry} {ss : List Entry}
    (h : Inv sw (nd nodes) bef M (e :: ss)) (hM : M + 256 ≤ nodes.length) :
    ∃ nodes' b M' ks, visit sw nodes bef e ss = some (nodes', b, ks ++ ss) ∧ Inv sw (nd nodes') b M' (ks ++ ss) ∧ M' + 256 ≤ nodes'.length ∧
      (ks.map (work sw)).sum < work sw e := by
  obtain ⟨w, hw, hdep, hT, hseg, hlen, hout⟩ := h.ent e (List.mem_cons_self ..)
  have hposM : e.pos ≤ M := inv_at_le h hw
  have hsegne : seg sw w ≠ [] := by
    obtain ⟨_, x, hx, hp⟩ := hT
    exact List.ne_nil_of_mem (mem_seg.2 ⟨hx, hp⟩)
  obtain ⟨x, rest, hxr⟩ := List.exists_cons_of_ne_nil hsegne
  have hn0 : 0 < e.n := by
    rcases Nat.eq_zero_or_pos e.n with h0 | h0
    · rw [h0, List.take_zero] at hseg
      exact absurd hseg.symm hsegne
    · exact h0
  have hsl : (seg sw w).length = e.n := by
    rw [← hseg, List.length_take, List.length_drop]; omega
  have hx : sw[e.ix]? = some x := by
    have h1 : ((sw.drop e.ix).take e.n)[0]? = some x := by rw [hseg, hxr]; rfl
    rw [List.getElem?_take, if_pos hn0, List.getElem?_drop] at h1
    exact h1
  have hoh := out_head hsw hxr
  -- the output
  obtain ⟨nodes1, h1, h1l, h1p, h1r⟩ : ∃ nodes1, (if x.1.length = e.dep then upd nodes e.pos fun y => { y with output := x.2 } else some nodes) =
      some nodes1 ∧ nodes1.length = nodes.length ∧ nd nodes1 e.pos = { nd nodes e.pos with output := out sw w } ∧
      ∀ y, y ≠ e.pos → nd nodes1 y = nd nodes y := by
    by_cases hl : x.1.length = e.dep
    · rw [if_pos hl]
      obtain ⟨n1, g1, g2, g3, g4⟩ := upd_ok (i := e.pos) (fun y => { y with output := (x.2 : Int) }) (by omega : e.pos < nodes.length)
      refine ⟨n1, g1, g2, ?_, g4⟩
      rw [g3, hoh, if_pos (by rw [hl, hdep])]
    · rw [if_neg hl]
      refine ⟨nodes, rfl, rfl, ?_, fun _ _ => rfl⟩
      rw [hoh, if_neg (by rw [← hdep]; exact hl), ← hout]
  -- the children
  obtain ⟨t1, t2, t3⟩ := tally_spec e.dep (seg sw w) (fun _ => 0) [] (by rw [hdep]; exact seg_sorted hsw w) (by simp) List.Pairwise.nil (by simp)
  generalize ht : tally e.dep (seg sw w) (fun _ => 0) [] = t at t1 t2 t3
  have t1' : ∀ c, ((seg sw w).filter fun x => key e.dep x.1 == c).length = t.1 c := by
    intro c
    rw [t1 c]; simp
  have htpos : ∀ c ∈ t.2, 0 < t.1 c := by
    intro c hc
    rcases (t3 c).1 hc with hc | ⟨y, hy, hk⟩
    · simp at hc
    · rw [← t1' c]
      exact List.length_pos_of_mem (List.mem_filter.2 ⟨hy, by simpa using hk⟩)
  have hCeq := head_filter t.2 t2 t.1 htpos
  generalize hCdef : (t.2.filter fun c => 0 < c ∧ 0 < t.1 c) = C at hCeq
  have hCm : ∀ i, i ∈ C ↔ i ∈ t.2 ∧ 0 < i := by
    intro i
    rw [← hCdef, List.mem_filter]
    simp only [decide_eq_true_eq]
    exact ⟨fun h => ⟨h.1, h.2.1⟩, fun h => ⟨h.1, h.2, htpos i h.1⟩⟩
  have hC : ∀ i, i ∈ C ↔ 0 < i ∧ ∃ x ∈ seg sw w, key w.length x.1 = i := by
    intro i
    rw [hCm, t3, hdep]
    simp only [List.not_mem_nil, false_or]
    exact And.comm
  have hC256 : ∀ i ∈ C, 0 < i ∧ i < 256 := by
    intro i hi
    obtain ⟨h0, y, hy, rfl⟩ := (hC i).1 hi
    exact ⟨h0, key_lt _ _⟩
  have hchk1 : ∀ y, (nd nodes1 y).check = (nd nodes y).check := by
    intro y
    by_cases hy : y = e.pos
    · subst hy; rw [h1p]
    · rw [h1r y hy]
  -- the base
  obtain ⟨b, hb1, hb2, hb3, hb4⟩ := findBase_spec nodes1 C M (by omega) hC256 (fun y p hy => h.chk y p (by rw [← hchk1]; exact hy))
    (nodes1.length + 1) (max 1 (bef - 32)) (by have := h.bef; have := h.one; omega) (by omega)
  obtain ⟨nodes2, h2, h2l, h2p, h2r⟩ := upd_ok (i := e.pos) (fun y => { y with base := b }) (by omega : e.pos < nodes1.length)
  obtain ⟨nodes3, M', h3, h3M, h3l, h3c, h3s, h3r⟩ := place_spec e.pos b e.dep e.ix t.1 t.2 0 nodes2 ss M (by omega)
  have hgr := grouped (fun x : Str × Nat => key e.dep x.1) t.2 (seg sw w) (by rw [hdep]; exact seg_sorted hsw w) t2
    (fun y hy => (t3 _).2 (Or.inr ⟨y, hy, rfl⟩))
  obtain ⟨k1, k2⟩ := kids_spec sw b e.dep e.ix t.1 (fun c => (seg sw w).filter fun x => key e.dep x.1 == c) t1' t.2 0 (seg sw w) hgr
    (by rw [Nat.add_zero, hsl]; exact hseg) (by rw [hsl]; omega)
  have hkp := kids_pos b e.dep e.ix t.1 t.2 0
  rw [hCdef] at hkp
  have hposC : ∀ i ∈ C, b + i ≠ e.pos := by
    intro i hi he
    have h4 := hb4 i hi
    rw [hchk1, he] at h4
    rcases at_check hw with h0 | ⟨q, hq⟩
    · omega
    · rw [h4] at hq; cases hq
  have hnext : Next (nd nodes) (nd nodes3) e.pos b (out sw w) C := by
    refine ⟨?_, ?_, ?_⟩
    · rw [h3r, h2p, h1p]
      intro i hi hi0 _
      exact fun he => hposC i ((hCm i).2 ⟨hi, hi0⟩) he.symm
    · intro i hi
      obtain ⟨hi1, hi2⟩ := (hCm i).1 hi
      rw [h3s i hi1 hi2 (htpos i hi1), h2r _ (hposC i hi), h1r _ (hposC i hi)]
    · intro y hy hyC
      rw [h3r y fun i hi hi0 _ => hyC i ((hCm i).2 ⟨hi, hi0⟩), h2r y hy, h1r y hy]
  refine ⟨nodes3, b, M', (kids b e.dep e.ix t.1 t.2 0).reverse, ?_, ?_, h3l, ?_⟩
  · simp only [visit, hx, h1, Option.bind_eq_bind, Option.bind_some, if_neg (by omega : ¬ sw.length < e.ix + e.n), hseg, ht, hCeq, hb1, h2, h3]
  · refine inv_next hne h hw hdep (by omega) hb3 hC (fun i hi => by rw [← hchk1]; exact hb4 i hi) hnext h3M ?_ ?_ hkp ?_
    · intro i hi
      obtain ⟨hi1, hi2⟩ := (hCm i).1 hi
      exact h3c i hi1 hi2 (htpos i hi1)
    · intro k hk
      obtain ⟨c, g1, g2, g3, g4, g5, g6, g7⟩ := k1 k hk
      exact ⟨c, (hCm c).2 ⟨g1, g2⟩, g4, g5, by rw [g6, hdep], g7⟩
    · rw [← hCdef]
      exact (t2.imp fun h => Nat.ne_of_lt h).filter _
  · rw [List.map_reverse, List.sum_reverse]
    refine Nat.lt_of_le_of_lt k2 ?_
    rw [work, hseg]
    refine sum_lt _ _ _ hsegne ?_
    intro y hy
    have := (mem_seg.1 hy).2.length_le
    omega

theorem build_spec {sw : List (Str × Nat)} (hsw : Sorted sw) (hne : sw ≠ []) (fuel : Nat) {nodes : List Node} {bef M : Nat} {ss : List Entry}
    (h : Inv sw (nd nodes) bef M ss) (hM : M + 256 ≤ nodes.length) (hf : (ss.map (work sw)).sum < fuel) :
    ∃ nodes' b M', build sw fuel nodes bef ss = some nodes' ∧ Inv sw (nd nodes') b M' [] ∧ M' + 256 ≤ nodes'.length := by
  induction fuel generalizing nodes bef M ss with
  | zero => omega
  | succ fuel ih =>
    cases ss with
    | nil => exact ⟨nodes, bef, M, by rw [build], h, hM⟩
    | cons e ss =>
      obtain ⟨nodes', b, M', ks, h1, h2, h3, h4⟩ := visit_spec hsw hne h hM
      rw [build, h1]
      refine ih h2 h3 ?_
      rw [List.map_cons, List.sum_cons] at hf
      rw [List.map_append, List.sum_append]
      omega

theorem nd_init (x : Nat) : nd (resize [] 257) x = {} := by
  rw [nd_resize (by simp)]
  simp [nd]

theorem trie_spec {sw : List (Str × Nat)} (hsw : Sorted sw) (hne : sw ≠ []) :
    ∃ nodes b M, build sw ((sw.map fun w => w.1.length + 1).sum + 1) (resize [] 257) 1 [⟨0, 0, 0, sw.length⟩] = some nodes ∧
      Inv sw (nd nodes) b M [] ∧ M + 256 ≤ nodes.length := by
  refine build_spec hsw hne _ (M := 1) ?_ (by rw [length_resize (by simp)]; omega) ?_
  · have hat : ∀ w p, At (nd (resize [] 257)) w p → w = [] ∧ p = 0 := by
      intro w p h
      cases h with
      | root => exact ⟨rfl, rfl⟩
      | child _ _ h => rw [nd_init] at h; cases h
    refine ⟨Nat.le_refl _, Nat.le_refl _, ?_, ?_, ?_, ?_, ?_, ?_, ?_, ?_, ?_⟩
    · intro x p h; rw [nd_init] at h; cases h
    · intro x; rw [nd_init]; exact Nat.zero_le _
    · rw [nd_init]
    · intro x; rw [nd_init]
    · intro x _ _; rw [nd_init]
    · intro x p h; rw [nd_init] at h; cases h
    · intro e he
      rw [List.mem_singleton] at he
      subst he
      refine ⟨[], .root, rfl, ?_, ?_, by simp, by rw [nd_init]⟩
      · obtain ⟨x, hx⟩ := List.exists_mem_of_ne_nil _ hne
        exact ⟨by simp, x, hx, List.nil_prefix⟩
      · simp only [List.drop_zero, List.take_length, seg]
        exact (List.filter_eq_self.2 fun _ _ => rfl).symm
    · simp
    · intro w p h hp
      exact absurd (by rw [(hat w p h).2]; simp) hp
  · simp only [work, List.map_cons, List.map_nil, List.sum_cons, List.sum_nil, List.drop_zero, List.take_length]
    simp

end Verif.AhoCorasick.Lemmas
