import Verif.AhoCorasick.BuildLemmas
import Batteries.Data.List.Perm
/-!
# The loop that makes the links
-/
namespace Verif.AhoCorasick.Lemmas
open Verif.AhoCorasick

theorem nodup_le {q : List Nat} {n : Nat} (h : q.Nodup) (hl : ∀ x ∈ q, x < n) : q.length ≤ n := by
  have := (List.subperm_of_subset h (fun x hx => List.mem_range.2 (hl x hx))).length_le
  simpa using this

/-- A complete trie. -/
structure Trie (sw : List (Str × Nat)) (f : Nat → Node) (L : Nat) : Prop where
  root : (f 0).check = none
  bound : ∀ w p, At f w p → p < L ∧ (f p).base + 255 < L
  sound : ∀ w p, At f w p → T sw w
  step : ∀ w p c, At f w p → T sw (w ++ [c]) → (f ((f p).base + c.toNat)).check = some p

theorem trie_of_inv {sw : List (Str × Nat)} (hne : sw ≠ []) {f : Nat → Node} {bef M L : Nat} (h : Inv sw f bef M []) (hL : M + 256 ≤ L) :
    Trie sw f L := by
  refine ⟨h.root, ?_, fun w p => inv_at_T h hne, ?_⟩
  · intro w p hw
    have := inv_at_le h hw
    have := h.base p
    omega
  · intro w p c hw hc
    exact (h.done w p hw (by simp)).2 c hc

section
variable {sw : List (Str × Nat)} {f : Nat → Node} {L : Nat} (ht : Trie sw f L)
include ht

theorem Trie.child {w : Str} {p : Nat} {c : UInt8} (hw : At f w p) (hc : T sw (w ++ [c])) : At f (w ++ [c]) ((f p).base + c.toNat) :=
  .child hw rfl (ht.step w p c hw hc)

theorem Trie.trans {w : Str} {p : Nat} {c : UInt8} (hw : At f w p) : (f ((f p).base + c.toNat)).check = some p ↔ T sw (w ++ [c]) :=
  ⟨fun h => ht.sound _ _ (.child hw rfl h), ht.step w p c hw⟩

theorem Trie.ex {w : Str} (hw : T sw w) : ∃ p, At f w p := by
  generalize hn : w.length = n
  induction n generalizing w with
  | zero => rw [List.length_eq_zero_iff.1 hn]; exact ⟨0, .root⟩
  | succ n ih =>
    obtain ⟨v, c, rfl⟩ : ∃ v c, w = v ++ [c] := by
      refine ⟨w.dropLast, w.getLast (by intro e; simp [e] at hn), ?_⟩
      exact (List.dropLast_concat_getLast _).symm
    obtain ⟨p, hp⟩ := ih (T_prefix hw).1 (by simpa using hn)
    exact ⟨_, ht.child hp hw⟩

theorem Trie.nil : T sw [] := ht.sound _ _ .root

/-- The positions on the way to a node are distinct, so it is not deeper than there are nodes. -/
theorem Trie.path {w : Str} {p : Nat} (hw : At f w p) :
    ∃ ps : List Nat, ps.Nodup ∧ ps.length = w.length + 1 ∧ ∀ x ∈ ps, x < L ∧ ∃ v, At f v x ∧ v.length ≤ w.length := by
  induction hw with
  | root =>
    refine ⟨[0], by simp, rfl, ?_⟩
    intro x hx
    rw [List.mem_singleton] at hx
    subst hx
    exact ⟨(ht.bound _ _ .root).1, [], .root, Nat.le_refl _⟩
  | @child w p q c h e k ih =>
    obtain ⟨ps, h1, h2, h3⟩ := ih
    have hq : At f (w ++ [c]) q := .child h e k
    refine ⟨q :: ps, List.nodup_cons.2 ⟨?_, h1⟩, by simp [h2], ?_⟩
    · intro hm
      obtain ⟨_, v, hv, hl⟩ := h3 q hm
      rw [at_inj ht.root hv hq] at hl
      simp at hl
      omega
    · intro x hx
      rcases List.mem_cons.1 hx with rfl | hx
      · exact ⟨(ht.bound _ _ hq).1, _, hq, Nat.le_refl _⟩
      · obtain ⟨g1, v, g2, g3⟩ := h3 x hx
        exact ⟨g1, v, g2, by simp; omega⟩

theorem Trie.depth {w : Str} {p : Nat} (hw : At f w p) : w.length < L := by
  obtain ⟨ps, h1, h2, h3⟩ := ht.path hw
  have := nodup_le h1 fun x hx => (h3 x hx).1
  omega

end

/-- The longest proper suffix in the trie. -/
def IsFail (sw : List (Str × Nat)) (w v : Str) : Prop :=
  v <:+ w ∧ v.length < w.length ∧ T sw v ∧ ∀ u, u <:+ w → u.length < w.length → T sw u → u.length ≤ v.length

theorem suffix_snoc {u w : Str} {c : UInt8} (h : u <:+ w ++ [c]) (hu : u ≠ []) : ∃ v, u = v ++ [c] ∧ v <:+ w := by
  rw [List.suffix_concat_iff] at h
  rcases h with h | ⟨t, h1, h2⟩
  · exact absurd h hu
  · exact ⟨t, h1, h2⟩

theorem suffix_le {u v w : Str} (hu : u <:+ w) (hv : v <:+ w) (h : u.length ≤ v.length) : u <:+ v := List.suffix_of_suffix_length_le hu hv h

/-- The link of a node. -/
def Linked (sw : List (Str × Nat)) (f g : Nat → Node) (w : Str) (p : Nat) : Prop :=
  (w = [] → (g p).fail = none) ∧ (w ≠ [] → ∃ v r, IsFail sw w v ∧ At f v r ∧ (g p).fail = some r)

/-- What the loop for `m` finds. -/
def Climbed (sw : List (Str × Nat)) (f : Nat → Node) (c : UInt8) (u : Str) : Option Nat → Prop
  | some m => ∃ v, At f v m ∧ v <:+ u ∧ T sw (v ++ [c]) ∧ ∀ v', v' <:+ u → T sw (v' ++ [c]) → v'.length ≤ v.length
  | none => ∀ v', v' <:+ u → ¬ T sw (v' ++ [c])

/-- Bases and checks do not change any more. -/
def Shape (f g : Nat → Node) : Prop := ∀ x, (g x).base = (f x).base ∧ (g x).check = (f x).check

theorem climb_spec {sw : List (Str × Nat)} {f : Nat → Node} {nodes : List Node} (ht : Trie sw f nodes.length) (hs : Shape f (nd nodes)) {n : Nat}
    (hl : ∀ w p, At f w p → w.length ≤ n → Linked sw f (nd nodes) w p) (c : UInt8) (fuel : Nat) {u : Str} {m : Nat} (hu : At f u m)
    (hun : u.length ≤ n) (hf : u.length < fuel) : ∃ r, climb nodes c.toNat fuel (some m) = some r ∧ Climbed sw f c u r := by
  induction fuel generalizing u m with
  | zero => omega
  | succ fuel ih =>
    obtain ⟨b1, b2⟩ := ht.bound u m hu
    have hc := UInt8.toNat_lt c
    rw [climb, get_nd b1]
    simp only [Option.bind_eq_bind, Option.bind_some, (hs m).1]
    rw [get_nd (by omega : (f m).base + c.toNat < nodes.length)]
    simp only [Option.bind_some, (hs _).2]
    by_cases hT : T sw (u ++ [c])
    · rw [if_pos ((ht.trans hu).2 hT)]
      exact ⟨some m, rfl, u, hu, List.suffix_refl u, hT, fun v' h _ => h.length_le⟩
    · rw [if_neg fun h => hT ((ht.trans hu).1 h)]
      by_cases hnil : u = []
      · rw [(hl u m hu hun).1 hnil]
        refine ⟨none, by rw [climb], ?_⟩
        intro v' hv' hT'
        subst hnil
        rw [List.suffix_nil.1 hv'] at hT'
        exact hT hT'
      · obtain ⟨v, r, ⟨h1, h2, h3, h4⟩, h5, h6⟩ := (hl u m hu hun).2 hnil
        rw [h6]
        obtain ⟨r', h7, h8⟩ := ih h5 (by omega) (by omega)
        have key : ∀ v', v' <:+ u → T sw (v' ++ [c]) → v' <:+ v := by
          intro v' hv' hT'
          have hlt : v'.length < u.length := by
            refine Nat.lt_of_le_of_ne hv'.length_le ?_
            intro e
            exact hT (hv'.eq_of_length e ▸ hT')
          exact suffix_le hv' h1 (h4 v' hv' hlt (T_prefix hT').1)
        refine ⟨r', h7, ?_⟩
        cases r' with
        | none => exact fun v' hv' hT' => h8 v' (key v' hv' hT') hT'
        | some m' =>
          obtain ⟨z, z1, z2, z3, z4⟩ := h8
          exact ⟨z, z1, z2.trans h1, z3, fun v' hv' hT' => z4 v' (key v' hv' hT') hT'⟩

/-- The queue: which children have been put there, and what holds of its nodes. -/
structure Q (sw : List (Str × Nat)) (f g : Nat → Node) (q : List Nat) (D : Nat → Nat → Prop) : Prop where
  shape : Shape f g
  zero : (g 0).fail = none
  mem : ∀ x, x ∈ q ↔ x = 0 ∨ ∃ w p, ∃ c : UInt8, At f w p ∧ T sw (w ++ [c]) ∧ x = (f p).base + c.toNat ∧ D p c.toNat
  nodup : q.Nodup
  order : q.Pairwise fun x y => ∀ w v, At f w x → At f v y → w.length ≤ v.length
  linked : ∀ w p, At f w p → p ∈ q → Linked sw f g w p
  outs : ∀ w p, At f w p → (g p).output = out sw w ∨ (out sw w = -1 ∧ (g p).output = -2)

theorem Q.congr {sw : List (Str × Nat)} {f g : Nat → Node} {q : List Nat} {D D' : Nat → Nat → Prop} (h : Q sw f g q D)
    (hD : ∀ p (c : UInt8), D p c.toNat ↔ D' p c.toNat) : Q sw f g q D' := by
  refine ⟨h.shape, h.zero, ?_, h.nodup, h.order, h.linked, h.outs⟩
  intro x
  rw [h.mem x]
  refine or_congr Iff.rfl ?_
  constructor
  · rintro ⟨w, p, c, h1, h2, h3, h4⟩; exact ⟨w, p, c, h1, h2, h3, (hD p c).1 h4⟩
  · rintro ⟨w, p, c, h1, h2, h3, h4⟩; exact ⟨w, p, c, h1, h2, h3, (hD p c).2 h4⟩

theorem Q.at {sw : List (Str × Nat)} {f g : Nat → Node} {L : Nat} (ht : Trie sw f L) {q : List Nat} {D : Nat → Nat → Prop} (h : Q sw f g q D)
    {x : Nat} (hx : x ∈ q) : ∃ w, At f w x := by
  rcases (h.mem x).1 hx with rfl | ⟨w, p, c, h1, h2, rfl, _⟩
  · exact ⟨[], .root⟩
  · exact ⟨_, ht.child h1 h2⟩

theorem linkOne_spec {sw : List (Str × Nat)} {f : Nat → Node} {nodes : List Node} (ht : Trie sw f nodes.length) {q : List Nat}
    {D : Nat → Nat → Prop} (h : Q sw f (nd nodes) q D) {w : Str} {pos : Nat} (hw : At f w pos) (c : UInt8) (hD : ¬ D pos c.toNat)
    (hle : ∀ v x, x ∈ q → At f v x → v.length ≤ w.length + 1) (hin : ∀ v x, At f v x → v.length ≤ w.length → x ∈ q) :
    ∃ nodes' q', linkOne nodes q pos c.toNat = some (nodes', q ++ q') ∧ nodes'.length = nodes.length ∧
      Q sw f (nd nodes') (q ++ q') (fun p j => D p j ∨ (p = pos ∧ j = c.toNat)) ∧ (∀ v x, x ∈ q ++ q' → At f v x → v.length ≤ w.length + 1) ∧
      ∀ x, (nd nodes' x).output = (nd nodes x).output := by
  obtain ⟨b1, b2⟩ := ht.bound w pos hw
  have hc256 := UInt8.toNat_lt c
  have hs := h.shape
  have hyb : (f pos).base + c.toNat < nodes.length := by omega
  rw [linkOne, get_nd b1]
  simp only [Option.bind_eq_bind, Option.bind_some, (hs pos).1]
  rw [get_nd hyb]
  simp only [Option.bind_some, (hs _).2]
  by_cases hT : T sw (w ++ [c])
  · have hchild := ht.child hw hT
    rw [if_neg (by rw [(ht.trans hw).2 hT]; simp)]
    have hLn : ∀ w' p, At f w' p → w'.length ≤ w.length → Linked sw f (nd nodes) w' p := fun w' p h1 h2 => h.linked w' p h1 (hin w' p h1 h2)
    -- the target
    obtain ⟨r, tgt, v, hr1, hr2, hr3, hr4⟩ : ∃ r tgt v, climb nodes c.toNat (nodes.length + 1) (nd nodes pos).fail = some r ∧
        target nodes c.toNat r = some tgt ∧ At f v tgt ∧ IsFail sw (w ++ [c]) v := by
      have hnilfail : (∀ v', v' <:+ w → v'.length < w.length → ¬ T sw (v' ++ [c])) → IsFail sw (w ++ [c]) [] := by
        intro hno
        refine ⟨List.nil_suffix, by simp, ht.nil, ?_⟩
        intro u hu hlt hTu
        by_cases hun : u = []
        · rw [hun]; exact Nat.le_refl _
        · obtain ⟨v', rfl, hv'⟩ := suffix_snoc hu hun
          exact absurd hTu (hno v' hv' (by simpa using hlt))
      by_cases hwn : w = []
      · rw [(hLn w pos hw (Nat.le_refl _)).1 hwn]
        refine ⟨none, 0, [], by rw [climb], rfl, .root, hnilfail ?_⟩
        intro v' _ hl
        rw [hwn] at hl
        simp at hl
      · obtain ⟨v, r, ⟨h1, h2, h3, h4⟩, h5, h6⟩ := (hLn w pos hw (Nat.le_refl _)).2 hwn
        rw [h6]
        have hd := ht.depth h5
        obtain ⟨r', g1, g2⟩ := climb_spec ht hs hLn c (nodes.length + 1) h5 (by omega) (by omega)
        have key : ∀ v', v' <:+ w → v'.length < w.length → T sw (v' ++ [c]) → v' <:+ v := fun v' hv' hlt hT' =>
          suffix_le hv' h1 (h4 v' hv' hlt (T_prefix hT').1)
        cases r' with
        | none => exact ⟨none, 0, [], g1, rfl, .root, hnilfail fun v' hv' hlt hT' => g2 v' (key v' hv' hlt hT') hT'⟩
        | some m =>
          obtain ⟨z, z1, z2, z3, z4⟩ := g2
          refine ⟨some m, (f m).base + c.toNat, z ++ [c], g1, ?_, ht.child z1 z3, ?_⟩
          · simp only [target, get_nd (ht.bound _ _ z1).1, Option.map_some, (hs m).1]
          · obtain ⟨t, ht'⟩ := z2.trans h1
            refine ⟨⟨t, by rw [← ht', List.append_assoc]⟩, ?_, z3, ?_⟩
            · have := z2.length_le
              simp only [List.length_append, List.length_singleton]
              omega
            · intro u hu hlt hTu
              by_cases hun : u = []
              · rw [hun]; simp
              · obtain ⟨v', rfl, hv'⟩ := suffix_snoc hu hun
                have hlt' : v'.length < w.length := by simpa using hlt
                have := z4 v' (key v' hv' hlt' hTu) hTu
                simpa using this
    simp only [hr1, Option.bind_some, hr2]
    obtain ⟨nodes', u1, u2, u3, u4⟩ := upd_ok (i := (f pos).base + c.toNat) (fun y => { y with fail := some tgt }) hyb
    simp only [u1, Option.bind_some]
    have hxq : (f pos).base + c.toNat ∉ q := by
      intro hx
      rcases (h.mem _).1 hx with h0 | ⟨w', p', c', k1, k2, k3, k4⟩
      · have := ht.step w pos c hw hT
        rw [h0, ht.root] at this
        cases this
      · have k5 := ht.child k1 k2
        rw [← k3] at k5
        have k6 := at_inj ht.root hchild k5
        rw [← List.concat_eq_append, ← List.concat_eq_append, List.concat_inj] at k6
        obtain ⟨rfl, rfl⟩ := k6
        rw [at_fun k1 hw] at k4
        exact hD k4
    have hnd : (q ++ [(f pos).base + c.toNat]).Nodup := by
      rw [List.nodup_append]
      refine ⟨h.nodup, by simp, ?_⟩
      intro a ha b hb
      rw [List.mem_singleton] at hb
      rintro rfl
      exact hxq (hb ▸ ha)
    have hlen : q.length < nodes'.length := by
      have h1 : ∀ x ∈ q ++ [(f pos).base + c.toNat], x < nodes.length := by
        intro x hx
        rcases List.mem_append.1 hx with hx | hx
        · obtain ⟨v', hv'⟩ := h.at ht hx
          exact (ht.bound _ _ hv').1
        · rw [List.mem_singleton.1 hx]; exact hyb
      have := nodup_le hnd h1
      rw [u2]
      simp at this
      omega
    rw [if_pos hlen]
    have hle' : ∀ v x, x ∈ q ++ [(f pos).base + c.toNat] → At f v x → v.length ≤ w.length + 1 := by
      intro v x hx hv
      rcases List.mem_append.1 hx with hx | hx
      · exact hle v x hx hv
      · rw [List.mem_singleton.1 hx] at hv
        rw [at_inj ht.root hv hchild]
        simp
    have hfail : ∀ x, x ≠ (f pos).base + c.toNat → (nd nodes' x).fail = (nd nodes x).fail := fun x hx => by rw [u4 x hx]
    have hx0 : (f pos).base + c.toNat ≠ 0 := by
      intro h0
      have := ht.step w pos c hw hT
      rw [h0, ht.root] at this
      cases this
    refine ⟨nodes', [(f pos).base + c.toNat], rfl, u2, ⟨?_, ?_, ?_, hnd, ?_, ?_, ?_⟩, hle', ?_⟩
    · intro x
      by_cases hx : x = (f pos).base + c.toNat
      · subst hx; rw [u3]; exact hs _
      · rw [u4 x hx]; exact hs x
    · rw [u4 0 fun e => hx0 e.symm]; exact h.zero
    · intro x
      rw [List.mem_append, h.mem x, List.mem_singleton]
      constructor
      · rintro ((h0 | ⟨w', p', c', k1, k2, k3, k4⟩) | rfl)
        · exact Or.inl h0
        · exact Or.inr ⟨w', p', c', k1, k2, k3, Or.inl k4⟩
        · exact Or.inr ⟨w, pos, c, hw, hT, rfl, Or.inr ⟨rfl, rfl⟩⟩
      · rintro (h0 | ⟨w', p', c', k1, k2, k3, k4 | ⟨rfl, k4⟩⟩)
        · exact Or.inl (Or.inl h0)
        · exact Or.inl (Or.inr ⟨w', p', c', k1, k2, k3, k4⟩)
        · exact Or.inr (by rw [k3, k4])
    · rw [List.pairwise_append]
      refine ⟨h.order, List.pairwise_singleton _ _, ?_⟩
      intro x hx y hy w' v' hw' hv'
      rw [List.mem_singleton] at hy
      subst hy
      rw [at_inj ht.root hv' hchild]
      simpa using hle w' x hx hw'
    · intro w' p hw' hp
      by_cases hx : p = (f pos).base + c.toNat
      · subst hx
        rw [at_inj ht.root hw' hchild]
        refine ⟨by simp, fun _ => ⟨v, tgt, hr4, hr3, by rw [u3]⟩⟩
      · have hpq : p ∈ q := by
          rcases List.mem_append.1 hp with hp | hp
          · exact hp
          · exact absurd (List.mem_singleton.1 hp) hx
        have := h.linked w' p hw' hpq
        unfold Linked at this ⊢
        rw [hfail p hx]
        exact this
    · intro w' p hw'
      by_cases hx : p = (f pos).base + c.toNat
      · subst hx; rw [u3]; exact h.outs w' _ hw'
      · rw [u4 p hx]; exact h.outs w' p hw'
    · intro x
      by_cases hx : x = (f pos).base + c.toNat
      · subst hx; rw [u3]
      · rw [u4 x hx]
  · rw [if_pos (by rw [ne_eq, ht.trans hw]; exact hT)]
    refine ⟨nodes, [], by simp, rfl, ?_, by simpa using hle, fun _ => rfl⟩
    rw [List.append_nil]
    refine ⟨h.shape, h.zero, ?_, h.nodup, h.order, h.linked, h.outs⟩
    intro x
    rw [h.mem x]
    refine or_congr Iff.rfl ?_
    constructor
    · rintro ⟨w', p', c', k1, k2, k3, k4⟩; exact ⟨w', p', c', k1, k2, k3, Or.inl k4⟩
    · rintro ⟨w', p', c', k1, k2, k3, k4 | ⟨rfl, k4⟩⟩
      · exact ⟨w', p', c', k1, k2, k3, k4⟩
      · have : c' = c := UInt8.toNat_inj.1 k4
        subst this
        rw [at_inj ht.root k1 hw] at k2
        exact absurd k2 hT

theorem linkAll_spec {sw : List (Str × Nat)} {f : Nat → Node} (is : List Nat) {nodes : List Node} (ht : Trie sw f nodes.length) {q : List Nat}
    {D : Nat → Nat → Prop} (h : Q sw f (nd nodes) q D) {w : Str} {pos : Nat} (hw : At f w pos) (his : ∀ i ∈ is, i < 256) (hnd : is.Nodup)
    (hD : ∀ i ∈ is, ¬ D pos i) (hle : ∀ v x, x ∈ q → At f v x → v.length ≤ w.length + 1) (hin : ∀ v x, At f v x → v.length ≤ w.length → x ∈ q) :
    ∃ nodes' q', linkAll pos is nodes q = some (nodes', q ++ q') ∧ nodes'.length = nodes.length ∧
      Q sw f (nd nodes') (q ++ q') (fun p j => D p j ∨ (p = pos ∧ j ∈ is)) ∧ (∀ v x, x ∈ q ++ q' → At f v x → v.length ≤ w.length + 1) ∧
      ∀ x, (nd nodes' x).output = (nd nodes x).output := by
  induction is generalizing nodes q D with
  | nil =>
    refine ⟨nodes, [], by simp [linkAll], rfl, ?_, by simpa using hle, fun _ => rfl⟩
    rw [List.append_nil]
    exact h.congr (by simp)
  | cons i is ih =>
    have hi := his i (List.mem_cons_self ..)
    have hci : (UInt8.ofNat i).toNat = i := by simp; omega
    obtain ⟨nodes1, q1, h1, h2, h3, h4, h5⟩ := linkOne_spec ht h hw (UInt8.ofNat i) (by rw [hci]; exact hD i (List.mem_cons_self ..)) hle hin
    rw [hci] at h1 h3
    obtain ⟨hni, hnd'⟩ := List.nodup_cons.1 hnd
    obtain ⟨nodes2, q2, g1, g2, g3, g4, g5⟩ := ih (h2 ▸ ht) h3 (fun j hj => his j (List.mem_cons_of_mem _ hj)) hnd' (by
      rintro j hj (hd | ⟨_, rfl⟩)
      · exact hD j (List.mem_cons_of_mem _ hj) hd
      · exact hni hj) h4 (fun v x hv hl => List.mem_append_left _ (hin v x hv hl))
    refine ⟨nodes2, q1 ++ q2, ?_, by rw [g2, h2], ?_, ?_, fun x => by rw [g5, h5]⟩
    · rw [linkAll, h1]
      simp only [g1, List.append_assoc]
    · rw [← List.append_assoc]
      refine g3.congr ?_
      intro p c
      rw [List.mem_cons]
      constructor
      · rintro ((h | ⟨e, h⟩) | ⟨e, h⟩)
        · exact Or.inl h
        · exact Or.inr ⟨e, Or.inl h⟩
        · exact Or.inr ⟨e, Or.inr h⟩
      · rintro (h | ⟨e, h | h⟩)
        · exact Or.inl (Or.inl h)
        · exact Or.inl (Or.inr ⟨e, h⟩)
        · exact Or.inr ⟨e, h⟩
    · rw [← List.append_assoc]; exact g4

/-- The finished automaton. -/
structure Auto (sw : List (Str × Nat)) (f g : Nat → Node) : Prop where
  shape : Shape f g
  linked : ∀ w p, At f w p → Linked sw f g w p
  outs : ∀ w p, At f w p → (g p).output = out sw w ∨ (out sw w = -1 ∧ (g p).output = -2)
  skip : ∀ w p, At f w p → (g p).output = -1 → ∀ v, v <:+ w → T sw v → out sw v = -1

theorem links_spec {sw : List (Str × Nat)} {f : Nat → Node} (fuel : Nat) {nodes : List Node} (ht : Trie sw f nodes.length) {q : List Nat} {qh : Nat}
    (h : Q sw f (nd nodes) q fun p _ => p ∈ q.take qh) (hqh : qh ≤ q.length) (hf : nodes.length < fuel + qh)
    (hle : ∀ pos w, q[qh]? = some pos → At f w pos → ∀ v x, x ∈ q → At f v x → v.length ≤ w.length + 1)
    (hsk : ∀ w p, At f w p → p ∈ q.take qh → (nd nodes p).output = -1 → ∀ v, v <:+ w → T sw v → out sw v = -1) :
    ∃ nodes', links fuel nodes q qh = some nodes' ∧ nodes'.length = nodes.length ∧ Auto sw f (nd nodes') := by
  have hqL : q.length ≤ nodes.length := nodup_le h.nodup fun x hx => by
    obtain ⟨v, hv⟩ := h.at ht hx
    exact (ht.bound _ _ hv).1
  induction fuel generalizing nodes q qh with
  | zero => omega
  | succ fuel ih =>
    rw [links]
    cases hq : q[qh]? with
    | none =>
      have hqe : q.take qh = q := List.take_of_length_le (List.getElem?_eq_none_iff.1 hq)
      have hall : ∀ w p, At f w p → p ∈ q := by
        intro w p hw
        induction hw with
        | root => exact (h.mem 0).2 (Or.inl rfl)
        | @child w p q' c h1 h2 h3 ih =>
          exact (h.mem _).2 (Or.inr ⟨w, p, c, h1, ht.sound _ _ (.child h1 h2 h3), h2, by rw [hqe]; exact ih⟩)
      exact ⟨nodes, rfl, rfl, h.shape, fun w p hw => h.linked w p hw (hall w p hw), h.outs,
        fun w p hw => hsk w p hw (by rw [hqe]; exact hall w p hw)⟩
    | some pos =>
      have hlt : qh < q.length := (List.getElem?_eq_some_iff.1 hq).1
      have hposq : pos ∈ q := List.mem_of_getElem? hq
      obtain ⟨w, hw⟩ := h.at ht hposq
      have hsplit : q = q.take qh ++ pos :: q.drop (qh + 1) := by
        have h1 := List.take_append_drop qh q
        rw [List.drop_eq_getElem_cons hlt] at h1
        have h2 : q[qh] = pos := by rw [List.getElem?_eq_getElem hlt] at hq; exact Option.some.inj hq
        rw [h2] at h1
        exact h1.symm
      -- nodes that are less deep have been dealt with
      have hbefore : ∀ v x, x ∈ q → At f v x → v.length < w.length → x ∈ q.take qh := by
        intro v x hx hv hl
        have ho := h.order
        rw [hsplit] at hx ho
        rcases List.mem_append.1 hx with hx | hx
        · exact hx
        · exfalso
          rcases List.mem_cons.1 hx with rfl | hx
          · rw [at_inj ht.root hv hw] at hl; omega
          · have h2 := (List.pairwise_append.1 ho).2.1
            have := (List.pairwise_cons.1 h2).1 x hx w v hw hv
            omega
      have hin : ∀ v x, At f v x → v.length ≤ w.length → x ∈ q := by
        intro v x hv
        induction hv with
        | root => exact fun _ => (h.mem 0).2 (Or.inl rfl)
        | @child v p x c h1 h2 h3 ih =>
          intro hl
          simp only [List.length_append, List.length_singleton] at hl
          have hp := hbefore v p (ih (by omega)) h1 (by omega)
          exact (h.mem _).2 (Or.inr ⟨v, p, c, h1, ht.sound _ _ (.child h1 h2 h3), h2, hp⟩)
      -- the mark
      obtain ⟨nodes1, m1, m2, m3, m4⟩ : ∃ nodes1, mark nodes pos = some nodes1 ∧ nodes1.length = nodes.length ∧
          (∀ x, x ≠ pos → nd nodes1 x = nd nodes x) ∧
          ∃ o, nd nodes1 pos = { nd nodes pos with output := o } ∧ (o = out sw w ∨ (out sw w = -1 ∧ o = -2)) ∧
            (o = -1 → ∀ v, v <:+ w → T sw v → out sw v = -1) := by
        rw [mark]
        by_cases h0 : 0 < pos
        · rw [if_pos h0]
          have hwn : w ≠ [] := by
            rintro rfl
            rw [at_nil hw] at h0
            omega
          obtain ⟨v, r, hv1, hv2, hv3⟩ := (h.linked w pos hw hposq).2 hwn
          obtain ⟨i1, i2, i3, i4⟩ := hv1
          rw [get_nd (ht.bound _ _ hw).1]
          simp only [Option.bind_eq_bind, Option.bind_some]
          have hb : (nd nodes pos).fail.bind (fun f => nodes[f]?.bind fun y =>
              if y.output ≠ -1 ∧ (nd nodes pos).output = -1 then upd nodes pos fun x => { x with output := -2 } else some nodes) =
              if (nd nodes r).output ≠ -1 ∧ (nd nodes pos).output = -1 then upd nodes pos fun x => { x with output := -2 } else some nodes := by
            rw [hv3, Option.bind_some, get_nd (ht.bound _ _ hv2).1, Option.bind_some]
          rw [hb]
          by_cases hm : (nd nodes r).output ≠ -1 ∧ (nd nodes pos).output = -1
          · rw [if_pos hm]
            obtain ⟨n1, u1, u2, u3, u4⟩ := upd_ok (i := pos) (fun x => { x with output := -2 }) (ht.bound _ _ hw).1
            refine ⟨n1, u1, u2, u4, -2, u3, ?_, fun h => by cases h⟩
            rcases h.outs w pos hw with ho | ho
            · exact Or.inr ⟨by rw [← ho]; exact hm.2, rfl⟩
            · exact Or.inr ⟨ho.1, rfl⟩
          · rw [if_neg hm]
            refine ⟨nodes, rfl, rfl, fun _ _ => rfl, (nd nodes pos).output, rfl, h.outs w pos hw, ?_⟩
            intro ho u hu hTu
            have hr1 : (nd nodes r).output = -1 := Classical.not_not.1 fun hne => hm ⟨hne, ho⟩
            have hout : out sw w = -1 := by
              rcases h.outs w pos hw with h1 | h1
              · rw [← h1]; exact ho
              · exact h1.1
            by_cases hul : u.length = w.length
            · rw [hu.eq_of_length hul]; exact hout
            · have hlt' : u.length < w.length := Nat.lt_of_le_of_ne hu.length_le hul
              have huv := suffix_le hu i1 (i4 u hu hlt' hTu)
              exact hsk v r hv2 (hbefore v r (hin v r hv2 (by omega)) hv2 i2) hr1 u huv hTu
        · rw [if_neg h0]
          have hp0 : pos = 0 := by omega
          have hwn : w = [] := at_inj ht.root (hp0 ▸ hw) .root
          refine ⟨nodes, rfl, rfl, fun _ _ => rfl, (nd nodes pos).output, rfl, h.outs w pos hw, ?_⟩
          intro ho u hu _
          rw [hwn] at hu
          rw [List.suffix_nil.1 hu, ← hwn]
          rcases h.outs w pos hw with h1 | h1
          · rw [← h1]; exact ho
          · exact h1.1
      obtain ⟨o, m4, m5, m6⟩ := m4
      simp only [m1]
      have hQ1 : Q sw f (nd nodes1) q fun p _ => p ∈ q.take qh := by
        have hfail : ∀ x, (nd nodes1 x).fail = (nd nodes x).fail := by
          intro x
          by_cases hx : x = pos
          · subst hx; rw [m4]
          · rw [m3 x hx]
        refine ⟨?_, by rw [hfail]; exact h.zero, h.mem, h.nodup, h.order, ?_, ?_⟩
        · intro x
          by_cases hx : x = pos
          · subst hx; rw [m4]; exact h.shape _
          · rw [m3 x hx]; exact h.shape _
        · intro w' p hw' hp
          have := h.linked w' p hw' hp
          unfold Linked at this ⊢
          rw [hfail]
          exact this
        · intro w' p hw'
          by_cases hx : p = pos
          · subst hx
            rw [at_inj ht.root hw' hw, m4]
            exact m5
          · rw [m3 p hx]; exact h.outs w' p hw'
      have hnotin : pos ∉ q.take qh := by
        intro hm
        have hnd := h.nodup
        rw [hsplit, List.nodup_append] at hnd
        exact hnd.2.2 pos hm pos (List.mem_cons_self ..) rfl
      obtain ⟨nodes2, q2, l1, l2, l3, l4, l5⟩ := linkAll_spec (List.range 256) (m2 ▸ ht) hQ1 hw (fun i hi => List.mem_range.1 hi)
        List.nodup_range (fun _ _ => hnotin) (hle pos w hq hw) hin
      simp only [l1]
      have htake : (q ++ q2).take (qh + 1) = q.take qh ++ [pos] := by
        rw [List.take_append_of_le_length (by omega), List.take_add_one, hq]
        rfl
      have hlen2 : nodes2.length = nodes.length := by rw [l2, m2]
      have hmem2 : ∀ p, p ∈ (q ++ q2).take (qh + 1) ↔ p ∈ q.take qh ∨ p = pos := by
        intro p
        rw [htake, List.mem_append, List.mem_singleton]
      have hout2 : ∀ x, x ≠ pos → (nd nodes2 x).output = (nd nodes x).output := fun x hx => by rw [l5, m3 x hx]
      have hQ2 : Q sw f (nd nodes2) (q ++ q2) fun p _ => p ∈ (q ++ q2).take (qh + 1) := l3.congr (by
        intro p c
        rw [hmem2]
        have := UInt8.toNat_lt c
        simp only [List.mem_range]
        constructor
        · rintro (h | ⟨h, _⟩)
          · exact Or.inl h
          · exact Or.inr h
        · rintro (h | h)
          · exact Or.inl h
          · exact Or.inr ⟨h, this⟩)
      have hih := ih (nodes := nodes2) (q := q ++ q2) (qh := qh + 1) (hlen2 ▸ ht) hQ2 (by simp; omega) (by omega) ?_ ?_ ?_
      · obtain ⟨nodes', e1, e2, e3⟩ := hih
        exact ⟨nodes', e1, by rw [e2, hlen2], e3⟩
      · intro pos' w' hq' hw' v x hx hv
        have h1 := l4 v x hx hv
        have h2 : w.length ≤ w'.length := by
          have ho := hQ2.order
          have h3 : q ++ q2 = (q ++ q2).take (qh + 1) ++ (q ++ q2).drop (qh + 1) := (List.take_append_drop _ _).symm
          rw [h3, htake] at ho
          have h4 := (List.pairwise_append.1 ho).2.2 pos (by simp) pos' (by
            refine List.mem_of_getElem? (i := 0) ?_
            rw [List.getElem?_drop]
            exact hq')
          exact h4 w w' hw hw'
        omega
      · intro w' p hw' hp ho
        rw [hmem2] at hp
        by_cases hx : p = pos
        · subst hx
          rw [l5, m4] at ho
          rw [at_inj ht.root hw' hw]
          exact m6 ho
        · rw [hout2 p hx] at ho
          exact hsk w' p hw' (hp.resolve_right hx) ho
      · rw [hlen2]
        exact nodup_le hQ2.nodup fun x hx => by
          obtain ⟨v, hv⟩ := hQ2.at ht hx
          exact (ht.bound _ _ hv).1

theorem construct_spec {sw : List (Str × Nat)} (hsw : Sorted sw) (hne : sw ≠ []) :
    ∃ nodes f, construct sw = some nodes ∧ Trie sw f nodes.length ∧ Auto sw f (nd nodes) := by
  obtain ⟨nodes, b, M, h1, h2, h3⟩ := trie_spec hsw hne
  have ht := trie_of_inv hne h2 h3
  have hls := links_spec (nodes.length + 1) ht (q := [0]) (qh := 0) ?_ (by simp) (by omega) ?_ ?_
  · obtain ⟨nodes', e1, e2, e3⟩ := hls
    exact ⟨nodes', nd nodes, by rw [construct, if_neg hne, h1]; exact e1, e2 ▸ ht, e3⟩
  · refine ⟨fun _ => ⟨rfl, rfl⟩, h2.fail 0, by simp, by simp, by simp, ?_, ?_⟩
    · intro w p hw hp
      rw [List.mem_singleton] at hp
      subst hp
      refine ⟨fun _ => h2.fail 0, fun hn => absurd (at_inj ht.root hw .root) hn⟩
    · intro w p hw
      exact Or.inl (h2.done w p hw (by simp)).1
  · intro pos w hq hw v x hx hv
    rw [List.mem_singleton] at hx
    subst hx
    rw [at_inj ht.root hv .root]
    simp
  · simp

end Verif.AhoCorasick.Lemmas
