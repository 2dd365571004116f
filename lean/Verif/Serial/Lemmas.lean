import Verif.Serial.Spec
import Mathlib.Data.List.Basic
/-!
# Lemmas about serialization
-/
namespace Verif.Serial.Lemmas
open Verif.Serial Verif.Serial.Spec

/-! ### Strict total orders -/

/-- A strict total order. -/
structure STO {α : Type} (lt : α → α → Bool) : Prop where
  irrefl : ∀ a, lt a a = false
  trans : ∀ a b c, lt a b = true → lt b c = true → lt a c = true
  tri : ∀ a b, lt a b = false → lt b a = false → a = b

theorem STO.asymm {α : Type} {lt : α → α → Bool} (h : STO lt) {a b : α} (hab : lt a b = true) :
    lt b a = false := by
  cases hba : lt b a with
  | false => rfl
  | true => have := h.trans a b a hab hba; rw [h.irrefl] at this; exact this.symm

theorem sto_pair {α β : Type} {f : α → α → Bool} {g : β → β → Bool} (hf : STO f) (hg : STO g) :
    STO (pairLt f g) := by
  constructor
  · rintro ⟨a, b⟩; simp [pairLt, hf.irrefl, hg.irrefl]
  · rintro ⟨a1, b1⟩ ⟨a2, b2⟩ ⟨a3, b3⟩ h1 h2
    simp only [pairLt, Bool.or_eq_true, Bool.and_eq_true, Bool.not_eq_true'] at h1 h2 ⊢
    rcases h1 with h1 | ⟨h1, h1'⟩ <;> rcases h2 with h2 | ⟨h2, h2'⟩
    · exact .inl (hf.trans _ _ _ h1 h2)
    · rcases hc : f a2 a3 with _ | _
      · rw [← hf.tri _ _ hc h2]; exact .inl h1
      · exact .inl (hf.trans _ _ _ h1 hc)
    · rcases hc : f a1 a2 with _ | _
      · rw [hf.tri _ _ hc h1]; exact .inl h2
      · exact .inl (hf.trans _ _ _ hc h2)
    · rcases hc : f a1 a2 with _ | _
      · have := hf.tri _ _ hc h1
        subst this
        rcases hd : f a1 a3 with _ | _
        · exact .inr ⟨h2, hg.trans _ _ _ h1' h2'⟩
        · exact .inl rfl
      · rcases hd : f a2 a3 with _ | _
        · have := hf.tri _ _ hd h2
          subst this
          exact .inl hc
        · exact .inl (hf.trans _ _ _ hc hd)
  · rintro ⟨a1, b1⟩ ⟨a2, b2⟩ h1 h2
    simp only [pairLt, Bool.or_eq_false_iff, Bool.and_eq_false_iff, Bool.not_eq_false'] at h1 h2
    have e := hf.tri _ _ h1.1 h2.1
    subst e
    simp only [hf.irrefl, Bool.false_eq_true, false_or] at h1 h2
    rw [hg.tri _ _ h1.2 h2.2]

theorem sto_list {α : Type} {f : α → α → Bool} (hf : STO f) : STO (listLt f) := by
  constructor
  · intro a; induction a with
    | nil => rfl
    | cons x xs ih => simp [listLt, hf.irrefl, ih]
  · intro a
    induction a with
    | nil => intro b c h1 h2; cases b <;> cases c <;> simp_all [listLt]
    | cons x xs ih =>
      intro b c h1 h2
      cases b with
      | nil => simp [listLt] at h1
      | cons y ys =>
        cases c with
        | nil => simp [listLt] at h2
        | cons z zs =>
          simp only [listLt, Bool.or_eq_true, Bool.and_eq_true, Bool.not_eq_true'] at h1 h2 ⊢
          rcases h1 with h1 | ⟨h1, h1'⟩ <;> rcases h2 with h2 | ⟨h2, h2'⟩
          · exact .inl (hf.trans _ _ _ h1 h2)
          · rcases hc : f y z with _ | _
            · rw [← hf.tri _ _ hc h2]; exact .inl h1
            · exact .inl (hf.trans _ _ _ h1 hc)
          · rcases hc : f x y with _ | _
            · rw [hf.tri _ _ hc h1]; exact .inl h2
            · exact .inl (hf.trans _ _ _ hc h2)
          · rcases hc : f x y with _ | _
            · have := hf.tri _ _ hc h1
              subst this
              exact .inr ⟨h2, ih _ _ h1' h2'⟩
            · rcases hd : f y z with _ | _
              · have := hf.tri _ _ hd h2
                subst this
                exact .inl hc
              · exact .inl (hf.trans _ _ _ hc hd)
  · intro a
    induction a with
    | nil => intro b h1 h2; cases b <;> simp_all [listLt]
    | cons x xs ih =>
      intro b h1 h2
      cases b with
      | nil => simp [listLt] at h2
      | cons y ys =>
        simp only [listLt, Bool.or_eq_false_iff, Bool.and_eq_false_iff, Bool.not_eq_false'] at h1 h2
        have e := hf.tri _ _ h1.1 h2.1
        subst e
        simp only [hf.irrefl, Bool.false_eq_true, false_or] at h1 h2
        rw [ih _ h1.2 h2.2]

theorem sto_vlt : ∀ t, STO (vlt t)
  | .prim n sgn => by
    cases sgn
    · constructor
      · intro a; simp [vlt]
      · intro a b c; simp only [vlt, Bool.false_eq_true, if_false, decide_eq_true_eq]; omega
      · intro a b; simp only [vlt, Bool.false_eq_true, if_false, decide_eq_false_iff_not]
        intro h1 h2; exact BitVec.eq_of_toNat_eq (by omega)
    · constructor
      · intro a; simp [vlt]
      · intro a b c; simp only [vlt, if_true, decide_eq_true_eq]; omega
      · intro a b; simp only [vlt, if_true, decide_eq_false_iff_not]
        intro h1 h2; exact BitVec.eq_of_toInt_eq (by omega)
  | .bool => by constructor <;> decide
  | .str => sto_list (by
      constructor
      · intro a; simp
      · intro a b c; simp only [decide_eq_true_eq, UInt8.lt_iff_toNat_lt]; omega
      · intro a b; simp only [decide_eq_false_iff_not, UInt8.lt_iff_toNat_lt]
        intro h1 h2; exact UInt8.toNat_inj.1 (by omega))
  | .arr _ t => sto_list (sto_vlt t)
  | .vec t => sto_list (sto_vlt t)
  | .deque t => sto_list (sto_vlt t)
  | .list t => sto_list (sto_vlt t)
  | .pair a b => sto_pair (sto_vlt a) (sto_vlt b)
  | .map k v => sto_list (sto_pair (sto_vlt k) (sto_vlt v))
  | .set t => sto_list (sto_vlt t)
  | .umap k v => sto_list (sto_pair (sto_vlt k) (sto_vlt v))
  | .uset t => sto_list (sto_vlt t)

/-! ### Insertion -/

theorem insertBy_perm {α : Type} {lt : α → α → Bool} {x : α} {l : List α}
    (h : ∀ y ∈ l, lt x y = true ∨ lt y x = true) : (insertBy lt x l).Perm (x :: l) := by
  induction l with
  | nil => exact .refl _
  | cons y ys ih =>
    simp only [insertBy]
    split
    · exact .refl _
    · rename_i h1
      have h2 : lt y x = true := (h y (by simp)).resolve_left h1
      rw [if_pos h2]
      exact ((ih fun z hz => h z (by simp [hz])).cons y).trans (.swap ..)

theorem insertBy_sorted {α : Type} {lt : α → α → Bool}
    (htr : ∀ a b c, lt a b = true → lt b c = true → lt a c = true) {x : α} {l : List α}
    (h : ∀ y ∈ l, lt x y = true ∨ lt y x = true) (hs : l.Pairwise (fun a b => lt a b = true)) :
    (insertBy lt x l).Pairwise (fun a b => lt a b = true) := by
  induction l with
  | nil => simp [insertBy]
  | cons y ys ih =>
    rw [List.pairwise_cons] at hs
    simp only [insertBy]
    split
    · rename_i h1
      refine List.pairwise_cons.2 ⟨?_, List.pairwise_cons.2 hs⟩
      intro z hz
      rcases List.mem_cons.1 hz with rfl | hz
      · exact h1
      · exact htr _ _ _ h1 (hs.1 z hz)
    · rename_i h1
      have h2 : lt y x = true := (h y (by simp)).resolve_left h1
      rw [if_pos h2]
      have hh : ∀ z ∈ ys, lt x z = true ∨ lt z x = true := fun z hz => h z (by simp [hz])
      refine List.pairwise_cons.2 ⟨?_, ih hh hs.2⟩
      intro z hz
      rcases List.mem_cons.1 ((insertBy_perm hh).subset hz) with rfl | hz
      · exact h2
      · exact hs.1 z hz

theorem foldl_insertBy {α : Type} {lt : α → α → Bool}
    (htr : ∀ a b c, lt a b = true → lt b c = true → lt a c = true) :
    ∀ (l acc : List α), (l ++ acc).Pairwise (fun a b => lt a b = true ∨ lt b a = true) →
      acc.Pairwise (fun a b => lt a b = true) →
      (l.foldl (fun m x => insertBy lt x m) acc).Perm (l ++ acc) ∧
      (l.foldl (fun m x => insertBy lt x m) acc).Pairwise (fun a b => lt a b = true) := by
  intro l
  induction l with
  | nil => intro acc _ h; exact ⟨.refl _, h⟩
  | cons x xs ih =>
    intro acc hp hs
    rw [List.cons_append, List.pairwise_cons] at hp
    have hh : ∀ y ∈ acc, lt x y = true ∨ lt y x = true := fun y hy => hp.1 y (by simp [hy])
    have p1 : (xs ++ insertBy lt x acc).Perm (x :: (xs ++ acc)) :=
      ((insertBy_perm hh).append_left xs).trans List.perm_middle
    have := ih (insertBy lt x acc)
      ((p1.pairwise_iff (by intro a b h; exact h.symm)).2 (List.pairwise_cons.2 hp))
      (insertBy_sorted htr hh hs)
    exact ⟨this.1.trans p1, this.2⟩

/-- Inserting the elements of a sorted enumeration in any order gives the
enumeration back. -/
theorem foldl_insertBy_eq {α : Type} {lt : α → α → Bool} (hir : ∀ a, lt a a = false)
    (htr : ∀ a b c, lt a b = true → lt b c = true → lt a c = true) {m m' : List α}
    (hp : m'.Perm m) (hs : m.Pairwise (fun a b => lt a b = true)) :
    m'.foldl (fun acc x => insertBy lt x acc) [] = m := by
  have h1 : (m' ++ []).Pairwise (fun a b => lt a b = true ∨ lt b a = true) := by
    rw [List.append_nil]
    exact (hp.pairwise_iff (by intro a b h; exact h.symm)).2 (hs.imp fun h => .inl h)
  have := foldl_insertBy htr m' [] h1 .nil
  rw [List.append_nil] at this
  refine List.Perm.eq_of_pairwise ?_ this.2 hs (this.1.trans hp)
  intro a b _ _ h1 h2
  have := htr _ _ _ h1 h2
  rw [hir] at this; cases this

/-! ### Bytes -/

theorem length_toLE (n v : Nat) : (toLE n v).length = n := by
  induction n generalizing v with
  | zero => rfl
  | succ n ih => simp [toLE, ih]

theorem ofLE_toLE (n v : Nat) (h : v < 256 ^ n) : ofLE (toLE n v) = v := by
  induction n generalizing v with
  | zero => simp at h; simp [toLE, ofLE, h]
  | succ n ih =>
    rw [Nat.pow_succ] at h
    rw [toLE, ofLE, ih _ (by omega)]
    have : (UInt8.ofNat v).toNat = v % 256 := by simp
    omega

theorem readN_append (bs tail : List UInt8) (u : Bool) :
    readN bs.length ⟨bs ++ tail, true, u⟩ = (some bs, ⟨tail, true, u⟩) := by
  simp [readN]

theorem readPrim_toLE {n v : Nat} (h : v < 256 ^ n) (old : Nat) (tail : List UInt8) (u : Bool) :
    readPrim n old ⟨toLE n v ++ tail, true, u⟩ = (v, ⟨tail, true, u⟩) := by
  have := readN_append (toLE n v) tail u
  rw [length_toLE] at this
  simp only [readPrim, this, ofLE_toLE n v h]

theorem readPrim_size (n old : Nat) (tail : List UInt8) (u : Bool) :
    readPrim 4 old ⟨sizeField n ++ tail, true, u⟩ = (n % 2 ^ 32, ⟨tail, true, u⟩) :=
  readPrim_toLE (by have := Nat.mod_lt n (show 0 < 2 ^ 32 by decide); omega) ..

theorem readChar_cons (old b : UInt8) (tail : List UInt8) (u : Bool) :
    readChar old ⟨b :: tail, true, u⟩ = (b, ⟨tail, true, u⟩) := by
  simp [readChar, readPrim, readN, ofLE]

/-! ### Round trip -/

/-- `f` reads back what `W` writes. -/
def RT {α : Type} (f : α → Strm → α × Strm) (W : α → List UInt8 → Prop) (ok shape : α → Prop) : Prop :=
  ∀ v bs tail old u, ok v → W v bs → shape old → f old ⟨bs ++ tail, true, u⟩ = (v, ⟨tail, true, u⟩)

theorem rt_inPlace {α : Type} {f : α → Strm → α × Strm} {W ok shape} (h : RT f W ok shape) :
    ∀ (vs olds : List α) (bs tail : List UInt8) (u : Bool), olds.length = vs.length →
      (∀ x ∈ vs, ok x) → (∀ x ∈ olds, shape x) → WritesAll W vs bs →
      readInPlace f olds ⟨bs ++ tail, true, u⟩ = (vs, ⟨tail, true, u⟩) := by
  intro vs
  induction vs with
  | nil =>
    intro olds bs tail u hl _ _ hw
    simp only [WritesAll] at hw
    have : olds = [] := List.length_eq_zero_iff.1 hl
    subst this hw
    rfl
  | cons v vs ih =>
    intro olds bs tail u hl ho hs hw
    cases olds with
    | nil => simp at hl
    | cons o os =>
      obtain ⟨a, b, rfl, h1, h2⟩ := hw
      have e := h v a (b ++ tail) o u (ho v (by simp)) h1 (hs o (by simp))
      simp only [readInPlace, List.append_assoc, e,
        ih os b tail u (by simpa using hl) (fun x hx => ho x (by simp [hx]))
          (fun x hx => hs x (by simp [hx])) h2]

theorem rt_push {α : Type} {f : α → Strm → α × Strm} {W ok shape} (h : RT f W ok shape) {d : α}
    (hd : shape d) : ∀ (vs : List α) (bs tail : List UInt8) (u : Bool),
      (∀ x ∈ vs, ok x) → WritesAll W vs bs →
      readPush f d vs.length ⟨bs ++ tail, true, u⟩ = (vs, ⟨tail, true, u⟩) := by
  intro vs
  induction vs with
  | nil =>
    intro bs tail u _ hw
    simp only [WritesAll] at hw
    subst hw
    rfl
  | cons v vs ih =>
    intro bs tail u ho hw
    obtain ⟨a, b, rfl, h1, h2⟩ := hw
    have e := h v a (b ++ tail) d u (ho v (by simp)) h1 hd
    simp only [List.length_cons, readPush, List.append_assoc, e,
        ih b tail u (fun x hx => ho x (by simp [hx])) h2]

theorem rt_insert {α : Type} {f : α → Strm → α × Strm} {W ok shape} (h : RT f W ok shape) {d : α}
    (hd : shape d) (lt : α → α → Bool) (junk : Bool) :
    ∀ (vs acc : List α) (bs tail : List UInt8) (u : Bool),
      (∀ x ∈ vs, ok x) → WritesAll W vs bs →
      readInsert f d lt junk vs.length acc ⟨bs ++ tail, true, u⟩ =
        (vs.foldl (fun m x => insertBy lt x m) acc, ⟨tail, true, u⟩) := by
  intro vs
  induction vs with
  | nil =>
    intro acc bs tail u _ hw
    simp only [WritesAll] at hw
    subst hw
    rfl
  | cons v vs ih =>
    intro acc bs tail u ho hw
    obtain ⟨a, b, rfl, h1, h2⟩ := hw
    have e := h v a (b ++ tail) d u (ho v (by simp)) h1 hd
    simp only [List.length_cons, readInsert, List.append_assoc, e, Bool.not_true, Bool.and_false,
      Bool.false_eq_true, if_false, List.foldl_cons,
      ih _ b tail u (fun x hx => ho x (by simp [hx])) h2]

theorem writesAll_append {α : Type} {W : α → List UInt8 → Prop} {xs ys : List α} {bs : List UInt8}
    (h : WritesAll W (xs ++ ys) bs) : ∃ a b, bs = a ++ b ∧ WritesAll W xs a ∧ WritesAll W ys b := by
  induction xs generalizing bs with
  | nil => exact ⟨[], bs, rfl, rfl, h⟩
  | cons x xs ih =>
    obtain ⟨a, b, rfl, h1, h2⟩ := h
    obtain ⟨c, d, rfl, h3, h4⟩ := ih h2
    exact ⟨a ++ c, d, by simp, ⟨a, c, rfl, h1, h3⟩, h4⟩

theorem rt_seq {α : Type} {f : α → Strm → α × Strm} {W ok shape} (h : RT f W ok shape) {d : α}
    (hd : shape d) : RT (readSeq f d)
      (fun v bs => ∃ body, bs = sizeField v.length ++ body ∧ WritesAll W v body)
      (fun v => v.length < 2 ^ 32 ∧ ∀ x ∈ v, ok x) (fun old => ∀ x ∈ old, shape x) := by
  rintro v _ tail old u ⟨hlen, hok⟩ ⟨body, rfl, hw⟩ hsh
  have hm : v.length % 2 ^ 32 = v.length := Nat.mod_eq_of_lt hlen
  have hkl : (old.take v.length).length ≤ v.length := by simp; omega
  have hsplit : v = v.take (old.take v.length).length ++ v.drop (old.take v.length).length := by simp
  rw [hsplit] at hw
  obtain ⟨a, b, rfl, h1, h2⟩ := writesAll_append hw
  have e1 := rt_inPlace h (v.take (old.take v.length).length) (old.take v.length) a (b ++ tail) u
    (by simp) (fun x hx => hok x (List.mem_of_mem_take hx))
    (fun x hx => hsh x (List.mem_of_mem_take hx)) h1
  have e2 := rt_push h hd (v.drop (old.take v.length).length) b tail u
    (fun x hx => hok x (List.mem_of_mem_drop hx)) h2
  rw [List.length_drop] at e2
  simp only [readSeq, List.append_assoc, readPrim_size, hm, e1, e2, List.take_append_drop]

theorem rt_assoc {α : Type} {f : α → Strm → α × Strm} {W ok shape} (h : RT f W ok shape) {d : α}
    (hd : shape d) {lt : α → α → Bool} (junk : Bool) (hir : ∀ a, lt a a = false)
    (htr : ∀ a b c, lt a b = true → lt b c = true → lt a c = true) :
    RT (readAssoc f d lt junk)
      (fun m bs => ∃ body m', m'.Perm m ∧ bs = sizeField m.length ++ body ∧ WritesAll W m' body)
      (fun m => m.length < 2 ^ 32 ∧ m.Pairwise (fun x y => lt x y = true) ∧ ∀ x ∈ m, ok x)
      (fun _ => True) := by
  rintro m _ tail old u ⟨hlen, hsort, hok⟩ ⟨body, m', hp, rfl, hw⟩ -
  have hm : m.length % 2 ^ 32 = m'.length := by rw [Nat.mod_eq_of_lt hlen, hp.length_eq]
  simp only [readAssoc, List.append_assoc, readPrim_size, hm,
    rt_insert h hd lt junk m' [] body tail u (fun x hx => hok x (hp.subset hx)) hw,
    foldl_insertBy_eq hir htr hp hsort]

theorem rt_pair {α β : Type} {f : α → Strm → α × Strm} {g : β → Strm → β × Strm}
    {W W' ok ok' shape shape'} (h : RT f W ok shape) (h' : RT g W' ok' shape') :
    RT (readPair f g) (fun v bs => ∃ x y, bs = x ++ y ∧ W v.1 x ∧ W' v.2 y)
      (fun v => ok v.1 ∧ ok' v.2) (fun v => shape v.1 ∧ shape' v.2) := by
  rintro v _ tail old u ⟨h1, h2⟩ ⟨x, y, rfl, hx, hy⟩ ⟨s1, s2⟩
  simp only [readPair, List.append_assoc, h _ _ (y ++ tail) _ u h1 hx s1, h' _ _ tail _ u h2 hy s2]

theorem shape_dflt : ∀ t, Shape t (dflt t)
  | .prim _ _ => trivial
  | .bool => trivial
  | .str => trivial
  | .arr n t => ⟨by simp [dflt], fun x hx => by
      rw [List.eq_of_mem_replicate hx]; exact shape_dflt t⟩
  | .vec _ => fun x hx => nomatch hx
  | .deque _ => fun x hx => nomatch hx
  | .list _ => fun x hx => nomatch hx
  | .pair a b => ⟨shape_dflt a, shape_dflt b⟩
  | .map _ _ => trivial
  | .set _ => trivial
  | .umap _ _ => trivial
  | .uset _ => trivial

theorem rt_str : RT readStr (fun v bs => bs = sizeField v.length ++ v.take (v.length % 2 ^ 32))
    (fun v => v.length < 2 ^ 32) (fun _ => True) := by
  rintro v _ tail old u hlen rfl -
  have hm : v.length % 2 ^ 32 = v.length := Nat.mod_eq_of_lt hlen
  have hc : RT (fun c s => let r := readPrim 1 c.toNat s; (UInt8.ofNat r.1, r.2))
      (fun (c : UInt8) bs => bs = [c]) (fun _ => True) (fun _ => True) := by
    rintro c _ tail old u - rfl -
    exact readChar_cons old c tail u
  have hall : ∀ v : List UInt8, WritesAll (fun (c : UInt8) bs => bs = [c]) v v := by
    intro v
    induction v with
    | nil => rfl
    | cons x xs ih => exact ⟨[x], xs, rfl, rfl, ih⟩
  simp only [readStr, List.append_assoc, readPrim_size, hm, List.take_length]
  refine rt_inPlace hc v _ v tail u ?_ (fun _ _ => trivial) (fun _ _ => trivial) (hall v)
  simp; omega

theorem rt_mono {α : Type} {f : α → Strm → α × Strm} {W W' ok ok' shape shape'}
    (h : RT f W ok shape) (hW : ∀ v bs, ok' v → W' v bs → W v bs) (ho : ∀ v, ok' v → ok v)
    (hs : ∀ v, shape' v → shape v) : RT f W' ok' shape' :=
  fun v bs tail old u h1 h2 h3 => h v bs tail old u (ho v h1) (hW v bs h1 h2) (hs old h3)

theorem rt_read : ∀ t, RT (read t) (Writes t) (WF t) (Shape t)
  | .prim n sgn => by
    rintro v _ tail old u - rfl -
    have h : v.toNat < 256 ^ n := by
      have := v.isLt
      rw [Nat.pow_mul] at this
      exact this
    simp only [read, readPrim_toLE h, BitVec.ofNat_toNat, BitVec.setWidth_eq]
  | .bool => by
    rintro v _ tail old u - rfl -
    cases v <;> simp [read, readBool, readN, ofLE]
  | .str => rt_str
  | .arr n t => by
    rintro v bs tail old u ⟨h1, h2⟩ hw ⟨h3, h4⟩
    exact rt_inPlace (rt_read t) v old bs tail u (by rw [h1, h3]) h2 h4 hw
  | .vec t => rt_mono (rt_seq (rt_read t) (shape_dflt t))
      (by rintro v bs ⟨hl, _⟩ ⟨body, h1, h2⟩
          rw [Nat.mod_eq_of_lt hl, List.take_length] at h2; exact ⟨body, h1, h2⟩)
      (fun _ h => h) (fun _ h => h)
  | .deque t => rt_mono (rt_seq (rt_read t) (shape_dflt t))
      (by rintro v bs ⟨hl, _⟩ ⟨body, h1, h2⟩
          rw [Nat.mod_eq_of_lt hl, List.take_length] at h2; exact ⟨body, h1, h2⟩)
      (fun _ h => h) (fun _ h => h)
  | .list t => rt_seq (rt_read t) (shape_dflt t)
  | .pair a b => rt_pair (rt_read a) (rt_read b)
  | .map k v => rt_mono (rt_assoc (rt_pair (rt_read k) (rt_read v)) ⟨shape_dflt k, shape_dflt v⟩ false
        (fun a => (sto_vlt k).irrefl a.1) (fun a b c => (sto_vlt k).trans a.1 b.1 c.1))
      (by rintro m bs - ⟨body, h1, h2⟩; exact ⟨body, m, .refl _, h1, h2⟩)
      (fun _ h => h) (fun _ h => h)
  | .set t => rt_mono (rt_assoc (rt_read t) (shape_dflt t) _ (sto_vlt t).irrefl (sto_vlt t).trans)
      (by rintro m bs - ⟨body, h1, h2⟩; exact ⟨body, m, .refl _, h1, h2⟩)
      (fun _ h => h) (fun _ h => h)
  | .umap k v => rt_assoc (rt_pair (rt_read k) (rt_read v)) ⟨shape_dflt k, shape_dflt v⟩ false
        (fun a => (sto_vlt k).irrefl a.1) (fun a b c => (sto_vlt k).trans a.1 b.1 c.1)
  | .uset t => rt_assoc (rt_read t) (shape_dflt t) _ (sto_vlt t).irrefl (sto_vlt t).trans

/-! ### Existence and uniqueness of the written form -/

theorem exists_writesAll {α : Type} {W : α → List UInt8 → Prop} (h : ∀ x, ∃ bs, W x bs) :
    ∀ v : List α, ∃ bs, WritesAll W v bs
  | [] => ⟨[], rfl⟩
  | x :: xs => by
    obtain ⟨a, ha⟩ := h x
    obtain ⟨b, hb⟩ := exists_writesAll h xs
    exact ⟨a ++ b, a, b, rfl, ha, hb⟩

theorem exists_writes : ∀ t v, ∃ bs, Writes t v bs
  | .prim _ _, _ => ⟨_, rfl⟩
  | .bool, _ => ⟨_, rfl⟩
  | .str, _ => ⟨_, rfl⟩
  | .arr _ t, v => exists_writesAll (exists_writes t) v
  | .vec t, v => by
    obtain ⟨b, hb⟩ := exists_writesAll (exists_writes t) (v.take (v.length % 2 ^ 32))
    exact ⟨_, b, rfl, hb⟩
  | .deque t, v => by
    obtain ⟨b, hb⟩ := exists_writesAll (exists_writes t) (v.take (v.length % 2 ^ 32))
    exact ⟨_, b, rfl, hb⟩
  | .list t, v => by
    obtain ⟨b, hb⟩ := exists_writesAll (exists_writes t) v
    exact ⟨_, b, rfl, hb⟩
  | .pair a b, v => by
    obtain ⟨x, hx⟩ := exists_writes a v.1
    obtain ⟨y, hy⟩ := exists_writes b v.2
    exact ⟨_, x, y, rfl, hx, hy⟩
  | .map k w, v => by
    obtain ⟨b, hb⟩ := exists_writesAll (W := fun p bs => ∃ x y, bs = x ++ y ∧ Writes k p.1 x ∧ Writes w p.2 y)
      (fun p => by
        obtain ⟨x, hx⟩ := exists_writes k p.1
        obtain ⟨y, hy⟩ := exists_writes w p.2
        exact ⟨_, x, y, rfl, hx, hy⟩) v
    exact ⟨_, b, rfl, hb⟩
  | .set t, v => by
    obtain ⟨b, hb⟩ := exists_writesAll (exists_writes t) v
    exact ⟨_, b, rfl, hb⟩
  | .umap k w, v => by
    obtain ⟨b, hb⟩ := exists_writesAll (W := fun p bs => ∃ x y, bs = x ++ y ∧ Writes k p.1 x ∧ Writes w p.2 y)
      (fun p => by
        obtain ⟨x, hx⟩ := exists_writes k p.1
        obtain ⟨y, hy⟩ := exists_writes w p.2
        exact ⟨_, x, y, rfl, hx, hy⟩) v
    exact ⟨_, b, v, .refl _, rfl, hb⟩
  | .uset t, v => by
    obtain ⟨b, hb⟩ := exists_writesAll (exists_writes t) v
    exact ⟨_, b, v, .refl _, rfl, hb⟩

/-! ### Prefixes -/

/-- More bytes behind a stream. -/
def app (s : Strm) (q : List UInt8) : Strm := { s with rest := s.rest ++ q }

/-- A reader never repairs a failed stream, and if it succeeds it does the
same with more bytes behind. -/
structure Mono {α : Type} (f : α → Strm → α × Strm) : Prop where
  bad : ∀ old s, s.good = false → (f old s).2.good = false
  ext : ∀ old s q, (f old s).2.good = true → f old (app s q) = ((f old s).1, app (f old s).2 q)

theorem Mono.good {α : Type} {f : α → Strm → α × Strm} (h : Mono f) {old s}
    (hg : (f old s).2.good = true) : s.good = true := by
  cases hs : s.good with
  | true => rfl
  | false => rw [h.bad old s hs] at hg; cases hg

theorem readN_bad (n : Nat) {s : Strm} (h : s.good = false) : readN n s = (none, s) := by
  simp [readN, h]

theorem readN_ext (n : Nat) (s : Strm) (q : List UInt8) (h : (readN n s).2.good = true) :
    readN n (app s q) = ((readN n s).1, app (readN n s).2 q) := by
  by_cases hg : s.good
  · by_cases hl : n ≤ s.rest.length
    · have : n ≤ s.rest.length + q.length := by omega
      simp [readN, hg, hl, app, this, List.take_append_of_le_length, List.drop_append_of_le_length]
    · simp [readN, hg, hl] at h
  · simp only [Bool.not_eq_true] at hg
    simp [readN, hg] at h

theorem mono_prim (n : Nat) : Mono (readPrim n) := by
  constructor
  · intro old s h; simp [readPrim, readN_bad n h, h]
  · intro old s q h
    have h' : (readN n s).2.good = true := by
      unfold readPrim at h; revert h; rcases readN n s with ⟨_ | _, _⟩ <;> exact id
    unfold readPrim
    rw [readN_ext n s q h']
    rcases readN n s with ⟨_ | _, _⟩ <;> rfl

theorem mono_bool : Mono readBool := by
  constructor
  · intro old s h; simp [readBool, readN_bad 1 h, h]
  · intro old s q h
    have h' : (readN 1 s).2.good = true := by
      unfold readBool at h; revert h
      rcases readN 1 s with ⟨_ | _, _⟩
      · exact id
      · simp only; split <;> exact id
    unfold readBool
    rw [readN_ext 1 s q h']
    rcases readN 1 s with ⟨_ | _, _⟩
    · rfl
    · simp only; split <;> rfl

theorem bad_inPlace {α : Type} {f : α → Strm → α × Strm} (h : Mono f) (l : List α) :
    ∀ s, s.good = false → (readInPlace f l s).2.good = false := by
  induction l with
  | nil => intro s hs; exact hs
  | cons x xs ih => intro s hs; exact ih _ (h.bad x s hs)

theorem mono_inPlace {α : Type} {f : α → Strm → α × Strm} (h : Mono f) : Mono (readInPlace f) := by
  refine ⟨fun l => bad_inPlace h l, ?_⟩
  intro l
  induction l with
  | nil => intro s q _; rfl
  | cons x xs ih =>
    intro s q hg
    simp only [readInPlace] at hg ⊢
    have h1 : (f x s).2.good = true := by
      cases hb : (f x s).2.good with
      | true => rfl
      | false => rw [bad_inPlace h xs _ hb] at hg; cases hg
    simp only [h.ext x s q h1, ih _ q hg]

theorem bad_push {α : Type} {f : α → Strm → α × Strm} (h : Mono f) (d : α) (n : Nat) :
    ∀ s, s.good = false → (readPush f d n s).2.good = false := by
  induction n with
  | zero => intro s hs; exact hs
  | succ n ih => intro s hs; exact ih _ (h.bad d s hs)

theorem ext_push {α : Type} {f : α → Strm → α × Strm} (h : Mono f) (d : α) (n : Nat) :
    ∀ s q, (readPush f d n s).2.good = true →
      readPush f d n (app s q) = ((readPush f d n s).1, app (readPush f d n s).2 q) := by
  induction n with
  | zero => intro s q _; rfl
  | succ n ih =>
    intro s q hg
    simp only [readPush] at hg ⊢
    have h1 : (f d s).2.good = true := by
      cases hb : (f d s).2.good with
      | true => rfl
      | false => rw [bad_push h d n _ hb] at hg; cases hg
    simp only [h.ext d s q h1, ih _ q hg]

theorem bad_insert {α : Type} {f : α → Strm → α × Strm} (h : Mono f) (d : α) (lt : α → α → Bool)
    (junk : Bool) (n : Nat) :
    ∀ acc s, s.good = false → (readInsert f d lt junk n acc s).2.good = false := by
  induction n with
  | zero => intro acc s hs; exact hs
  | succ n ih =>
    intro acc s hs
    refine ih _ _ ?_
    split
    · exact h.bad d s hs
    · exact h.bad d s hs

theorem ext_insert {α : Type} {f : α → Strm → α × Strm} (h : Mono f) (d : α) (lt : α → α → Bool)
    (junk : Bool) (n : Nat) :
    ∀ acc s q, (readInsert f d lt junk n acc s).2.good = true →
      readInsert f d lt junk n acc (app s q) =
        ((readInsert f d lt junk n acc s).1, app (readInsert f d lt junk n acc s).2 q) := by
  induction n with
  | zero => intro acc s q _; rfl
  | succ n ih =>
    intro acc s q hg
    simp only [readInsert] at hg ⊢
    have h1 : (f d s).2.good = true := by
      cases hb : (f d s).2.good with
      | true => rfl
      | false =>
        rw [bad_insert h d lt junk n] at hg
        · cases hg
        · split <;> exact hb
    have h2 : (app (f d s).2 q).good = true := h1
    simp only [h1, Bool.not_true, Bool.and_false, Bool.false_eq_true, if_false] at hg
    simp only [h.ext d s q h1, h1, h2, Bool.not_true, Bool.and_false, Bool.false_eq_true, if_false]
    exact ih _ _ q hg

theorem mono_seq {α : Type} {f : α → Strm → α × Strm} (h : Mono f) (d : α) : Mono (readSeq f d) := by
  constructor
  · intro old s hs
    exact bad_push h d _ _ (bad_inPlace h _ _ ((mono_prim 4).bad _ s hs))
  · intro old s q hg
    simp only [readSeq] at hg ⊢
    have g2 : (readInPlace f (old.take (readPrim 4 (old.length % 2 ^ 32) s).1)
        (readPrim 4 (old.length % 2 ^ 32) s).2).2.good = true := by
      by_contra hb
      rw [bad_push h d _ _ (by simpa using hb)] at hg; cases hg
    have g1 : (readPrim 4 (old.length % 2 ^ 32) s).2.good = true := (mono_inPlace h).good g2
    rw [(mono_prim 4).ext _ s q g1]
    simp only
    rw [(mono_inPlace h).ext _ _ q g2]
    simp only
    rw [ext_push h d _ _ q hg]

theorem mono_assoc {α : Type} {f : α → Strm → α × Strm} (h : Mono f) (d : α) (lt : α → α → Bool)
    (junk : Bool) : Mono (readAssoc f d lt junk) := by
  constructor
  · intro old s hs
    exact bad_insert h d lt junk _ _ _ ((mono_prim 4).bad _ s hs)
  · intro old s q hg
    simp only [readAssoc] at hg ⊢
    have g1 : (readPrim 4 (old.length % 2 ^ 32) s).2.good = true := by
      by_contra hb
      rw [bad_insert h d lt junk _ _ _ (by simpa using hb)] at hg; cases hg
    rw [(mono_prim 4).ext _ s q g1]
    exact ext_insert h d lt junk _ _ _ q hg

theorem mono_pair {α β : Type} {f : α → Strm → α × Strm} {g : β → Strm → β × Strm}
    (h : Mono f) (h' : Mono g) : Mono (readPair f g) := by
  constructor
  · intro old s hs; exact h'.bad _ _ (h.bad _ _ hs)
  · intro old s q hg
    simp only [readPair] at hg ⊢
    rw [h.ext _ s q (h'.good hg)]
    simp only
    rw [h'.ext _ _ q hg]

theorem mono_char : Mono readChar := by
  constructor
  · intro old s hs; exact (mono_prim 1).bad _ s hs
  · intro old s q hg
    simp only [readChar] at hg ⊢
    rw [(mono_prim 1).ext _ s q hg]

theorem mono_str : Mono readStr := by
  constructor
  · intro old s hs
    exact bad_inPlace mono_char _ _ ((mono_prim 4).bad _ s hs)
  · intro old s q hg
    have g1 : (readPrim 4 (old.length % 2 ^ 32) s).2.good = true := (mono_inPlace mono_char).good hg
    simp only [readStr]
    rw [(mono_prim 4).ext _ s q g1]
    exact (mono_inPlace mono_char).ext _ _ q hg

theorem mono_read : ∀ t, Mono (read t)
  | .prim n _ => by
    constructor
    · intro old s hs; exact (mono_prim n).bad _ s hs
    · intro old s q hg
      simp only [read] at hg ⊢
      rw [(mono_prim n).ext _ s q hg]
  | .bool => mono_bool
  | .str => mono_str
  | .arr _ t => mono_inPlace (mono_read t)
  | .vec t => mono_seq (mono_read t) _
  | .deque t => mono_seq (mono_read t) _
  | .list t => mono_seq (mono_read t) _
  | .pair a b => mono_pair (mono_read a) (mono_read b)
  | .map k v => mono_assoc (mono_pair (mono_read k) (mono_read v)) _ _ _
  | .set t => mono_assoc (mono_read t) _ _ _
  | .umap k v => mono_assoc (mono_pair (mono_read k) (mono_read v)) _ _ _
  | .uset t => mono_assoc (mono_read t) _ _ _

/-! ### No undefined behaviour on any bytes -/

/-- A reader that never does anything undefined. -/
def NoUb {α : Type} (f : α → Strm → α × Strm) : Prop := ∀ old s, (f old s).2.ub = s.ub

theorem noUb_prim (n : Nat) : NoUb (readPrim n) := by
  intro old s
  simp only [readPrim, readN]
  split <;> rename_i h <;> (revert h; split <;> (try split) <;> intro h <;> cases h <;> rfl)

theorem noUb_inPlace {α : Type} {f : α → Strm → α × Strm} (h : NoUb f) : NoUb (readInPlace f) := by
  intro l
  induction l with
  | nil => intro s; rfl
  | cons x xs ih => intro s; simp only [readInPlace, ih, h x s]

theorem noUb_push {α : Type} {f : α → Strm → α × Strm} (h : NoUb f) (d : α) (n : Nat) :
    ∀ s, (readPush f d n s).2.ub = s.ub := by
  induction n with
  | zero => intro s; rfl
  | succ n ih => intro s; simp only [readPush, ih, h d s]

theorem noUb_insert {α : Type} {f : α → Strm → α × Strm} (h : NoUb f) (d : α) (lt : α → α → Bool)
    (n : Nat) : ∀ acc s, (readInsert f d lt false n acc s).2.ub = s.ub := by
  induction n with
  | zero => intro acc s; rfl
  | succ n ih => intro acc s; simp [readInsert, ih, h d s]

theorem noUb_seq {α : Type} {f : α → Strm → α × Strm} (h : NoUb f) (d : α) : NoUb (readSeq f d) := by
  intro old s
  simp only [readSeq, noUb_push h, noUb_inPlace h _ _, noUb_prim 4 _ s]

theorem noUb_assoc {α : Type} {f : α → Strm → α × Strm} (h : NoUb f) (d : α) (lt : α → α → Bool) :
    NoUb (readAssoc f d lt false) := by
  intro old s
  simp only [readAssoc, noUb_insert h, noUb_prim 4 _ s]

theorem noUb_pair {α β : Type} {f : α → Strm → α × Strm} {g : β → Strm → β × Strm}
    (h : NoUb f) (h' : NoUb g) : NoUb (readPair f g) := by
  intro old s
  simp only [readPair, h' _ _, h _ s]

theorem noUb_char : NoUb readChar := fun old s => noUb_prim 1 _ s

theorem indet_compound : ∀ {t}, Compound t → indet t = false
  | .str, _ | .arr _ _, _ | .vec _, _ | .deque _, _ | .list _, _ | .pair _ _, _ | .map _ _, _
  | .set _, _ | .umap _ _, _ | .uset _, _ => rfl

theorem noUb_read : ∀ t, Safe t → NoUb (read t)
  | .prim n _, _ => fun old s => noUb_prim n _ s
  | .str, _ => fun old s => by
    have := noUb_inPlace noUb_char
    exact (this _ _).trans (noUb_prim 4 _ s)
  | .arr _ t, h => noUb_inPlace (noUb_read t h)
  | .vec t, h => noUb_seq (noUb_read t h) _
  | .deque t, h => noUb_seq (noUb_read t h) _
  | .list t, h => noUb_seq (noUb_read t h) _
  | .pair a b, h => noUb_pair (noUb_read a h.1) (noUb_read b h.2)
  | .map k v, h => noUb_assoc (noUb_pair (noUb_read k h.1) (noUb_read v h.2)) _ _
  | .set t, h => by
    have := noUb_assoc (noUb_read t h.1) (dflt t) (vlt t)
    rw [← indet_compound h.2] at this; exact this
  | .umap k v, h => noUb_assoc (noUb_pair (noUb_read k h.1) (noUb_read v h.2)) _ _
  | .uset t, h => by
    have := noUb_assoc (noUb_read t h.1) (dflt t) (vlt t)
    rw [← indet_compound h.2] at this; exact this

/-! ### Undefined behaviour on a prefix is undefined behaviour on the whole -/

/-- An action on streams that never repairs one, does the same with more bytes behind if it succeeds, does nothing undefined on a
failed one, and whose undefined behaviour is not cured by more bytes. -/
structure Tame {α : Type} (f : Strm → α × Strm) : Prop where
  bad : ∀ s, s.good = false → (f s).2.good = false
  ext : ∀ s q, (f s).2.good = true → f (app s q) = ((f s).1, app (f s).2 q)
  keep : ∀ s, s.ub = true → (f s).2.ub = true
  calm : ∀ s, s.good = false → (f s).2.ub = s.ub
  ubExt : ∀ s q, (f s).2.ub = true → (f (app s q)).2.ub = true

theorem tame_pure {α : Type} (a : α) : Tame (fun s => (a, s)) :=
  ⟨fun _ h => h, fun _ _ _ => rfl, fun _ h => h, fun _ _ => rfl, fun _ _ h => h⟩

theorem tame_bind {α β : Type} {f : Strm → α × Strm} {g : α → Strm → β × Strm} (hf : Tame f) (hg : ∀ a, Tame (g a)) :
    Tame (fun s => g (f s).1 (f s).2) := by
  refine ⟨fun s h => (hg _).bad _ (hf.bad s h), fun s q h => ?_, fun s h => (hg _).keep _ (hf.keep s h),
    fun s h => ((hg _).calm _ (hf.bad s h)).trans (hf.calm s h), fun s q h => ?_⟩
  · have h1 : (f s).2.good = true := by
      cases e : (f s).2.good with
      | true => rfl
      | false =>
        have := (hg (f s).1).bad _ e
        simp only [this] at h
        cases h
    simp only [hf.ext s q h1]
    exact (hg _).ext _ q h
  · cases e : (f s).2.good with
    | true =>
      simp only [hf.ext s q e]
      exact (hg _).ubExt _ q h
    | false =>
      have := (hg (f s).1).calm _ e
      simp only [this] at h
      exact (hg _).keep _ (hf.ubExt s q h)

theorem tame_noUb {α : Type} {f : α → Strm → α × Strm} (h : Mono f) (h' : NoUb f) (old : α) : Tame (f old) :=
  ⟨h.bad old, h.ext old, fun s hs => (h' old s).trans hs, fun s _ => h' old s, fun s q hu => by
    rw [h' old s] at hu
    rw [h' old (app s q)]
    exact hu⟩

theorem tame_bool (old : Bool) : Tame (readBool old) := by
  refine ⟨mono_bool.bad old, mono_bool.ext old, fun s h => ?_, fun s h => ?_, fun s q h => ?_⟩
  · by_cases h1 : s.good = true
    · by_cases h2 : 1 ≤ s.rest.length
      · simp only [readBool, readN, h1, h2, if_true]
        split <;> simp [h]
      · simp only [readBool, readN, h1, h2, if_true, if_false, h]
    · have h1 : s.good = false := by simpa using h1
      simp only [readBool, readN_bad 1 h1, h]
  · simp [readBool, readN_bad 1 h]
  · by_cases h1 : s.good = true
    · by_cases h2 : 1 ≤ s.rest.length
      · have h3 : (readBool old s).2.good = true := by
          simp only [readBool, readN, h1, h2, if_true]
          split <;> simp
        rw [mono_bool.ext old s q h3]
        exact h
      · have h3 : s.ub = true := by simpa [readBool, readN, h1, h2] using h
        have h4 : (app s q).ub = true := h3
        simp only [readBool, readN]
        split <;> rename_i e <;> revert e <;> split <;> (try split) <;> intro e <;> cases e <;> simp only [h4] <;> split <;> simp
    · have h1 : s.good = false := by simpa using h1
      have h3 : s.ub = true := by simpa [readBool, readN_bad 1 h1] using h
      have : (app s q).good = false := h1
      have e : readBool old (app s q) = (old, app s q) := by simp only [readBool, readN_bad 1 this]
      rw [e]
      exact h3

theorem tame_inPlace {α : Type} {f : α → Strm → α × Strm} (h : ∀ a, Tame (f a)) (l : List α) : Tame (readInPlace f l) := by
  induction l with
  | nil => exact tame_pure _
  | cons x xs ih => exact tame_bind (h x) (g := fun a s => let q := readInPlace f xs s; (a :: q.1, q.2)) (fun a => tame_bind ih (fun b => tame_pure (a :: b)))

theorem tame_push {α : Type} {f : α → Strm → α × Strm} (h : ∀ a, Tame (f a)) (d : α) (n : Nat) : Tame (readPush f d n) := by
  induction n with
  | zero => exact tame_pure _
  | succ n ih => exact tame_bind (h d) (g := fun a s => let q := readPush f d n s; (a :: q.1, q.2)) (fun a => tame_bind ih (fun b => tame_pure (a :: b)))

theorem tame_insert {α : Type} {f : α → Strm → α × Strm} (h : ∀ a, Tame (f a)) (d : α) (lt : α → α → Bool) (n : Nat) :
    ∀ acc, Tame (readInsert f d lt false n acc) := by
  induction n with
  | zero => intro acc; exact tame_pure _
  | succ n ih => intro acc; exact tame_bind (h d) (g := fun a s => readInsert f d lt false n (insertBy lt a acc) s) (fun a => ih _)

theorem tame_size (n : Nat) : Tame (readPrim 4 n) := tame_noUb (mono_prim 4) (noUb_prim 4) n

theorem tame_seq {α : Type} {f : α → Strm → α × Strm} (h : ∀ a, Tame (f a)) (d : α) (old : List α) : Tame (readSeq f d old) :=
  tame_bind (tame_size _) (g := fun sz s =>
    let a := readInPlace f (old.take sz) s
    let b := readPush f d (sz - (old.take sz).length) a.2
    (a.1 ++ b.1, b.2)) (fun sz => tame_bind (tame_inPlace h _) (g := fun a s =>
      let b := readPush f d (sz - (old.take sz).length) s
      (a ++ b.1, b.2)) (fun a => tame_bind (tame_push h d _) (fun b => tame_pure (a ++ b))))

theorem tame_assoc {α : Type} {f : α → Strm → α × Strm} (h : ∀ a, Tame (f a)) (d : α) (lt : α → α → Bool) (old : List α) :
    Tame (readAssoc f d lt false old) :=
  tame_bind (tame_size _) (g := fun sz s => readInsert f d lt false sz [] s) (fun _ => tame_insert h d lt _ [])

theorem tame_pair {α β : Type} {f : α → Strm → α × Strm} {g : β → Strm → β × Strm} (h : ∀ a, Tame (f a)) (h' : ∀ b, Tame (g b))
    (old : α × β) : Tame (readPair f g old) :=
  tame_bind (h old.1) (g := fun a s => let b := g old.2 s; ((a, b.1), b.2)) (fun a => tame_bind (h' old.2) (fun b => tame_pure (a, b)))

theorem tame_read : ∀ t, NoJunk t → ∀ old, Tame (read t old)
  | .prim n sgn, _ => tame_noUb (mono_read (.prim n sgn)) (noUb_read (.prim n sgn) trivial)
  | .bool, _ => tame_bool
  | .str, _ => tame_noUb (mono_read .str) (noUb_read .str trivial)
  | .arr _ t, h => tame_inPlace (tame_read t h)
  | .vec t, h => tame_seq (tame_read t h) _
  | .deque t, h => tame_seq (tame_read t h) _
  | .list t, h => tame_seq (tame_read t h) _
  | .pair a b, h => tame_pair (tame_read a h.1) (tame_read b h.2)
  | .map k v, h => tame_assoc (tame_pair (tame_read k h.1) (tame_read v h.2)) _ _
  | .set t, h => fun old => by
    have := tame_assoc (tame_read t h.1) (dflt t) (vlt t) old
    rw [← indet_compound h.2] at this; exact this
  | .umap k v, h => tame_assoc (tame_pair (tame_read k h.1) (tame_read v h.2)) _ _
  | .uset t, h => fun old => by
    have := tame_assoc (tame_read t h.1) (dflt t) (vlt t) old
    rw [← indet_compound h.2] at this; exact this

/-! ### Any bytes give a well-formed value -/

theorem mem_insertBy {α : Type} {lt : α → α → Bool} {x z : α} {l : List α} (h : z ∈ insertBy lt x l) :
    z = x ∨ z ∈ l := by
  induction l with
  | nil => simpa [insertBy] using h
  | cons y ys ih =>
    simp only [insertBy] at h
    split at h
    · simpa using h
    · split at h
      · rcases List.mem_cons.1 h with h | h
        · simp [h]
        · rcases ih h with h | h <;> simp [h]
      · exact .inr h

theorem insertBy_sorted' {α : Type} {lt : α → α → Bool}
    (htr : ∀ a b c, lt a b = true → lt b c = true → lt a c = true) {x : α} {l : List α}
    (hs : l.Pairwise (fun a b => lt a b = true)) :
    (insertBy lt x l).Pairwise (fun a b => lt a b = true) := by
  induction l with
  | nil => simp [insertBy]
  | cons y ys ih =>
    have hs' := List.pairwise_cons.1 hs
    simp only [insertBy]
    split
    · rename_i h1
      refine List.pairwise_cons.2 ⟨?_, hs⟩
      intro z hz
      rcases List.mem_cons.1 hz with rfl | hz
      · exact h1
      · exact htr _ _ _ h1 (hs'.1 z hz)
    · split
      · rename_i h2
        refine List.pairwise_cons.2 ⟨?_, ih hs'.2⟩
        intro z hz
        rcases mem_insertBy hz with rfl | hz
        · exact h2
        · exact hs'.1 z hz
      · exact hs

theorem length_insertBy {α : Type} (lt : α → α → Bool) (x : α) (l : List α) :
    (insertBy lt x l).length ≤ l.length + 1 := by
  induction l with
  | nil => simp [insertBy]
  | cons y ys ih => simp only [insertBy]; split <;> (try split) <;> simp only [List.length_cons] <;> omega

/-- A reader whose results are always acceptable. -/
def Gives {α : Type} (f : α → Strm → α × Strm) (ok shape : α → Prop) : Prop :=
  ∀ old s, shape old → ok (f old s).1

theorem gives_inPlace {α : Type} {f : α → Strm → α × Strm} {ok shape} (h : Gives f ok shape) :
    ∀ (l : List α) s, (∀ x ∈ l, shape x) →
      (readInPlace f l s).1.length = l.length ∧ ∀ x ∈ (readInPlace f l s).1, ok x := by
  intro l
  induction l with
  | nil => intro s _; exact ⟨rfl, fun x hx => nomatch hx⟩
  | cons y ys ih =>
    intro s hl
    have := ih (f y s).2 (fun x hx => hl x (by simp [hx]))
    refine ⟨by simp [readInPlace, this.1], ?_⟩
    intro x hx
    rcases List.mem_cons.1 hx with rfl | hx
    · exact h y s (hl y (by simp))
    · exact this.2 x hx

theorem gives_push {α : Type} {f : α → Strm → α × Strm} {ok shape} (h : Gives f ok shape) {d : α}
    (hd : shape d) : ∀ (n : Nat) s,
      (readPush f d n s).1.length = n ∧ ∀ x ∈ (readPush f d n s).1, ok x := by
  intro n
  induction n with
  | zero => intro s; exact ⟨rfl, fun x hx => nomatch hx⟩
  | succ n ih =>
    intro s
    have := ih (f d s).2
    refine ⟨by simp [readPush, this.1], ?_⟩
    intro x hx
    rcases List.mem_cons.1 hx with rfl | hx
    · exact h d s hd
    · exact this.2 x hx

theorem gives_insert {α : Type} {f : α → Strm → α × Strm} {ok shape} (h : Gives f ok shape) {d : α}
    (hd : shape d) {lt : α → α → Bool} (junk : Bool)
    (htr : ∀ a b c, lt a b = true → lt b c = true → lt a c = true) :
    ∀ (n : Nat) acc s, acc.Pairwise (fun a b => lt a b = true) → (∀ x ∈ acc, ok x) →
      (readInsert f d lt junk n acc s).1.length ≤ acc.length + n ∧
      (readInsert f d lt junk n acc s).1.Pairwise (fun a b => lt a b = true) ∧
      ∀ x ∈ (readInsert f d lt junk n acc s).1, ok x := by
  intro n
  induction n with
  | zero => intro acc s h1 h2; exact ⟨Nat.le_refl _, h1, h2⟩
  | succ n ih =>
    intro acc s h1 h2
    have := ih (insertBy lt (f d s).1 acc)
      (if junk && !(f d s).2.good then { (f d s).2 with ub := true } else (f d s).2)
      (insertBy_sorted' htr h1) (by
        intro x hx
        rcases mem_insertBy hx with rfl | hx
        · exact h d s hd
        · exact h2 x hx)
    refine ⟨?_, this.2⟩
    have hl := length_insertBy lt (f d s).1 acc
    exact Nat.le_trans this.1 (by omega)

theorem ofLE_lt (bs : List UInt8) : ofLE bs < 256 ^ bs.length := by
  induction bs with
  | nil => simp [ofLE]
  | cons b bs ih =>
    have := b.toNat_lt
    simp only [ofLE, List.length_cons, Nat.pow_succ]
    omega

theorem readPrim_lt {n old : Nat} (s : Strm) (h : old < 256 ^ n) : (readPrim n old s).1 < 256 ^ n := by
  simp only [readPrim, readN]
  by_cases hg : s.good
  · by_cases hl : n ≤ s.rest.length
    · simp only [hg, hl, if_true]
      have := ofLE_lt (s.rest.take n)
      rwa [List.length_take, Nat.min_eq_left hl] at this
    · simpa only [hg, hl, if_true, if_false] using h
  · simpa [hg] using h

theorem readPrim_size_lt (n : Nat) (s : Strm) : (readPrim 4 (n % 2 ^ 32) s).1 < 2 ^ 32 := by
  have h := Nat.mod_lt n (show 0 < 2 ^ 32 by decide)
  have := readPrim_lt (n := 4) (old := n % 2 ^ 32) s (by omega)
  omega

theorem gives_seq {α : Type} {f : α → Strm → α × Strm} {ok shape} (h : Gives f ok shape) {d : α}
    (hd : shape d) : Gives (readSeq f d) (fun v => v.length < 2 ^ 32 ∧ ∀ x ∈ v, ok x)
      (fun v => ∀ x ∈ v, shape x) := by
  intro old s hs
  have hlt := readPrim_size_lt old.length s
  simp only [readSeq]
  generalize readPrim 4 (old.length % 2 ^ 32) s = sz at hlt ⊢
  have a := gives_inPlace h (old.take sz.1) sz.2 (fun x hx => hs x (List.mem_of_mem_take hx))
  have b := gives_push h hd (sz.1 - (old.take sz.1).length) (readInPlace f (old.take sz.1) sz.2).2
  refine ⟨?_, ?_⟩
  · rw [List.length_append, a.1, b.1]
    have : (old.take sz.1).length ≤ sz.1 := by simp; omega
    omega
  · intro x hx
    rcases List.mem_append.1 hx with hx | hx
    · exact a.2 x hx
    · exact b.2 x hx

theorem gives_assoc {α : Type} {f : α → Strm → α × Strm} {ok shape} (h : Gives f ok shape) {d : α}
    (hd : shape d) {lt : α → α → Bool} (junk : Bool)
    (htr : ∀ a b c, lt a b = true → lt b c = true → lt a c = true) :
    Gives (readAssoc f d lt junk)
      (fun m => m.length < 2 ^ 32 ∧ m.Pairwise (fun x y => lt x y = true) ∧ ∀ x ∈ m, ok x)
      (fun _ => True) := by
  intro old s _
  have hlt := readPrim_size_lt old.length s
  have := gives_insert h hd junk htr (readPrim 4 (old.length % 2 ^ 32) s).1 []
    (readPrim 4 (old.length % 2 ^ 32) s).2 .nil (fun x hx => nomatch hx)
  refine ⟨?_, this.2⟩
  have := this.1
  simp only [List.length_nil] at this
  simp only [readAssoc]
  omega

theorem gives_pair {α β : Type} {f : α → Strm → α × Strm} {g : β → Strm → β × Strm}
    {ok ok' shape shape'} (h : Gives f ok shape) (h' : Gives g ok' shape') :
    Gives (readPair f g) (fun v => ok v.1 ∧ ok' v.2) (fun v => shape v.1 ∧ shape' v.2) :=
  fun old s hs => ⟨h old.1 s hs.1, h' old.2 _ hs.2⟩

theorem gives_str : Gives readStr (fun v => v.length < 2 ^ 32) (fun _ => True) := by
  intro old s _
  have hlt := readPrim_size_lt old.length s
  have hc : Gives readChar (fun _ => True) (fun _ => True) := fun _ _ _ => trivial
  have := (gives_inPlace hc (old.take (readPrim 4 (old.length % 2 ^ 32) s).1 ++
    List.replicate ((readPrim 4 (old.length % 2 ^ 32) s).1 - old.length) 0)
    (readPrim 4 (old.length % 2 ^ 32) s).2 (fun _ _ => trivial)).1
  have e : (readStr old s).1.length = (old.take (readPrim 4 (old.length % 2 ^ 32) s).1 ++
    List.replicate ((readPrim 4 (old.length % 2 ^ 32) s).1 - old.length) 0).length := this
  rw [List.length_append, List.length_take, List.length_replicate] at e
  omega

theorem gives_read : ∀ t, Gives (read t) (WF t) (Shape t)
  | .prim _ _ => fun _ _ _ => trivial
  | .bool => fun _ _ _ => trivial
  | .str => gives_str
  | .arr n t => fun old s hs => by
    have := gives_inPlace (gives_read t) old s hs.2
    exact ⟨this.1.trans hs.1, this.2⟩
  | .vec t => gives_seq (gives_read t) (shape_dflt t)
  | .deque t => gives_seq (gives_read t) (shape_dflt t)
  | .list t => gives_seq (gives_read t) (shape_dflt t)
  | .pair a b => gives_pair (gives_read a) (gives_read b)
  | .map k v => gives_assoc (gives_pair (gives_read k) (gives_read v)) ⟨shape_dflt k, shape_dflt v⟩ false
      (fun a b c => (sto_vlt k).trans a.1 b.1 c.1)
  | .set t => gives_assoc (gives_read t) (shape_dflt t) _ (sto_vlt t).trans
  | .umap k v => gives_assoc (gives_pair (gives_read k) (gives_read v)) ⟨shape_dflt k, shape_dflt v⟩ false
      (fun a b c => (sto_vlt k).trans a.1 b.1 c.1)
  | .uset t => gives_assoc (gives_read t) (shape_dflt t) _ (sto_vlt t).trans

/-! ### Embedded streams -/

/-- Escaped data without the end marker. -/
def esc (data : List UInt8) : List UInt8 := data.flatMap (fun c => if c = 0xff then [0xff, 0xff] else [c])

theorem unescape_esc (data : List UInt8) : ∀ (fuel : Nat) (c0 c1 : UInt8) (out tail : List UInt8) (u : Bool),
    ∃ c0' c1', unescape (fuel + data.length) c0 c1 out ⟨esc data ++ tail, true, u⟩ =
      unescape fuel c0' c1' (out ++ data) ⟨tail, true, u⟩ := by
  induction data with
  | nil => intro fuel c0 c1 out tail u; exact ⟨c0, c1, by simp [esc]⟩
  | cons x xs ih =>
    intro fuel c0 c1 out tail u
    have hf : fuel + (x :: xs).length = (fuel + xs.length) + 1 := by simp; omega
    rw [hf]
    by_cases hx : x = 0xff
    · subst hx
      obtain ⟨a, b, e⟩ := ih fuel 0xff 0xff (out ++ [0xff]) tail u
      refine ⟨a, b, ?_⟩
      have : esc (0xff :: xs) ++ tail = 0xff :: 0xff :: (esc xs ++ tail) := by simp [esc]
      rw [this, unescape]
      simp only [readChar_cons, if_true]
      rw [if_neg (by decide), e, List.append_assoc, List.singleton_append]
    · obtain ⟨a, b, e⟩ := ih fuel x c1 (out ++ [x]) tail u
      refine ⟨a, b, ?_⟩
      have : esc (x :: xs) ++ tail = x :: (esc xs ++ tail) := by simp [esc, hx]
      rw [this, unescape]
      simp only [readChar_cons, hx, if_false]
      rw [e, List.append_assoc, List.singleton_append]

theorem unescape_fuel_mono : ∀ (fuel k : Nat) (c0 c1 : UInt8) (out : List UInt8) (s : Strm) r,
    unescape fuel c0 c1 out s = some r → unescape (fuel + k) c0 c1 out s = some r := by
  intro fuel
  induction fuel with
  | zero => intro k c0 c1 out s r h; cases h
  | succ n ih =>
    intro k c0 c1 out s r h
    rw [Nat.add_right_comm]
    simp only [unescape] at h ⊢
    split at h
    · rename_i h1
      rw [if_pos h1]
      split at h
      · rename_i h2; rw [if_pos h2]; exact h
      · rename_i h2; rw [if_neg h2]; exact ih _ _ _ _ _ _ h
    · rename_i h1
      rw [if_neg h1]; exact ih _ _ _ _ _ _ h

theorem readChar_bad (old : UInt8) {s : Strm} (h : s.good = false) : readChar old s = (old, s) := by
  simp [readChar, readPrim, readN_bad 1 h]

/-- On a failed stream the loop never ends unless its buffer holds the end
marker. -/
theorem unescape_bad : ∀ (fuel : Nat) (c0 c1 : UInt8) (out : List UInt8) (s : Strm), s.good = false →
    ¬ (c0 = 0xff ∧ c1 = 0) → unescape fuel c0 c1 out s = none := by
  intro fuel
  induction fuel with
  | zero => intros; rfl
  | succ n ih =>
    intro c0 c1 out s hs hc
    simp only [unescape, readChar_bad _ hs]
    by_cases h0 : c0 = 0xff
    · rw [if_pos h0, if_neg (fun h => hc ⟨h0, h⟩)]; exact ih _ _ _ _ hs hc
    · rw [if_neg h0]; exact ih _ _ _ _ hs hc

/-- Where the buffer stands after escaped data. -/
theorem unescape_esc' (data : List UInt8) : ∀ (fuel : Nat) (c0 c1 : UInt8) (out tail : List UInt8) (u : Bool),
    unescape (fuel + data.length) c0 c1 out ⟨esc data ++ tail, true, u⟩ =
      unescape fuel (data.getLast?.getD c0) (if 0xff ∈ data then 0xff else c1) (out ++ data)
        ⟨tail, true, u⟩ := by
  induction data with
  | nil => intro fuel c0 c1 out tail u; simp [esc]
  | cons x xs ih =>
    intro fuel c0 c1 out tail u
    have hf : fuel + (x :: xs).length = (fuel + xs.length) + 1 := by simp; omega
    have hl : ∀ d, ((x :: xs).getLast?).getD d = xs.getLast?.getD x := by
      intro d; cases xs with
      | nil => rfl
      | cons y ys => rw [List.getLast?_cons_cons]; cases h : (y :: ys).getLast? with
        | none => simp at h
        | some z => rfl
    rw [hf, hl]
    by_cases hx : x = 0xff
    · subst hx
      have : esc (0xff :: xs) ++ tail = 0xff :: 0xff :: (esc xs ++ tail) := by simp [esc]
      rw [this, unescape]
      simp only [readChar_cons, if_true]
      rw [if_neg (by decide), ih, List.append_assoc, List.singleton_append]
      simp
    · have : esc (x :: xs) ++ tail = x :: (esc xs ++ tail) := by simp [esc, hx]
      rw [this, unescape]
      simp only [readChar_cons, hx, if_false]
      rw [ih, List.append_assoc, List.singleton_append]
      have : (255 : UInt8) ∈ x :: xs ↔ (255 : UInt8) ∈ xs := by
        simp [Ne.symm hx]
      simp only [this]

theorem readChar_empty (old : UInt8) (u : Bool) :
    readChar old ⟨[], true, u⟩ = (old, ⟨[], false, u⟩) := by
  simp [readChar, readPrim, readN]

end Verif.Serial.Lemmas
