import Verif.Serial.Cost
import Verif.Serial.SpecCost
/-! Lemmas on the number of reads. -/
namespace Verif.Serial.LemmasCost
open Verif.Serial Verif.Serial.Spec

/-! ### A stream that has failed -/

theorem readPrim_bad (n old : Nat) {s : Strm} (h : s.good = false) : readPrim n old s = (old, s) := by
  simp [readPrim, readN, h]

/-- Reading from a failed stream leaves it where it is. -/
def Still {α : Type} (f : α → Strm → α × Strm) : Prop := ∀ x s, s.good = false → (f x s).2.good = false ∧ (f x s).2.rest = s.rest

theorem still_inPlace {α : Type} {f : α → Strm → α × Strm} (h : Still f) : Still (readInPlace f) := by
  intro l
  induction l with
  | nil => intro s hs; exact ⟨hs, rfl⟩
  | cons x xs ih =>
    intro s hs
    have h1 := h x s hs
    have h2 := ih (f x s).2 h1.1
    exact ⟨h2.1, h2.2.trans h1.2⟩

theorem still_push {α : Type} {f : α → Strm → α × Strm} (h : Still f) (d : α) (n : Nat) :
    ∀ s, s.good = false → (readPush f d n s).2.good = false ∧ (readPush f d n s).2.rest = s.rest := by
  induction n with
  | zero => intro s hs; exact ⟨hs, rfl⟩
  | succ n ih =>
    intro s hs
    have h1 := h d s hs
    have h2 := ih (f d s).2 h1.1
    exact ⟨h2.1, h2.2.trans h1.2⟩

/-- The stream after one turn of the loop of maps and sets. -/
def after {α : Type} (f : α → Strm → α × Strm) (d : α) (junk : Bool) (s : Strm) : Strm :=
  if junk && !(f d s).2.good then { (f d s).2 with ub := true } else (f d s).2

theorem after_good {α : Type} (f : α → Strm → α × Strm) (d : α) (junk : Bool) (s : Strm) :
    (after f d junk s).good = (f d s).2.good ∧ (after f d junk s).rest = (f d s).2.rest := by
  unfold after
  split <;> exact ⟨rfl, rfl⟩

theorem still_insert {α : Type} {f : α → Strm → α × Strm} (h : Still f) (d : α) (lt : α → α → Bool) (junk : Bool) (n : Nat) :
    ∀ acc s, s.good = false → (readInsert f d lt junk n acc s).2.good = false ∧ (readInsert f d lt junk n acc s).2.rest = s.rest := by
  induction n with
  | zero => intro acc s hs; exact ⟨hs, rfl⟩
  | succ n ih =>
    intro acc s hs
    have h1 := h d s hs
    have h2 := after_good f d junk s
    have h3 := ih (insertBy lt (f d s).1 acc) (after f d junk s) (h2.1.trans h1.1)
    exact ⟨h3.1, h3.2.trans (h2.2.trans h1.2)⟩

theorem still_seq {α : Type} {f : α → Strm → α × Strm} (h : Still f) (d : α) : Still (readSeq f d) := by
  intro old s hs
  simp only [readSeq, readPrim_bad 4 _ hs]
  have h1 := still_inPlace h (old.take (old.length % 2 ^ 32)) s hs
  have h2 := still_push h d (old.length % 2 ^ 32 - (old.take (old.length % 2 ^ 32)).length) _ h1.1
  exact ⟨h2.1, h2.2.trans h1.2⟩

theorem still_assoc {α : Type} {f : α → Strm → α × Strm} (h : Still f) (d : α) (lt : α → α → Bool) (junk : Bool) :
    Still (readAssoc f d lt junk) := by
  intro old s hs
  simp only [readAssoc, readPrim_bad 4 _ hs]
  exact still_insert h d lt junk _ _ s hs

theorem still_pair {α β : Type} {f : α → Strm → α × Strm} {g : β → Strm → β × Strm} (h : Still f) (h' : Still g) :
    Still (readPair f g) := by
  intro old s hs
  have h1 := h old.1 s hs
  have h2 := h' old.2 (f old.1 s).2 h1.1
  exact ⟨h2.1, h2.2.trans h1.2⟩

theorem readStr_eq (old : List UInt8) (s : Strm) : readStr old s =
    readInPlace readChar (old.take (readPrim 4 (old.length % 2 ^ 32) s).1 ++ List.replicate ((readPrim 4 (old.length % 2 ^ 32) s).1 - old.length) 0)
      (readPrim 4 (old.length % 2 ^ 32) s).2 := rfl

theorem still_char : Still readChar := by
  intro c s hs
  simp only [readChar, readPrim_bad 1 _ hs]
  exact ⟨hs, trivial⟩

theorem still_read : (t : Ty) → Still (read t)
  | .prim n _ => by
    intro x s hs
    simp only [read, readPrim_bad n _ hs]
    exact ⟨hs, trivial⟩
  | .bool => by
    intro x s hs
    have : readN 1 s = (none, s) := by simp [readN, hs]
    simp only [read, readBool, this]
    exact ⟨hs, trivial⟩
  | .str => by
    intro x s hs
    simp only [read, readStr_eq, readPrim_bad 4 _ hs]
    exact still_inPlace still_char _ s hs
  | .arr _ t => still_inPlace (still_read t)
  | .vec t => still_seq (still_read t) _
  | .deque t => still_seq (still_read t) _
  | .list t => still_seq (still_read t) _
  | .pair a b => still_pair (still_read a) (still_read b)
  | .map k v => still_assoc (still_pair (still_read k) (still_read v)) _ _ _
  | .set t => still_assoc (still_read t) _ _ _
  | .umap k v => still_assoc (still_pair (still_read k) (still_read v)) _ _ _
  | .uset t => still_assoc (still_read t) _ _ _

/-! ### As long as it is good -/

/-- While the archive is good, there are at most as many reads as bytes taken. -/
def Paid {α : Type} (f : α → Strm → α × Strm) (g : α → Strm → Nat) : Prop :=
  ∀ x s, (f x s).2.good = true → g x s + (f x s).2.rest.length ≤ s.rest.length

theorem Still.good {α : Type} {f : α → Strm → α × Strm} (h : Still f) {x s} (hg : (f x s).2.good = true) : s.good = true := by
  cases hs : s.good with
  | true => rfl
  | false => rw [(h x s hs).1] at hg; cases hg

theorem readPrim_paid (n old : Nat) (s : Strm) (hg : (readPrim n old s).2.good = true) : n + (readPrim n old s).2.rest.length = s.rest.length := by
  unfold readPrim readN at hg ⊢
  by_cases h1 : s.good = true
  · by_cases h2 : n ≤ s.rest.length
    · simp only [h1, h2, if_true] at hg ⊢
      simp [List.length_drop]
      omega
    · simp [h1, h2] at hg
  · simp [h1] at hg

theorem paid_inPlace {α : Type} {f : α → Strm → α × Strm} {g : α → Strm → Nat} (hs : Still f) (h : Paid f g) :
    Paid (readInPlace f) (costInPlace f g) := by
  intro l
  induction l with
  | nil => intro s _; exact Nat.le_of_eq (Nat.zero_add _)
  | cons x xs ih =>
    intro s hg
    have h1 := ih (f x s).2 hg
    have h2 := h x s ((still_inPlace hs).good (x := xs) hg)
    simp only [costInPlace, readInPlace] at h1 ⊢
    omega

theorem paid_push {α : Type} {f : α → Strm → α × Strm} {g : α → Strm → Nat} (hs : Still f) (h : Paid f g) (d : α) (n : Nat) :
    ∀ s, (readPush f d n s).2.good = true → costPush f g d n s + (readPush f d n s).2.rest.length ≤ s.rest.length := by
  induction n with
  | zero => intro s _; exact Nat.le_of_eq (Nat.zero_add _)
  | succ n ih =>
    intro s hg
    have h1 := ih (f d s).2 hg
    have h2 := h d s (by
      cases hb : (f d s).2.good with
      | true => rfl
      | false =>
        have := (still_push hs d n _ hb).1
        exact absurd (hg.symm.trans this) (by decide))
    simp only [costPush, readPush] at h1 ⊢
    omega

theorem paid_insert {α : Type} {f : α → Strm → α × Strm} {g : α → Strm → Nat} (hs : Still f) (h : Paid f g) (d : α) (lt : α → α → Bool)
    (junk : Bool) (n : Nat) :
    ∀ acc s, (readInsert f d lt junk n acc s).2.good = true →
      costInsert f g d junk n s + (readInsert f d lt junk n acc s).2.rest.length ≤ s.rest.length := by
  induction n with
  | zero => intro acc s _; exact Nat.le_of_eq (Nat.zero_add _)
  | succ n ih =>
    intro acc s hg
    have ha := after_good f d junk s
    have hg' : (readInsert f d lt junk n (insertBy lt (f d s).1 acc) (after f d junk s)).2.good = true := hg
    have h1 := ih (insertBy lt (f d s).1 acc) (after f d junk s) hg'
    have h2 := h d s (by
      cases hb : (f d s).2.good with
      | true => rfl
      | false =>
        have := (still_insert hs d lt junk n (insertBy lt (f d s).1 acc) (after f d junk s) (ha.1.trans hb)).1
        exact absurd (hg'.symm.trans this) (by decide))
    rw [ha.2] at h1
    show g d s + costInsert f g d junk n (after f d junk s) + (readInsert f d lt junk n (insertBy lt (f d s).1 acc) (after f d junk s)).2.rest.length ≤ _
    omega

theorem paid_seq {α : Type} {f : α → Strm → α × Strm} {g : α → Strm → Nat} (hs : Still f) (h : Paid f g) (d : α) :
    Paid (readSeq f d) (costSeq f g d) := by
  intro old s hg
  simp only [readSeq, costSeq] at hg ⊢
  generalize hz : readPrim 4 (old.length % 2 ^ 32) s = z at hg ⊢
  have h3 := paid_push hs h d (z.1 - (old.take z.1).length) (readInPlace f (old.take z.1) z.2).2 hg
  have g2 : (readInPlace f (old.take z.1) z.2).2.good = true := by
    cases hb : (readInPlace f (old.take z.1) z.2).2.good with
    | true => rfl
    | false => exact absurd (hg.symm.trans (still_push hs d _ _ hb).1) (by decide)
  have h2 := paid_inPlace hs h _ _ g2
  have g1 := (still_inPlace hs).good g2
  have h1 := readPrim_paid 4 (old.length % 2 ^ 32) s (by rw [hz]; exact g1)
  rw [hz] at h1
  omega

theorem paid_assoc {α : Type} {f : α → Strm → α × Strm} {g : α → Strm → Nat} (hs : Still f) (h : Paid f g) (d : α) (lt : α → α → Bool)
    (junk : Bool) : Paid (readAssoc f d lt junk) (costAssoc f g d junk) := by
  intro old s hg
  simp only [readAssoc, costAssoc] at hg ⊢
  generalize hz : readPrim 4 (old.length % 2 ^ 32) s = z at hg ⊢
  have h2 := paid_insert hs h d lt junk z.1 [] z.2 hg
  have g1 : z.2.good = true := by
    cases hb : z.2.good with
    | true => rfl
    | false => exact absurd (hg.symm.trans (still_insert hs d lt junk _ _ _ hb).1) (by decide)
  have h1 := readPrim_paid 4 (old.length % 2 ^ 32) s (by rw [hz]; exact g1)
  rw [hz] at h1
  omega

theorem paid_pair {α β : Type} {f : α → Strm → α × Strm} {g : α → Strm → Nat} {f' : β → Strm → β × Strm} {g' : β → Strm → Nat}
    (h : Paid f g) (hs' : Still f') (h' : Paid f' g') : Paid (readPair f f') (costPair f g g') := by
  intro old s hg
  have h2 := h' old.2 (f old.1 s).2 hg
  have h1 := h old.1 s (hs'.good (x := old.2) hg)
  simp only [costPair, readPair] at h1 h2 ⊢
  omega

theorem paid_char : Paid readChar (fun _ _ => 1) := by
  intro c s hg
  have := readPrim_paid 1 c.toNat s hg
  exact Nat.le_of_eq this

theorem costInPlace_one {α : Type} (f : α → Strm → α × Strm) (l : List α) : ∀ s, costInPlace f (fun _ _ => 1) l s = l.length := by
  induction l with
  | nil => intro s; rfl
  | cons x xs ih => intro s; simp only [costInPlace, ih, List.length_cons]; omega

theorem resized_length (old : List UInt8) (n : Nat) : (old.take n ++ List.replicate (n - old.length) 0).length = n := by
  simp
  omega

theorem paid_read : (t : Ty) → Real t → Paid (read t) (cost t)
  | .prim n _, hr => by
    intro x s hg
    have := readPrim_paid n x.toNat s hg
    have hr : 0 < n := hr
    show 1 + _ ≤ _
    simp only [read]
    omega
  | .bool, _ => by
    intro x s hg
    simp only [read, readBool, readN, cost] at hg ⊢
    by_cases h1 : s.good = true
    · by_cases h2 : 1 ≤ s.rest.length
      · simp only [h1, h2, if_true] at hg ⊢
        split <;> simp <;> omega
      · simp [h1, h2] at hg
    · simp [h1] at hg
  | .str, _ => by
    intro x s hg
    simp only [read, readStr_eq, cost, costStr] at hg ⊢
    generalize hz : readPrim 4 (x.length % 2 ^ 32) s = z at hg ⊢
    have h2 := paid_inPlace still_char paid_char _ _ hg
    rw [costInPlace_one, resized_length] at h2
    have g1 := (still_inPlace still_char).good hg
    have h1 := readPrim_paid 4 (x.length % 2 ^ 32) s (by rw [hz]; exact g1)
    rw [hz] at h1
    omega
  | .arr _ t, hr => paid_inPlace (still_read t) (paid_read t hr)
  | .vec t, hr => paid_seq (still_read t) (paid_read t hr) _
  | .deque t, hr => paid_seq (still_read t) (paid_read t hr) _
  | .list t, hr => paid_seq (still_read t) (paid_read t hr) _
  | .pair a b, hr => paid_pair (paid_read a hr.1) (still_read b) (paid_read b hr.2)
  | .map k v, hr => paid_assoc (still_pair (still_read k) (still_read v)) (paid_pair (paid_read k hr.1) (still_read v) (paid_read v hr.2)) _ _ _
  | .set t, hr => paid_assoc (still_read t) (paid_read t hr) _ _ _
  | .umap k v, hr => paid_assoc (still_pair (still_read k) (still_read v)) (paid_pair (paid_read k hr.1) (still_read v) (paid_read v hr.2)) _ _ _
  | .uset t, hr => paid_assoc (still_read t) (paid_read t hr) _ _ _

/-! ### Whatever the bytes -/

/-- Reading `d` costs `c` on a failed stream, and at most `B` more than the bytes taken on any. -/
structure Lim {α : Type} (f : α → Strm → α × Strm) (g : α → Strm → Nat) (d : α) (c B : Nat) : Prop where
  bad : ∀ s, s.good = false → g d s = c
  any : ∀ s, g d s + (f d s).2.rest.length ≤ s.rest.length + B

theorem readPrim_len (n old : Nat) (s : Strm) : (readPrim n old s).2.rest.length ≤ s.rest.length := by
  unfold readPrim readN
  by_cases h1 : s.good = true
  · by_cases h2 : n ≤ s.rest.length
    · simp [h1, h2]
    · simp [h1, h2]
  · simp [h1]

theorem bad_costInPlace {α : Type} {f : α → Strm → α × Strm} {g : α → Strm → Nat} {d : α} {c B : Nat} (hs : Still f) (h : Lim f g d c B)
    (n : Nat) : ∀ s, s.good = false → costInPlace f g (List.replicate n d) s = n * c := by
  induction n with
  | zero => intro s _; simp [costInPlace]
  | succ n ih =>
    intro s hb
    rw [List.replicate_succ, costInPlace, h.bad s hb, ih _ (hs d s hb).1, Nat.succ_mul, Nat.add_comm]

theorem bad_costPush {α : Type} {f : α → Strm → α × Strm} {g : α → Strm → Nat} {d : α} {c B : Nat} (hs : Still f) (h : Lim f g d c B)
    (n : Nat) : ∀ s, s.good = false → costPush f g d n s = n * c := by
  induction n with
  | zero => intro s _; simp [costPush]
  | succ n ih =>
    intro s hb
    rw [costPush, h.bad s hb, ih _ (hs d s hb).1, Nat.succ_mul, Nat.add_comm]

theorem bad_costInsert {α : Type} {f : α → Strm → α × Strm} {g : α → Strm → Nat} {d : α} {c B : Nat} (hs : Still f) (h : Lim f g d c B)
    (junk : Bool) (n : Nat) : ∀ s, s.good = false → costInsert f g d junk n s = n * c := by
  induction n with
  | zero => intro s _; simp [costInsert]
  | succ n ih =>
    intro s hb
    have ha := after_good f d junk s
    show g d s + costInsert f g d junk n (after f d junk s) = _
    rw [h.bad s hb, ih _ (ha.1.trans (hs d s hb).1), Nat.succ_mul, Nat.add_comm]

theorem lim_inPlace {α : Type} {f : α → Strm → α × Strm} {g : α → Strm → Nat} {d : α} {c B : Nat} (hs : Still f) (hp : Paid f g)
    (h : Lim f g d c B) (n : Nat) : ∀ s, costInPlace f g (List.replicate n d) s + (readInPlace f (List.replicate n d) s).2.rest.length ≤
      s.rest.length + (B + n * c) := by
  induction n with
  | zero => intro s; simp [costInPlace, readInPlace]
  | succ n ih =>
    intro s
    have h3 : (n + 1) * c = n * c + c := Nat.succ_mul n c
    rw [List.replicate_succ]
    show g d s + costInPlace f g (List.replicate n d) (f d s).2 + (readInPlace f (List.replicate n d) (f d s).2).2.rest.length ≤ _
    cases hg : (f d s).2.good with
    | true =>
      have h1 := hp d s hg
      have h2 := ih (f d s).2
      omega
    | false =>
      have h1 := h.any s
      have h2 := bad_costInPlace hs h n _ hg
      have h4 := (still_inPlace hs (List.replicate n d) _ hg).2
      rw [h2, h4]
      omega

theorem lim_push {α : Type} {f : α → Strm → α × Strm} {g : α → Strm → Nat} {d : α} {c B : Nat} (hs : Still f) (hp : Paid f g)
    (h : Lim f g d c B) (n : Nat) : ∀ s, costPush f g d n s + (readPush f d n s).2.rest.length ≤ s.rest.length + (B + n * c) := by
  induction n with
  | zero => intro s; simp [costPush, readPush]
  | succ n ih =>
    intro s
    have h3 : (n + 1) * c = n * c + c := Nat.succ_mul n c
    show g d s + costPush f g d n (f d s).2 + (readPush f d n (f d s).2).2.rest.length ≤ _
    cases hg : (f d s).2.good with
    | true =>
      have h1 := hp d s hg
      have h2 := ih (f d s).2
      omega
    | false =>
      have h1 := h.any s
      have h2 := bad_costPush hs h n _ hg
      have h4 := (still_push hs d n _ hg).2
      rw [h2, h4]
      omega

theorem lim_insert {α : Type} {f : α → Strm → α × Strm} {g : α → Strm → Nat} {d : α} {c B : Nat} (hs : Still f) (hp : Paid f g)
    (h : Lim f g d c B) (lt : α → α → Bool) (junk : Bool) (n : Nat) : ∀ acc s,
      costInsert f g d junk n s + (readInsert f d lt junk n acc s).2.rest.length ≤ s.rest.length + (B + n * c) := by
  induction n with
  | zero => intro acc s; simp [costInsert, readInsert]
  | succ n ih =>
    intro acc s
    have h3 : (n + 1) * c = n * c + c := Nat.succ_mul n c
    have ha := after_good f d junk s
    show g d s + costInsert f g d junk n (after f d junk s) + (readInsert f d lt junk n (insertBy lt (f d s).1 acc) (after f d junk s)).2.rest.length ≤ _
    cases hg : (f d s).2.good with
    | true =>
      have h1 := hp d s hg
      have h2 := ih (insertBy lt (f d s).1 acc) (after f d junk s)
      rw [ha.2] at h2
      omega
    | false =>
      have h1 := h.any s
      have h2 := bad_costInsert hs h junk n _ (ha.1.trans hg)
      have h4 := (still_insert hs d lt junk n (insertBy lt (f d s).1 acc) _ (ha.1.trans hg)).2
      rw [h2, h4, ha.2]
      omega

theorem readPrim_lt (s : Strm) : (readPrim 4 0 s).1 < 2 ^ 32 := by
  have key : ∀ bs : List UInt8, ofLE bs < 256 ^ bs.length := by
    intro bs
    induction bs with
    | nil => simp [ofLE]
    | cons b bs ih =>
      have := b.toNat_lt
      rw [ofLE, List.length_cons, Nat.pow_succ]
      omega
  unfold readPrim readN
  by_cases h1 : s.good = true
  · by_cases h2 : 4 ≤ s.rest.length
    · simp only [h1, h2, if_true]
      have := key (s.rest.take 4)
      rw [List.length_take, Nat.min_eq_left h2] at this
      exact this
    · simp [h1, h2]
  · simp [h1]

/-- Reading the size of a new container: a failure leaves it 0. -/
theorem size_cases (s : Strm) : ((readPrim 4 0 s).2.good = true ∧ 4 + (readPrim 4 0 s).2.rest.length = s.rest.length) ∨
    ((readPrim 4 0 s).1 = 0 ∧ (readPrim 4 0 s).2.rest.length ≤ s.rest.length) := by
  cases hg : (readPrim 4 0 s).2.good with
  | true => exact .inl ⟨rfl, readPrim_paid 4 0 s hg⟩
  | false =>
    refine .inr ⟨?_, readPrim_len 4 0 s⟩
    unfold readPrim readN at hg ⊢
    by_cases h1 : s.good = true
    · by_cases h2 : 4 ≤ s.rest.length
      · simp [h1, h2] at hg
      · simp [h1, h2]
    · simp [h1]

theorem lim_seq {α : Type} {f : α → Strm → α × Strm} {g : α → Strm → Nat} {d : α} {c B : Nat} (hs : Still f) (hp : Paid f g)
    (h : Lim f g d c B) (hB : 1 ≤ B) : Lim (readSeq f d) (costSeq f g d) [] 1 (B + (2 ^ 32 - 1) * c) := by
  constructor
  · intro s hb
    simp only [costSeq]
    have : readPrim 4 (([] : List α).length % 2 ^ 32) s = (0, s) := readPrim_bad 4 _ hb
    rw [this]
    simp [costInPlace, costPush]
  · intro s
    simp only [costSeq, readSeq, List.take_nil, costInPlace, readInPlace, List.length_nil, Nat.zero_mod, Nat.sub_zero, Nat.add_zero]
    have hlt := readPrim_lt s
    have h2 := lim_push hs hp h (readPrim 4 0 s).1 (readPrim 4 0 s).2
    rcases size_cases s with ⟨_, h1⟩ | ⟨h0, h1⟩
    · have h3 : (readPrim 4 0 s).1 * c ≤ (2 ^ 32 - 1) * c := Nat.mul_le_mul_right c (by omega)
      omega
    · rw [h0]
      simp only [costPush, readPush]
      omega

theorem lim_assoc {α : Type} {f : α → Strm → α × Strm} {g : α → Strm → Nat} {d : α} {c B : Nat} (hs : Still f) (hp : Paid f g)
    (h : Lim f g d c B) (lt : α → α → Bool) (junk : Bool) (hB : 1 ≤ B) :
    Lim (readAssoc f d lt junk) (costAssoc f g d junk) [] 1 (B + (2 ^ 32 - 1) * c) := by
  constructor
  · intro s hb
    simp only [costAssoc]
    have : readPrim 4 (([] : List α).length % 2 ^ 32) s = (0, s) := readPrim_bad 4 _ hb
    rw [this]
    simp [costInsert]
  · intro s
    have e : ([] : List α).length % 2 ^ 32 = 0 := rfl
    simp only [costAssoc, readAssoc, e]
    have hlt := readPrim_lt s
    have h2 := lim_insert hs hp h lt junk (readPrim 4 0 s).1 [] (readPrim 4 0 s).2
    rcases size_cases s with ⟨_, h1⟩ | ⟨h0, h1⟩
    · have h3 : (readPrim 4 0 s).1 * c ≤ (2 ^ 32 - 1) * c := Nat.mul_le_mul_right c (by omega)
      omega
    · rw [h0]
      simp only [costInsert, readInsert]
      omega

theorem lim_pair {α β : Type} {f : α → Strm → α × Strm} {g : α → Strm → Nat} {f' : β → Strm → β × Strm} {g' : β → Strm → Nat} {d : α}
    {d' : β} {c B c' B' : Nat} (hs : Still f) (hp : Paid f g) (h : Lim f g d c B) (hs' : Still f') (h' : Lim f' g' d' c' B') :
    Lim (readPair f f') (costPair f g g') (d, d') (c + c') (B + c' + B') := by
  constructor
  · intro s hb
    simp only [costPair, h.bad s hb, h'.bad _ (hs d s hb).1]
  · intro s
    simp only [costPair, readPair]
    cases hg : (f d s).2.good with
    | true =>
      have h1 := hp d s hg
      have h2 := h'.any (f d s).2
      omega
    | false =>
      have h1 := h.any s
      rw [h'.bad _ hg, (hs' d' _ hg).2]
      omega

theorem excess_pos : (t : Ty) → 1 ≤ excess t
  | .prim _ _ => Nat.le_refl _
  | .bool => Nat.le_refl _
  | .str => by simp [excess]
  | .arr _ t => Nat.le_trans (excess_pos t) (Nat.le_add_right _ _)
  | .vec t => Nat.le_trans (excess_pos t) (Nat.le_add_right _ _)
  | .deque t => Nat.le_trans (excess_pos t) (Nat.le_add_right _ _)
  | .list t => Nat.le_trans (excess_pos t) (Nat.le_add_right _ _)
  | .pair a b => by have := excess_pos b; simp only [excess]; omega
  | .map k v => by have := excess_pos v; simp only [excess]; omega
  | .set t => Nat.le_trans (excess_pos t) (Nat.le_add_right _ _)
  | .umap k v => by have := excess_pos v; simp only [excess]; omega
  | .uset t => Nat.le_trans (excess_pos t) (Nat.le_add_right _ _)

theorem readBool_len (s : Strm) : (readBool false s).2.rest.length ≤ s.rest.length := by
  unfold readBool readN
  by_cases h1 : s.good = true
  · by_cases h2 : 1 ≤ s.rest.length
    · simp only [h1, h2, if_true]
      split <;> simp
    · simp [h1, h2]
  · simp [h1]

theorem lim_char : Lim readChar (fun _ _ => 1) 0 1 1 := by
  constructor
  · intro s _; rfl
  · intro s
    have := readPrim_len 1 (0 : UInt8).toNat s
    simp only [readChar]
    omega

theorem lim_read : (t : Ty) → Real t → Lim (read t) (cost t) (dflt t) (fields t) (excess t)
  | .prim n _, _ => by
    constructor
    · intro s _; rfl
    · intro s
      have := readPrim_len n (0 : BitVec (8 * n)).toNat s
      simp only [read, cost, dflt, excess]
      omega
  | .bool, _ => by
    constructor
    · intro s _; rfl
    · intro s
      have := readBool_len s
      simp only [read, cost, dflt, excess]
      omega
  | .str, _ => by
    constructor
    · intro s hb
      simp only [cost, costStr, dflt, List.length_nil, Nat.zero_mod, readPrim_bad 4 0 hb, fields]
    · intro s
      simp only [read, readStr_eq, cost, costStr, dflt, List.length_nil, Nat.zero_mod, excess, List.take_nil, List.nil_append, Nat.sub_zero]
      have hlt := readPrim_lt s
      have h2 := lim_inPlace still_char paid_char lim_char (readPrim 4 0 s).1 (readPrim 4 0 s).2
      rw [costInPlace_one, List.length_replicate] at h2
      rcases size_cases s with ⟨_, h1⟩ | ⟨h0, h1⟩
      · omega
      · rw [h0]
        simp only [List.replicate_zero, readInPlace]
        omega
  | .arr n t, hr => by
    constructor
    · intro s hb
      exact bad_costInPlace (still_read t) (lim_read t hr) n s hb
    · intro s
      exact lim_inPlace (still_read t) (paid_read t hr) (lim_read t hr) n s
  | .vec t, hr => lim_seq (still_read t) (paid_read t hr) (lim_read t hr) (excess_pos t)
  | .deque t, hr => lim_seq (still_read t) (paid_read t hr) (lim_read t hr) (excess_pos t)
  | .list t, hr => lim_seq (still_read t) (paid_read t hr) (lim_read t hr) (excess_pos t)
  | .pair a b, hr => lim_pair (still_read a) (paid_read a hr.1) (lim_read a hr.1) (still_read b) (lim_read b hr.2)
  | .map k v, hr => lim_assoc (still_pair (still_read k) (still_read v)) (paid_pair (paid_read k hr.1) (still_read v) (paid_read v hr.2))
      (lim_pair (still_read k) (paid_read k hr.1) (lim_read k hr.1) (still_read v) (lim_read v hr.2)) _ _
      (by have := excess_pos v; omega)
  | .set t, hr => lim_assoc (still_read t) (paid_read t hr) (lim_read t hr) _ _ (excess_pos t)
  | .umap k v, hr => lim_assoc (still_pair (still_read k) (still_read v)) (paid_pair (paid_read k hr.1) (still_read v) (paid_read v hr.2))
      (lim_pair (still_read k) (paid_read k hr.1) (lim_read k hr.1) (still_read v) (lim_read v hr.2)) _ _
      (by have := excess_pos v; omega)
  | .uset t, hr => lim_assoc (still_read t) (paid_read t hr) (lim_read t hr) _ _ (excess_pos t)

/-! ### Nothing left -/

/-- Where nothing is left, reading a new object costs `c` and does not change it. -/
def Hollow {α : Type} (f : α → Strm → α × Strm) (g : α → Strm → Nat) (d : α) (c : Nat) : Prop :=
  ∀ s, s.rest = [] → g d s = c ∧ (f d s).1 = d ∧ (f d s).2.rest = []

theorem readPrim_hollow {n : Nat} (hn : 0 < n) (old : Nat) {s : Strm} (h : s.rest = []) :
    (readPrim n old s).1 = old ∧ (readPrim n old s).2.rest = [] := by
  unfold readPrim readN
  by_cases h1 : s.good = true
  · have h2 : ¬ n ≤ s.rest.length := by rw [h]; simp; omega
    simp [h1, h2]
  · simp [h1, h]

theorem hollow_inPlace {α : Type} {f : α → Strm → α × Strm} {g : α → Strm → Nat} {d : α} {c : Nat} (h : Hollow f g d c) (n : Nat) :
    Hollow (readInPlace f) (costInPlace f g) (List.replicate n d) (n * c) := by
  induction n with
  | zero => intro s hs; exact ⟨(Nat.zero_mul _).symm, rfl, hs⟩
  | succ n ih =>
    intro s hs
    obtain ⟨h1, h2, h3⟩ := h s hs
    obtain ⟨k1, k2, k3⟩ := ih (f d s).2 h3
    rw [List.replicate_succ]
    refine ⟨?_, ?_, k3⟩
    · rw [costInPlace, h1, k1, Nat.succ_mul, Nat.add_comm]
    · rw [readInPlace]
      dsimp only
      rw [h2, k2]

theorem hollow_push {α : Type} {f : α → Strm → α × Strm} {g : α → Strm → Nat} {d : α} {c : Nat} (h : Hollow f g d c) (n : Nat) :
    ∀ s, s.rest = [] → costPush f g d n s = n * c ∧ (readPush f d n s).1 = List.replicate n d ∧ (readPush f d n s).2.rest = [] := by
  induction n with
  | zero => intro s hs; exact ⟨(Nat.zero_mul _).symm, rfl, hs⟩
  | succ n ih =>
    intro s hs
    obtain ⟨h1, h2, h3⟩ := h s hs
    obtain ⟨k1, k2, k3⟩ := ih (f d s).2 h3
    refine ⟨?_, ?_, k3⟩
    · rw [costPush, h1, k1, Nat.succ_mul, Nat.add_comm]
    · rw [readPush, List.replicate_succ]
      dsimp only
      rw [h2, k2]

theorem hollow_insert {α : Type} {f : α → Strm → α × Strm} {g : α → Strm → Nat} {d : α} {c : Nat} (h : Hollow f g d c) (junk : Bool) (n : Nat) :
    ∀ s, s.rest = [] → costInsert f g d junk n s = n * c := by
  induction n with
  | zero => intro s _; exact (Nat.zero_mul _).symm
  | succ n ih =>
    intro s hs
    obtain ⟨h1, h2, h3⟩ := h s hs
    have ha := after_good f d junk s
    show g d s + costInsert f g d junk n (after f d junk s) = _
    rw [h1, ih _ (ha.2.trans h3), Nat.succ_mul, Nat.add_comm]

theorem hollow_seq {α : Type} (f : α → Strm → α × Strm) (g : α → Strm → Nat) (d : α) : Hollow (readSeq f d) (costSeq f g d) [] 1 := by
  intro s hs
  obtain ⟨h1, h2⟩ := readPrim_hollow (n := 4) (by decide) 0 hs
  simp only [costSeq, readSeq, List.length_nil, Nat.zero_mod, h1]
  simp [costInPlace, costPush, readInPlace, readPush, h2]

theorem hollow_assoc {α : Type} (f : α → Strm → α × Strm) (g : α → Strm → Nat) (d : α) (lt : α → α → Bool) (junk : Bool) :
    Hollow (readAssoc f d lt junk) (costAssoc f g d junk) [] 1 := by
  intro s hs
  obtain ⟨h1, h2⟩ := readPrim_hollow (n := 4) (by decide) 0 hs
  simp only [costAssoc, readAssoc, List.length_nil, Nat.zero_mod, h1]
  simp [costInsert, readInsert, h2]

theorem hollow_pair {α β : Type} {f : α → Strm → α × Strm} {g : α → Strm → Nat} {f' : β → Strm → β × Strm} {g' : β → Strm → Nat} {d : α}
    {d' : β} {c c' : Nat} (h : Hollow f g d c) (h' : Hollow f' g' d' c') : Hollow (readPair f f') (costPair f g g') (d, d') (c + c') := by
  intro s hs
  obtain ⟨h1, h2, h3⟩ := h s hs
  obtain ⟨k1, k2, k3⟩ := h' (f d s).2 h3
  exact ⟨by simp only [costPair, h1, k1], by simp only [readPair, h2, k2], k3⟩

theorem hollow_char : Hollow readChar (fun _ _ => 1) 0 1 := by
  intro s hs
  obtain ⟨h1, h2⟩ := readPrim_hollow (n := 1) (by decide) (0 : UInt8).toNat hs
  refine ⟨rfl, ?_, h2⟩
  simp only [readChar, h1]
  rfl

theorem hollow_read : (t : Ty) → Real t → Hollow (read t) (cost t) (dflt t) (fields t)
  | .prim n _, hr => by
    intro s hs
    obtain ⟨h1, h2⟩ := readPrim_hollow (n := n) hr (0 : BitVec (8 * n)).toNat hs
    refine ⟨rfl, ?_, h2⟩
    simp only [read, dflt, h1]
    simp
  | .bool, _ => by
    intro s hs
    simp only [read, readBool, readN, cost, dflt, fields]
    by_cases h1 : s.good = true <;> simp [h1, hs]
  | .str, _ => by
    intro s hs
    obtain ⟨h1, h2⟩ := readPrim_hollow (n := 4) (by decide) 0 hs
    simp only [read, readStr_eq, cost, costStr, dflt, fields, List.length_nil, Nat.zero_mod, h1]
    exact ⟨trivial, rfl, h2⟩
  | .arr n t, hr => hollow_inPlace (hollow_read t hr) n
  | .vec _, _ => hollow_seq _ _ _
  | .deque _, _ => hollow_seq _ _ _
  | .list _, _ => hollow_seq _ _ _
  | .pair a b, hr => hollow_pair (hollow_read a hr.1) (hollow_read b hr.2)
  | .map _ _, _ => hollow_assoc _ _ _ _ _
  | .set _, _ => hollow_assoc _ _ _ _ _
  | .umap _ _, _ => hollow_assoc _ _ _ _ _
  | .uset _, _ => hollow_assoc _ _ _ _ _

end Verif.Serial.LemmasCost
