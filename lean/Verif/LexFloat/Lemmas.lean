import Verif.LexFloat.Spec
import Verif.FloatText.LemmasText
import Verif.Lexical.Lemmas
/-! Lemmas about reading floating point numbers from a stream. -/
namespace Verif.LexFloat.Lemmas
open Verif.Double Verif.FloatText Verif.FloatText.Lemmas Verif.Lexical Verif.Json.Spec Verif.LexFloat Verif.LexFloat.Spec

theorem not_dig {c : Nat} (h : ¬ Digit c) : isDig c = false := by
  rw [← Bool.not_eq_true, isDig_iff]
  exact h

/-- A character in front is no digit. -/
abbrev NoDigit (X : List Nat) : Prop := ∀ c, X.head? = some c → ¬ Digit c

theorem split_dig (s : List Nat) : ∃ ip X, s = ip ++ X ∧ (∀ c ∈ ip, Digit c) ∧ NoDigit X ∧ s.takeWhile isDig = ip ∧ s.dropWhile isDig = X := by
  induction s with
  | nil => exact ⟨[], [], rfl, by simp, by simp [NoDigit], rfl, rfl⟩
  | cons c s ih =>
    by_cases hc : Digit c
    · obtain ⟨ip, X, rfl, h1, h2, h3, h4⟩ := ih
      obtain ⟨g1, g2⟩ := take_dig (ip := c :: ip) (r := X) (by simpa using ⟨hc, h1⟩) h2
      exact ⟨c :: ip, X, rfl, by simpa using ⟨hc, h1⟩, h2, g1, g2⟩
    · refine ⟨[], c :: s, rfl, by simp, fun d hd => by cases hd; exact hc, ?_, ?_⟩ <;> simp [not_dig hc]

/-! ### The loop -/

theorem loop_sci (man dot : Bool) (s : List Nat) : loop man dot true false s = (s.takeWhile isDig, s.dropWhile isDig) := by
  induction s generalizing man with
  | nil => rfl
  | cons c s ih =>
    unfold loop
    by_cases hc : isDig c = true
    · simp [hc, ih, push]
    · simp [hc]

theorem loop_fresh (man dot : Bool) (s : List Nat) :
    loop man dot true true s = ((sign s).1 ++ (sign s).2.takeWhile isDig, (sign s).2.dropWhile isDig) := by
  cases s with
  | nil => rfl
  | cons c s =>
    by_cases h : c = 43 ∨ c = 45
    · unfold loop
      rw [if_pos ⟨rfl, h⟩, loop_sci]
      rcases h with rfl | rfl <;> rfl
    · have hs : sign (c :: s) = ([], c :: s) := by
        unfold sign
        split
        · rename_i e; cases e; omega
        · rename_i e; cases e; omega
        · rfl
      rw [hs, List.nil_append, ← loop_sci man dot]
      unfold loop
      rw [if_neg (fun g => h g.2), if_neg (c := false = true ∧ _) (fun g => by cases g.1)]

/-- What is collected of an exponent, and the rest. -/
def ex (man : Bool) : List Nat → List Nat × List Nat
  | [] => ([], [])
  | c :: r =>
    if (c = 101 ∨ c = 69) ∧ man = true then (101 :: ((sign r).1 ++ (sign r).2.takeWhile isDig), (sign r).2.dropWhile isDig)
    else ([], c :: r)

theorem ex_cons (man : Bool) (c : Nat) (r : List Nat) : ex man (c :: r) =
    if (c = 101 ∨ c = 69) ∧ man = true then (101 :: ((sign r).1 ++ (sign r).2.takeWhile isDig), (sign r).2.dropWhile isDig) else ([], c :: r) := rfl

theorem loop_ex (man : Bool) {X : List Nat} (h : NoDigit X) : loop man true false false X = ex man X := by
  cases X with
  | nil => rfl
  | cons c r =>
    have hc := not_dig (h c rfl)
    unfold loop
    rw [ex_cons, if_neg (fun g => by cases g.1), if_neg (by simp [hc]), if_neg (fun g => by cases g.2.1), loop_fresh]
    by_cases g : (c = 101 ∨ c = 69) ∧ man = true
    · rw [if_pos ⟨g.1, rfl, g.2⟩, if_pos g]; rfl
    · rw [if_neg (fun x => g ⟨x.1, x.2.2⟩), if_neg g]

/-- Digits come first. -/
theorem loop_digits (man dot : Bool) {ip : List Nat} (h : ∀ c ∈ ip, Digit c) (X : List Nat) :
    loop man dot false false (ip ++ X) = (ip ++ (loop (man || !ip.isEmpty) dot false false X).1, (loop (man || !ip.isEmpty) dot false false X).2) := by
  induction ip generalizing man with
  | nil => simp
  | cons c ip ih =>
    have hc := (isDig_iff c).2 (h c (by simp))
    rw [List.cons_append, loop, if_neg (fun g => by cases g.1), if_pos hc, ih true (fun d hd => h d (by simp [hd]))]
    simp [push]

/-- What is collected after the digits in front. -/
def tail (man : Bool) (X : List Nat) : List Nat × List Nat :=
  if X.head? = some 46 then
    (46 :: (X.tail.takeWhile isDig ++ (ex (man || !(X.tail.takeWhile isDig).isEmpty) (X.tail.dropWhile isDig)).1),
      (ex (man || !(X.tail.takeWhile isDig).isEmpty) (X.tail.dropWhile isDig)).2)
  else ex man X

theorem loop_tail (man : Bool) {X : List Nat} (h : NoDigit X) : loop man false false false X = tail man X := by
  cases X with
  | nil => rfl
  | cons c r =>
    have hc := not_dig (h c rfl)
    unfold loop tail
    rw [if_neg (fun g => by cases g.1), if_neg (by simp [hc])]
    by_cases h46 : c = 46
    · subst h46
      rw [if_pos ⟨rfl, rfl, rfl⟩, if_pos (show (46 :: r).head? = some 46 from rfl)]
      obtain ⟨fd, Y, e, h1, h2, h3, h4⟩ := split_dig r
      rw [List.tail_cons, h3, h4, e, loop_digits _ _ h1, loop_ex _ h2]
      rfl
    · rw [if_neg (fun g => h46 g.1), if_neg (c := (c :: r).head? = some 46) (by simpa using h46), loop_fresh]
      rw [ex_cons]
      by_cases g : (c = 101 ∨ c = 69) ∧ man = true
      · rw [if_pos ⟨g.1, rfl, g.2⟩, if_pos g]; rfl
      · rw [if_neg (fun x => g ⟨x.1, x.2.2⟩), if_neg g]

/-- Leading zeros become one. -/
def norm (ip : List Nat) : List Nat := if ip.takeWhile (· == 48) = [] then ip else 48 :: ip.dropWhile (· == 48)

theorem norm_digit {ip : List Nat} (h : ∀ c ∈ ip, Digit c) : ∀ c ∈ norm ip, Digit c := by
  intro c hc
  unfold norm at hc
  split at hc
  · exact h c hc
  · rcases List.mem_cons.1 hc with rfl | hc
    · unfold Digit; omega
    · exact h c ((List.dropWhile_sublist _).subset hc)

theorem norm_nil {ip : List Nat} : norm ip = [] ↔ ip = [] := by
  unfold norm
  split
  · rfl
  · rename_i h
    simp only [reduceCtorEq, false_iff]
    rintro rfl
    exact h rfl

theorem decVal_drop (ip fd : List Nat) : decVal (ip.dropWhile (· == 48) ++ fd) = decVal (ip ++ fd) := by
  induction ip with
  | nil => rfl
  | cons c ip ih =>
    by_cases hc : c = 48
    · subst hc
      rw [List.dropWhile_cons_of_pos (by simp), ih, List.cons_append]
      simp [decVal]
    · rw [List.dropWhile_cons_of_neg (by simpa using hc)]

theorem norm_val (ip fd : List Nat) : decVal (norm ip ++ fd) = decVal (ip ++ fd) := by
  unfold norm
  split
  · rfl
  · rw [List.cons_append, ← decVal_drop ip fd]
    simp [decVal]

theorem zeros_append {ip X : List Nat} (h : NoDigit X) :
    (ip ++ X).takeWhile (· == 48) = ip.takeWhile (· == 48) ∧ (ip ++ X).dropWhile (· == 48) = ip.dropWhile (· == 48) ++ X := by
  induction ip with
  | nil =>
    cases X with
    | nil => exact ⟨rfl, rfl⟩
    | cons c r =>
      have : c ≠ 48 := by rintro rfl; exact h 48 rfl (by unfold Digit; omega)
      simp [this]
  | cons c ip ih =>
    by_cases hc : c = 48
    · subst hc
      simpa using ih
    · simp [hc]

theorem collect_eq {ip X : List Nat} (h1 : ∀ c ∈ ip, Digit c) (h2 : NoDigit X) :
    collect (ip ++ X) = (norm ip ++ (tail (!ip.isEmpty) X).1, (tail (!ip.isEmpty) X).2) := by
  obtain ⟨z1, z2⟩ := zeros_append (ip := ip) h2
  unfold collect norm
  rw [z1, z2]
  split
  · rw [loop_digits _ _ h1, loop_tail _ h2]; simp
  · rename_i hz
    have hi : ip.isEmpty = false := by
      cases ip with
      | nil => exact absurd rfl hz
      | cons => rfl
    rw [loop_digits _ _ (fun c hc => h1 c ((List.dropWhile_sublist _).subset hc)), loop_tail _ h2]
    simp [push, hi]

/-! ### `strtod` -/

/-- `strtod` of what was collected. -/
theorem numRest_eq {ip fd E : List Nat} {pt : Bool} (h1 : ∀ c ∈ ip, Digit c) (h2 : ∀ c ∈ fd, Digit c) (hp : pt = false → fd = [])
    (hE : E = [] ∨ ∃ r, E = 101 :: r) :
    numRest (ip ++ ((if pt then 46 :: fd else []) ++ E)) = (if ip ++ fd = [] then none else some (expRest E)) ∧
      textAbs (ip ++ ((if pt then 46 :: fd else []) ++ E)) = (decVal (ip ++ fd) : Rat) * (10 : Rat) ^ (expVal E - (fd.length : Int)) := by
  have hE' : NoDigit E := by
    rcases hE with rfl | ⟨r, rfl⟩
    · simp [NoDigit]
    · intro c hc; cases hc; unfold Digit; omega
  have hd : NoDigit ((if pt then 46 :: fd else []) ++ E) := by
    cases pt with
    | true => intro c hc; cases hc; unfold Digit; omega
    | false => simpa [NoDigit] using hE'
  obtain ⟨g1, g2⟩ := take_dig h1 hd
  have hf : fracSplit ((if pt then 46 :: fd else []) ++ E) = (fd, E) := by
    cases pt with
    | true =>
      obtain ⟨f1, f2⟩ := take_dig h2 hE'
      simp [fracSplit, f1, f2]
    | false =>
      rw [hp rfl]
      rcases hE with rfl | ⟨r, rfl⟩ <;> simp [fracSplit]
  constructor
  · unfold numRest
    rw [g1, g2, hf]
  · unfold textAbs
    dsimp only
    rw [g1, g2, hf]
    dsimp only
    rw [hk]
where
  hk {x : List Nat} : Verif.Json.natOf x = decVal x := Verif.Json.Lemmas.natOf_eq x

/-! ### Exponents -/

theorem sign_digits {ds rest : List Nat} (h : ds ≠ []) (hd : ∀ d ∈ ds, Digit d) : sign (ds ++ rest) = ([], ds ++ rest) := by
  obtain ⟨d, ds, rfl⟩ := List.exists_cons_of_ne_nil h
  have := hd d (by simp)
  unfold Digit at this
  unfold sign
  split
  · rename_i e; cases e; omega
  · rename_i e; cases e; omega
  · rfl

theorem dig_all {ds : List Nat} (hd : ∀ d ∈ ds, Digit d) : ds.takeWhile isDig = ds ∧ ds.dropWhile isDig = [] := by
  have := take_dig (ip := ds) (r := []) hd (by simp)
  rwa [List.append_nil] at this

theorem exp_sign {sg ds : List Nat} (hs : sg = [] ∨ sg = [43] ∨ sg = [45]) (h : ds ≠ []) (hd : ∀ d ∈ ds, Digit d) (rest : List Nat) :
    sign (sg ++ (ds ++ rest)) = (sg, ds ++ rest) := by
  rcases hs with rfl | rfl | rfl
  · exact sign_digits (ds := ds) h hd
  · rfl
  · rfl

/-- The exponent that a sign and digits stand for. -/
def expOf (sg ds : List Nat) : Int := if sg = [45] then -(decVal ds : Int) else decVal ds

theorem expVal_eq {sg ds : List Nat} (hs : sg = [] ∨ sg = [43] ∨ sg = [45]) (h : ds ≠ []) (hd : ∀ d ∈ ds, Digit d) :
    expVal (101 :: (sg ++ ds)) = expOf sg ds := by
  obtain ⟨g1, _⟩ := dig_all hd
  have hn : (Json.natOf (ds.takeWhile isDig) : Int) = decVal ds := by rw [g1, Verif.Json.Lemmas.natOf_eq]
  rcases hs with rfl | rfl | rfl
  · rw [← show (Json.natOf (ds.takeWhile isDig) : Int) = expOf [] ds from hn]
    obtain ⟨d, ds, rfl⟩ := List.exists_cons_of_ne_nil h
    have := hd d (by simp)
    unfold Digit at this
    show (match d :: ds with
        | 45 :: ds => -(Json.natOf (ds.takeWhile isDig) : Int)
        | 43 :: ds => (Json.natOf (ds.takeWhile isDig) : Int)
        | ds => (Json.natOf (ds.takeWhile isDig) : Int)) = _
    split
    · rename_i e; cases e; omega
    · rename_i e; cases e; omega
    · rfl
  · exact hn
  · show -(Json.natOf (ds.takeWhile isDig) : Int) = -(decVal ds : Int)
    rw [hn]

theorem exponent_cases {e : List Nat} {k : Int} : Exponent e k ↔
    (e = [] ∧ k = 0) ∨ ∃ c sg ds, e = c :: (sg ++ ds) ∧ (c = 101 ∨ c = 69) ∧ (sg = [] ∨ sg = [43] ∨ sg = [45]) ∧ ds ≠ [] ∧ (∀ d ∈ ds, Digit d) ∧ k = expOf sg ds := by
  constructor
  · rintro (_ | ⟨c, ds, h1, h2, h3⟩ | ⟨c, ds, h1, h2, h3⟩ | ⟨c, ds, h1, h2, h3⟩)
    · exact .inl ⟨rfl, rfl⟩
    · exact .inr ⟨c, [], ds, rfl, h1, .inl rfl, h2, h3, rfl⟩
    · exact .inr ⟨c, [43], ds, rfl, h1, .inr (.inl rfl), h2, h3, rfl⟩
    · exact .inr ⟨c, [45], ds, rfl, h1, .inr (.inr rfl), h2, h3, rfl⟩
  · rintro (⟨rfl, rfl⟩ | ⟨c, sg, ds, rfl, h1, rfl | rfl | rfl, h2, h3, rfl⟩)
    · exact .none
    · exact .plain c ds h1 h2 h3
    · exact .plus c ds h1 h2 h3
    · exact .minus c ds h1 h2 h3

/-- An exponent is collected. -/
theorem exponent_read {e rest : List Nat} {k : Int} (h : Exponent e k) (hr : NoDigit rest)
    (hr' : e = [] → ∀ c, rest.head? = some c → c ≠ 101 ∧ c ≠ 69) :
    ∃ E, ex true (e ++ rest) = (E, rest) ∧ (E = [] ∨ ∃ r, E = 101 :: r) ∧ expRest E = [] ∧ expVal E = k := by
  rcases exponent_cases.1 h with ⟨rfl, rfl⟩ | ⟨c, sg, ds, rfl, h1, h2, h3, h4, rfl⟩
  · refine ⟨[], ?_, .inl rfl, rfl, rfl⟩
    cases rest with
    | nil => rfl
    | cons c r =>
      have := hr' rfl c rfl
      rw [List.nil_append, ex_cons, if_neg (fun g => by omega)]
  · refine ⟨101 :: (sg ++ ds), ?_, .inr ⟨_, rfl⟩, ?_, expVal_eq h2 h3 h4⟩
    · obtain ⟨g1, g2⟩ := take_dig h4 hr
      rw [List.cons_append, List.append_assoc, ex_cons, if_pos ⟨h1, rfl⟩, exp_sign h2 h3 h4, g1, g2]
    · have := exp_sign h2 h3 h4 []
      rw [List.append_nil] at this
      obtain ⟨g1, g2⟩ := dig_all h4
      unfold expRest
      dsimp only
      rw [this]
      dsimp only
      rw [g1, g2, if_pos ⟨.inl rfl, h3⟩]

theorem sign_spec (r : List Nat) : r = (sign r).1 ++ (sign r).2 ∧ ((sign r).1 = [] ∨ (sign r).1 = [43] ∨ (sign r).1 = [45]) := by
  unfold sign
  split <;> simp

/-- What `strtod` accepts is an exponent. -/
theorem exponent_back {Y : List Nat} (hY : NoDigit Y) (h : expRest (ex true Y).1 = []) :
    ∃ e k rest, Y = e ++ rest ∧ Exponent e k ∧ NoDigit rest ∧ (e = [] → ∀ c, rest.head? = some c → c ≠ 101 ∧ c ≠ 69) ∧ (e ≠ [] → 101 ∈ e ∨ 69 ∈ e) := by
  cases Y with
  | nil => exact ⟨[], 0, [], rfl, .none, by simp [NoDigit], by simp, by simp⟩
  | cons c r =>
    by_cases hc : c = 101 ∨ c = 69
    · obtain ⟨e1, e2⟩ := sign_spec r
      obtain ⟨ds, rest, f1, f2, f3, f4, f5⟩ := split_dig (sign r).2
      rw [ex_cons, if_pos ⟨hc, rfl⟩, f4] at h
      have hds : ds ≠ [] := by
        rintro rfl
        rw [List.append_nil] at h
        dsimp only at h
        generalize (sign r).1 = sg at *
        rcases e2 with rfl | rfl | rfl <;> exact absurd h (by decide)
      refine ⟨c :: ((sign r).1 ++ ds), expOf (sign r).1 ds, rest, ?_, exponent_cases.2 (.inr ⟨c, _, ds, rfl, hc, e2, hds, f2, rfl⟩), f3, by simp, ?_⟩
      · rw [List.cons_append, List.append_assoc, ← f1, ← e1]
      · intro _
        rcases hc with rfl | rfl <;> simp
    · refine ⟨[], 0, c :: r, rfl, .none, hY, ?_, by simp⟩
      intro _ d hd
      cases hd
      omega

/-! ### Number texts -/

theorem tail_ex {man : Bool} {X : List Nat} (h : X.head? ≠ some 46) : tail man X = ex man X := by rw [tail, if_neg h]

theorem tail_point (man : Bool) {fd Y : List Nat} (h : ∀ d ∈ fd, Digit d) (hY : NoDigit Y) :
    tail man (46 :: (fd ++ Y)) = (46 :: (fd ++ (ex (man || !fd.isEmpty) Y).1), (ex (man || !fd.isEmpty) Y).2) := by
  obtain ⟨g1, g2⟩ := take_dig h hY
  rw [tail, if_pos (show (46 :: (fd ++ Y)).head? = some 46 from rfl), List.tail_cons, g1, g2]

theorem isEmpty_not {l : List Nat} (h : l ≠ []) : (!l.isEmpty) = true := by
  cases l with
  | nil => exact absurd rfl h
  | cons => rfl

theorem exponent_head {e rest : List Nat} {k : Int} (h : Exponent e k) (hr : NoDigit rest) : NoDigit (e ++ rest) := by
  rcases exponent_cases.1 h with ⟨rfl, _⟩ | ⟨c, sg, ds, rfl, h1, _⟩
  · exact hr
  · intro d hd
    cases hd
    unfold Digit
    omega

theorem digit_ne {ip : List Nat} (h : ∀ d ∈ ip, Digit d) : 101 ∉ ip ∧ 69 ∉ ip ∧ 46 ∉ ip :=
  ⟨fun g => by have := h _ g; unfold Digit at this; omega, fun g => by have := h _ g; unfold Digit at this; omega,
    fun g => by have := h _ g; unfold Digit at this; omega⟩

/-- A number text is collected and accepted. -/
theorem unsigned_read {t rest : List Nat} {q : Rat} (h : Unsigned t q) (hr : ∀ c, rest.head? = some c → Stops t c) :
    ∃ u, collect (t ++ rest) = (u, rest) ∧ numRest u = some [] ∧ textAbs u = q := by
  have hN : NoDigit rest := fun c hc => (hr c hc).1
  rcases h with ⟨ip, e, k, h1, h2, h3⟩ | ⟨ip, fd, e, k, h1, h2, h3, h4⟩
  · obtain ⟨E, g1, g2, g3, g4⟩ := exponent_read h3 hN (fun he c hc => by
      subst he
      obtain ⟨a, b, _⟩ := digit_ne h1
      have := (hr c hc).2 (by simpa using a) (by simpa using b)
      exact ⟨this.1, this.2.1⟩)
    have hX : (e ++ rest).head? ≠ some 46 := by
      rcases exponent_cases.1 h3 with ⟨rfl, _⟩ | ⟨c, sg, ds, rfl, hc, _⟩
      · intro hc
        obtain ⟨a, b, d⟩ := digit_ne h1
        exact ((hr 46 hc).2 (by simpa using a) (by simpa using b)).2.2 (by simpa using d) rfl
      · simp only [List.cons_append, List.head?_cons, ne_eq, Option.some.injEq]
        omega
    refine ⟨norm ip ++ E, ?_, ?_⟩
    · rw [List.append_assoc, collect_eq h1 (exponent_head h3 hN), tail_ex hX, isEmpty_not h2, g1]
    · obtain ⟨a, b⟩ := numRest_eq (ip := norm ip) (fd := []) (E := E) (pt := false) (norm_digit h1) (by simp) (fun _ => rfl) g2
      simp only [Bool.false_eq_true, if_false, List.nil_append, List.append_nil] at a b
      rw [if_neg (by rw [norm_nil]; exact h2), g3] at a
      refine ⟨a, ?_⟩
      have hv := norm_val ip []
      rw [List.append_nil, List.append_nil] at hv
      rw [b, g4, hv]
      simp
  · have h46 : NoDigit (46 :: (fd ++ (e ++ rest))) := fun c hc => by cases hc; unfold Digit; omega
    obtain ⟨E, g1, g2, g3, g4⟩ := exponent_read h4 hN (fun he c hc => by
      subst he
      obtain ⟨a, b, _⟩ := digit_ne h1
      obtain ⟨a', b', _⟩ := digit_ne h2
      have := (hr c hc).2 (by simp [a, a']) (by simp [b, b'])
      exact ⟨this.1, this.2.1⟩)
    have hm : ((!ip.isEmpty) || !fd.isEmpty) = true := by
      cases ip with
      | nil => simpa using h3
      | cons => rfl
    refine ⟨norm ip ++ (46 :: (fd ++ E)), ?_, ?_⟩
    · rw [show ip ++ 46 :: fd ++ e ++ rest = ip ++ (46 :: (fd ++ (e ++ rest))) by simp, collect_eq h1 h46, tail_point _ h2 (exponent_head h4 hN), hm, g1]
    · obtain ⟨a, b⟩ := numRest_eq (ip := norm ip) (fd := fd) (E := E) (pt := true) (norm_digit h1) h2 (fun h => by cases h) g2
      simp only [if_true, List.cons_append] at a b
      rw [if_neg (by rw [List.append_eq_nil_iff, norm_nil, ← List.append_eq_nil_iff]; exact h3), g3] at a
      refine ⟨a, ?_⟩
      rw [b, g4, norm_val]

/-- What is accepted begins with a number text. -/
theorem unsigned_back {s : List Nat} (h : numRest (collect s).1 = some []) :
    ∃ t rest q, s = t ++ rest ∧ Unsigned t q ∧ ∀ c, rest.head? = some c → Stops t c := by
  obtain ⟨ip, X, rfl, h1, h2, _, _⟩ := split_dig s
  rw [collect_eq h1 h2] at h
  dsimp only at h
  obtain ⟨a1, a2, a3⟩ := digit_ne h1
  have hE : ∀ (m : Bool) (Y : List Nat), (ex m Y).1 = [] ∨ ∃ r, (ex m Y).1 = 101 :: r := by
    intro m Y
    cases Y with
    | nil => exact .inl rfl
    | cons c r =>
      rw [ex_cons]
      split
      · exact .inr ⟨_, rfl⟩
      · exact .inl rfl
  by_cases hX : X.head? = some 46
  · obtain ⟨r, rfl⟩ : ∃ r, X = 46 :: r := by
      cases X with
      | nil => cases hX
      | cons c r => cases hX; exact ⟨r, rfl⟩
    obtain ⟨fd, Y, rfl, f1, f2, _, _⟩ := split_dig r
    rw [tail_point _ f1 f2] at h
    have hn := (numRest_eq (ip := norm ip) (fd := fd) (E := (ex (!ip.isEmpty || !fd.isEmpty) Y).1) (pt := true) (norm_digit h1) f1 (fun h => by cases h) (hE _ _)).1
    simp only [if_true, List.cons_append] at hn
    rw [hn] at h
    split at h
    · cases h
    · rename_i hne
      rw [List.append_eq_nil_iff, norm_nil, ← List.append_eq_nil_iff] at hne
      have hm : ((!ip.isEmpty) || !fd.isEmpty) = true := by
        cases ip with
        | nil => simpa using hne
        | cons => rfl
      rw [hm, Option.some.injEq] at h
      obtain ⟨e, k, rest, rfl, e1, e2, e3, e4⟩ := exponent_back f2 h
      refine ⟨ip ++ 46 :: fd ++ e, rest, _, by simp, .point ip fd e k h1 f1 hne e1, fun c hc => ⟨e2 c hc, fun n1 n2 => ?_⟩⟩
      have he : e = [] := Classical.byContradiction fun he => (e4 he).elim (fun g => n1 (by simp [g])) (fun g => n2 (by simp [g]))
      obtain ⟨b1, b2⟩ := e3 he c hc
      exact ⟨b1, b2, fun g => absurd (by simp) g⟩
  · rw [tail_ex hX] at h
    have hn := (numRest_eq (ip := norm ip) (fd := []) (E := (ex (!ip.isEmpty) X).1) (pt := false) (norm_digit h1) (by simp) (fun _ => rfl) (hE _ _)).1
    simp only [Bool.false_eq_true, if_false, List.nil_append, List.append_nil] at hn
    rw [hn] at h
    split at h
    · cases h
    · rename_i hne
      rw [norm_nil] at hne
      rw [isEmpty_not hne, Option.some.injEq] at h
      obtain ⟨e, k, rest, rfl, e1, e2, e3, e4⟩ := exponent_back h2 h
      refine ⟨ip ++ e, rest, _, by simp, .whole ip e k h1 hne e1, fun c hc => ⟨e2 c hc, fun n1 n2 => ?_⟩⟩
      have he : e = [] := Classical.byContradiction fun he => (e4 he).elim (fun g => n1 (by simp [g])) (fun g => n2 (by simp [g]))
      obtain ⟨b1, b2⟩ := e3 he c hc
      subst he
      refine ⟨b1, b2, fun _ => ?_⟩
      rintro rfl
      exact hX (by simpa using hc)

end Verif.LexFloat.Lemmas
