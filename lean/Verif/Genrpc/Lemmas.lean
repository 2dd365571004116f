import Verif.Genrpc.Spec
/-! Helper lemmas for `genrpc`. -/
namespace Verif.Genrpc.Lemmas
open Verif.Genrpc Verif.Genrpc.Spec

/-! ### Texts -/

theorem plain_tail {c : UInt8} {s : Str} (h : Plain (c :: s)) : Plain s := by
  refine ⟨fun hi => h.1 (hi.trans (List.suffix_cons c s).isInfix), fun hl => ?_⟩
  cases s with
  | nil => simp at hl
  | cons d s => exact h.2 (by rw [List.getLast?_cons_cons]; exact hl)

theorem plain_nil : Plain [] := ⟨by simp, by simp⟩

theorem plain_append : ∀ (a b : Str), Plain a → Plain b → Plain (a ++ b)
  | [], b, _, hb => hb
  | c :: a, b, ha, hb => by
    have ih := plain_append a b (plain_tail ha) hb
    refine ⟨fun hi => ?_, fun hl => ?_⟩
    · rw [List.cons_append, List.infix_cons_iff] at hi
      rcases hi with hp | hi
      · match a, ha, hp with
        | [], ha, hp => exact ha.2 (by have := (List.cons_prefix_cons.1 hp).1; simp [← this])
        | [d], ha, hp =>
          have := (List.cons_prefix_cons.1 (List.cons_prefix_cons.1 hp).2).1
          exact ha.2 (by simp [← this])
        | d :: e :: a, ha, hp =>
          have h1 := List.cons_prefix_cons.1 hp
          have h2 := List.cons_prefix_cons.1 h1.2
          have h3 := List.cons_prefix_cons.1 h2.2
          refine ha.1 ⟨[], a, ?_⟩
          rw [← h1.1, ← h2.1, ← h3.1]; rfl
      · exact ih.1 hi
    · cases hb' : b with
      | nil => subst hb'; rw [List.append_nil] at hl; exact ha.2 hl
      | cons d b' =>
        rw [List.getLast?_append_of_ne_nil _ (by simp [hb'])] at hl
        exact hb.2 hl

theorem find_plain (rest t : Str) : ∀ (s : Str), Plain s →
    find (60 :: 60 :: 60 :: rest) (s ++ (60 :: 60 :: 60 :: rest) ++ t) = some s.length
  | [], _ => by
    have : (60 :: 60 :: 60 :: rest : Str).isPrefixOf (60 :: 60 :: 60 :: rest ++ t) = true :=
      List.isPrefixOf_iff_prefix.2 (List.prefix_append _ _)
    rw [List.nil_append, List.cons_append, find, ← List.cons_append, if_pos this]; rfl
  | c :: s, h => by
    have ih := find_plain rest t s (plain_tail h)
    have hn : ¬ (60 :: 60 :: 60 :: rest : Str).isPrefixOf (c :: (s ++ (60 :: 60 :: 60 :: rest) ++ t)) = true := by
      rw [List.isPrefixOf_iff_prefix]
      intro hp
      match s, h, hp with
      | [], h, hp => exact h.2 (by have := (List.cons_prefix_cons.1 hp).1; simp [← this])
      | [d], h, hp =>
        have := (List.cons_prefix_cons.1 (List.cons_prefix_cons.1 hp).2).1
        exact h.2 (by simp [← this])
      | d :: e :: a, h, hp =>
        have h1 := List.cons_prefix_cons.1 hp
        have h2 := List.cons_prefix_cons.1 h1.2
        have h3 := List.cons_prefix_cons.1 h2.2
        refine h.1 ⟨[], a, ?_⟩
        rw [← h1.1, ← h2.1, ← h3.1]; rfl
    rw [List.cons_append, List.cons_append, find, if_neg hn, ih]; rfl

theorem replace_plain (rest aft t s : Str) (h : Plain s) :
    replace (s ++ (60 :: 60 :: 60 :: rest) ++ t) (60 :: 60 :: 60 :: rest) aft = s ++ aft ++ t := by
  rw [replace, find_plain rest t s h]
  simp only
  have e1 : (s ++ (60 :: 60 :: 60 :: rest) ++ t).take s.length = s := by rw [List.append_assoc, List.take_left]
  have e2 : (s ++ (60 :: 60 :: 60 :: rest) ++ t).drop (s.length + (60 :: 60 :: 60 :: rest).length) = t := by
    rw [← List.length_append, List.drop_left]
  rw [e1, e2]

theorem reflects_eq : ∀ (names : List Str) (i : Nat), reflects names i = (names.zipIdx i).flatMap (fun e => reflect e.1 e.2)
  | [], _ => rfl
  | n :: ns, i => by rw [reflects, reflects_eq ns (i + 1), List.zipIdx_cons, List.flatMap_cons]

theorem reflects_adds (names : List Str) : reflects names 0 = adds names := reflects_eq names 0

theorem fill_eq {p1 p2 p3 p4 p5 sig lang : Str} (names : List Str) (h1 : Plain p1) (h2 : Plain p2) (h3 : Plain p3) (h4 : Plain p4)
    (hs : Plain sig) (hl : Plain lang) :
    fill (p1 ++ sigMark ++ p2 ++ baseMark ++ p3 ++ langMark ++ p4 ++ addMark ++ p5) sig lang names =
      p1 ++ sig ++ p2 ++ sig ++ p3 ++ lang ++ p4 ++ adds names ++ p5 := by
  have e1 := replace_plain [83, 73, 71, 70, 73, 76, 69, 62, 62, 62] sig (p2 ++ baseMark ++ p3 ++ langMark ++ p4 ++ addMark ++ p5) p1 h1
  have e2 := replace_plain [66, 65, 83, 69, 78, 65, 77, 69, 62, 62, 62] sig (p3 ++ langMark ++ p4 ++ addMark ++ p5) (p1 ++ sig ++ p2)
    (plain_append _ _ (plain_append _ _ h1 hs) h2)
  have e3 := replace_plain [76, 65, 78, 71, 62, 62, 62] lang (p4 ++ addMark ++ p5) (p1 ++ sig ++ p2 ++ sig ++ p3)
    (plain_append _ _ (plain_append _ _ (plain_append _ _ (plain_append _ _ h1 hs) h2) hs) h3)
  have e4 := replace_plain [65, 68, 68, 82, 69, 70, 76, 69, 67, 84, 83, 62, 62, 62] (adds names) p5 (p1 ++ sig ++ p2 ++ sig ++ p3 ++ lang ++ p4)
    (plain_append _ _ (plain_append _ _ (plain_append _ _ (plain_append _ _ (plain_append _ _ (plain_append _ _ h1 hs) h2) hs) h3) hl) h4)
  rw [fill, reflects_adds]
  simp only [sigMark, baseMark, langMark, addMark, List.append_assoc] at e1 e2 e3 e4 ⊢
  rw [e1, e2, e3, e4]

/-! ### Words -/

theorem words_sep {sep : UInt8 → Bool} {c : UInt8} {s : Str} (h : sep c = true) : words sep (c :: s) = words sep s := by
  rw [words, wordsFrom, if_pos h, if_pos rfl]; rfl

theorem wordsFrom_word {sep : UInt8 → Bool} {c : UInt8} (hc : sep c = true) (rest : Str) : ∀ (w cur : Str), (∀ x ∈ w, sep x = false) →
    cur ++ w ≠ [] → wordsFrom sep cur (w ++ c :: rest) = (cur ++ w) :: words sep rest
  | [], cur, _, hn => by
    rw [List.append_nil] at hn ⊢
    rw [List.nil_append, wordsFrom, if_pos hc, if_neg hn]; rfl
  | x :: w, cur, hw, _ => by
    have := wordsFrom_word hc rest w (cur ++ [x]) (fun y hy => hw y (List.mem_cons_of_mem _ hy)) (by simp)
    rw [List.cons_append, wordsFrom, hw x (List.mem_cons_self ..), this]
    simp

theorem words_word {sep : UInt8 → Bool} {c : UInt8} {w rest : Str} (hc : sep c = true) (hw : ∀ x ∈ w, sep x = false) (hn : w ≠ []) :
    words sep (w ++ c :: rest) = w :: words sep rest := wordsFrom_word hc rest w [] hw (by simpa using hn)

theorem wordsFrom_last {sep : UInt8 → Bool} : ∀ (w cur : Str), (∀ x ∈ w, sep x = false) → cur ++ w ≠ [] → wordsFrom sep cur w = [cur ++ w]
  | [], cur, _, hn => by rw [List.append_nil] at hn ⊢; rw [wordsFrom, if_neg hn]
  | x :: w, cur, hw, _ => by
    have := wordsFrom_last w (cur ++ [x]) (fun y hy => hw y (List.mem_cons_of_mem _ hy)) (by simp)
    rw [wordsFrom, hw x (List.mem_cons_self ..), this]
    simp

theorem words_last {sep : UInt8 → Bool} {w : Str} (hw : ∀ x ∈ w, sep x = false) (hn : w ≠ []) : words sep w = [w] :=
  wordsFrom_last w [] hw (by simpa using hn)

theorem words_opts (rest : Str) : ∀ (opts : List Str), (∀ a ∈ opts, Word a) →
    words isBlank (opts.flatMap (fun a => 32 :: a) ++ 32 :: rest) = opts ++ words isBlank rest
  | [], _ => by rw [List.flatMap_nil, List.nil_append, words_sep (by decide)]; rfl
  | a :: opts, h => by
    have ih := words_opts rest opts (fun b hb => h b (List.mem_cons_of_mem _ hb))
    have ha := h a (List.mem_cons_self ..)
    have hb : ∀ x ∈ a, isBlank x = false := fun x hx => by
      have := ha.plain x hx
      simp [isBlank, this.1, this.2.1]
    rw [List.flatMap_cons, List.cons_append, List.cons_append, words_sep (by decide), List.append_assoc, List.cons_append]
    cases opts with
    | nil =>
      rw [List.flatMap_nil, List.nil_append, words_word (by decide) hb ha.some]; rfl
    | cons b opts =>
      rw [List.flatMap_cons, List.cons_append, List.cons_append, words_sep (by decide)] at ih
      rw [List.flatMap_cons, List.cons_append, List.cons_append, words_word (by decide) hb ha.some, ih]

theorem temp_word {p : Str} {fs : Files} {n : Str} (h : Temp p fs n) (hp : ∀ c ∈ p, c ≠ 32 ∧ c ≠ 9 ∧ c ∉ special) : Word n := by
  obtain ⟨_, x, rfl, hl, hx⟩ := h
  refine ⟨fun h => ?_, fun c hc => ?_⟩
  · have := (List.append_eq_nil_iff.1 h).2
    subst this; simp at hl
  · rcases List.mem_append.1 hc with hc | hc
    · exact hp c hc
    · have key : ∀ i : Fin 256, ((48 ≤ UInt8.ofNat i.1 ∧ UInt8.ofNat i.1 ≤ 57) ∨ (65 ≤ UInt8.ofNat i.1 ∧ UInt8.ofNat i.1 ≤ 90) ∨
          (97 ≤ UInt8.ofNat i.1 ∧ UInt8.ofNat i.1 ≤ 122)) → UInt8.ofNat i.1 ≠ 32 ∧ UInt8.ofNat i.1 ≠ 9 ∧ UInt8.ofNat i.1 ∉ special := by
        decide +kernel
      have e : UInt8.ofNat c.toNat = c := by simp
      have := key ⟨c.toNat, c.toNat_lt⟩
      simp only [e] at this
      exact this (hx c hc)

theorem temp_no_dot {p : Str} {fs : Files} {n : Str} (h : Temp p fs n) (hp : 46 ∉ p) : 46 ∉ n := by
  obtain ⟨_, x, rfl, hl, hx⟩ := h
  intro hc
  rcases List.mem_append.1 hc with hc | hc
  · exact hp hc
  · exact absurd (hx 46 hc) (by decide)

theorem word_blank {a : Str} (h : Word a) : ∀ x ∈ a, isBlank x = false := fun x hx => by
  have := h.plain x hx
  simp [isBlank, this.1, this.2.1]

theorem command_shell {t g : Str} {opts : List Str} (ht : Word t) (hg : Word g) (ho : ∀ a ∈ opts, Word a) :
    shell (command t (opts.flatMap (fun a => 32 :: a)) g) = .ok (cxxArgs t opts g) := by
  have h1 : ((command t (opts.flatMap (fun a => 32 :: a)) g).any (special.contains ·)) = false := by
    rw [List.any_eq_false]
    intro c hc
    have no : c ∉ special := by
      rw [command, List.mem_append, List.mem_append, List.mem_append, List.mem_append] at hc
      have k1 : ∀ c ∈ ([103, 43, 43, 32, 45, 120, 99, 43, 43, 32] : Str), c ∉ special := by decide
      have k2 : ∀ c ∈ ([32, 45, 108, 112, 102, 105, 99, 111, 109, 109, 111, 110, 32, 45, 111, 32] : Str), c ∉ special := by decide
      rcases hc with (((hc | hc) | hc) | hc) | hc
      · exact k1 c hc
      · exact (ht.plain c hc).2.2
      · rcases List.mem_cons.1 hc with rfl | hc
        · decide
        · obtain ⟨a, ha, hc⟩ := List.mem_flatMap.1 hc
          rcases List.mem_cons.1 hc with rfl | hc
          · decide
          · exact ((ho a ha).plain c hc).2.2
      · exact k2 c hc
      · exact (hg.plain c hc).2.2
    simpa using no
  rw [shell, h1]
  have e : command t (opts.flatMap (fun a => 32 :: a)) g = [103, 43, 43] ++ 32 :: ([45, 120, 99, 43, 43] ++ 32 :: (t ++ 32 ::
      (opts.flatMap (fun a => 32 :: a) ++ 32 :: ([45, 108, 112, 102, 105, 99, 111, 109, 109, 111, 110] ++ 32 :: ([45, 111] ++ 32 :: g))))) := by
    simp [command, List.append_assoc]
  rw [e, words_word (by decide) (by decide) (by decide), words_word (by decide) (by decide) (by decide),
    words_word (by decide) (word_blank ht) ht.some, words_opts _ _ ho, words_word (by decide) (by decide) (by decide),
    words_word (by decide) (by decide) (by decide), words_last (word_blank hg) hg.some]
  simp [cxxArgs]

/-! ### Compiling and running -/

theorem exe_word : ∀ c ∈ exePrefix, c ≠ 32 ∧ c ≠ 9 ∧ c ∉ special := by decide
theorem tmp_word : ∀ c ∈ tmpPrefix, c ≠ 32 ∧ c ≠ 9 ∧ c ∉ special := by decide

theorem temp_ne {fs : Files} {t g src : Str} (hg : Temp exePrefix (AssocMap.upsert fs t src) g) : t ≠ g := by
  intro e
  have := hg.1
  rw [AssocMap.find_upsert, if_pos e.symm] at this
  cases this

theorem evalCpp_builds {E : Env} {opts : List Str} {fs : Files} {src : Str} {e : Exe} (hE : TempOk E fs) (ho : ∀ a ∈ opts, Word a)
    (hb : Builds E opts fs src e) :
    ∃ g fs1, 46 ∉ g ∧ AssocMap.find fs g = none ∧ (∀ n, n ≠ g → AssocMap.find fs1 n = AssocMap.find fs n) ∧
      evalCpp E src (opts.flatMap (fun a => 32 :: a)) fs = (match e fs1 with
        | .error f => .error f
        | .ok (fs2, out, msgs, good) => .ok (AssocMap.erase fs2 g, msgs, if good then some out else none)) := by
  obtain ⟨t, ht, tt⟩ := hE tmpPrefix [] fs (fun _ _ => rfl)
  obtain ⟨g, hg, tg⟩ := hE exePrefix t (AssocMap.upsert fs t src) (fun n hn => by rw [AssocMap.find_upsert, if_neg hn])
  have ne := temp_ne tg
  obtain ⟨bin, hb⟩ := hb t g (AssocMap.upsert (AssocMap.upsert fs t src) g [])
    (fun n h1 h2 => by rw [AssocMap.find_upsert, if_neg h2, AssocMap.find_upsert, if_neg h1])
    (by rw [AssocMap.find_upsert, if_neg ne, AssocMap.find_upsert, if_pos rfl]) ne
  have hs := command_shell (temp_word tt tmp_word) (temp_word tg exe_word) ho
  refine ⟨g, AssocMap.erase (AssocMap.upsert (AssocMap.upsert (AssocMap.upsert fs t src) g []) g bin) t, temp_no_dot tg (by decide), ?_, ?_, ?_⟩
  · have := tg.1
    rwa [AssocMap.find_upsert, if_neg (Ne.symm ne)] at this
  · intro n hn
    rw [AssocMap.find_erase, AssocMap.find_upsert, AssocMap.find_upsert, AssocMap.find_upsert]
    by_cases h : n = t
    · subst h; rw [if_pos rfl, tt.1]
    · simp [h, hn]
  · rw [evalCpp, ht]
    simp only [hg, hs, hb]
    rcases e _ with f | ⟨fs2, out, msgs, good⟩ <;> rfl

theorem evalCpp_refuses {E : Env} {opts : List Str} {fs : Files} {src : Str} (hE : TempOk E fs) (ho : ∀ a ∈ opts, Word a)
    (hb : Refuses E opts fs src) :
    ∃ g fs1, Temp exePrefix fs g ∧ Only fs fs1 g (some []) ∧ evalCpp E src (opts.flatMap (fun a => 32 :: a)) fs = .ok (fs1, [], none) := by
  obtain ⟨t, ht, tt⟩ := hE tmpPrefix [] fs (fun _ _ => rfl)
  obtain ⟨g, hg, tg⟩ := hE exePrefix t (AssocMap.upsert fs t src) (fun n hn => by rw [AssocMap.find_upsert, if_neg hn])
  have ne := temp_ne tg
  have hb := hb t g (AssocMap.upsert (AssocMap.upsert fs t src) g [])
    (fun n h1 h2 => by rw [AssocMap.find_upsert, if_neg h2, AssocMap.find_upsert, if_neg h1])
    (by rw [AssocMap.find_upsert, if_neg ne, AssocMap.find_upsert, if_pos rfl]) ne
  have hs := command_shell (temp_word tt tmp_word) (temp_word tg exe_word) ho
  refine ⟨g, AssocMap.erase (AssocMap.upsert (AssocMap.upsert fs t src) g []) t, ⟨?_, tg.2⟩, fun n => ?_, ?_⟩
  · have := tg.1
    rwa [AssocMap.find_upsert, if_neg (Ne.symm ne)] at this
  · rw [AssocMap.find_erase, AssocMap.find_upsert, AssocMap.find_upsert]
    by_cases h : n = t
    · subst h; rw [if_pos rfl, if_neg ne, tt.1]
    · simp [h]
  · rw [evalCpp, ht]
    simp only [hg, hs, hb]

theorem builds_same {E : Env} {opts : List Str} {fs fs' : Files} {src : Str} {e : Exe} (h : Same fs fs') (hb : Builds E opts fs src e) :
    Builds E opts fs' src e := fun t g fs'' h1 h2 h3 => hb t g fs'' (fun n ht hg => by rw [h1 n ht hg, h n]) h2 h3

theorem temp_same {E : Env} {fs fs' : Files} (h : Same fs fs') (hE : TempOk E fs) : TempOk E fs' :=
  fun p t fs'' h1 => hE p t fs'' (fun n hn => by rw [h1 n hn, h n])

theorem refuses_same {E : Env} {opts : List Str} {fs fs' : Files} {src : Str} (h : Same fs fs') (hb : Refuses E opts fs src) :
    Refuses E opts fs' src := fun t g fs'' h1 h2 h3 => hb t g fs'' (fun n ht hg => by rw [h1 n ht hg, h n]) h2 h3

/-! ### Names and arguments -/

theorem white_iff (c : UInt8) : isSpace c = true ↔ c ∈ ([9, 10, 11, 12, 13, 32] : Str) := by
  have h : ∀ i : Fin 256, isSpace (UInt8.ofNat i.1) = true ↔ UInt8.ofNat i.1 ∈ ([9, 10, 11, 12, 13, 32] : Str) := by decide +kernel
  have e : c = UInt8.ofNat c.toNat := by simp
  rw [e]
  exact h ⟨c.toNat, c.toNat_lt⟩

theorem words_names : ∀ (names : List Str), Names names → words isSpace (names.flatMap (fun n => n ++ [10])) = names
  | [], _ => rfl
  | n :: names, h => by
    have ih := words_names names (fun m hm => h m (List.mem_cons_of_mem _ hm))
    have hn := h n (List.mem_cons_self ..)
    rw [List.flatMap_cons, List.append_assoc, List.cons_append, List.nil_append, words_word (by decide) (fun x hx => ?_) hn.1, ih]
    cases hc : isSpace x with
    | false => rfl
    | true => exact absurd ((white_iff x).1 hc) (hn.2 x hx)

theorem argument_dashes (st : Str × Str) (l : Str) : argument st (45 :: 45 :: l) = (st.1, l) := by
  have : [45, 45].isPrefixOf (45 :: 45 :: l) = true := by simp [List.isPrefixOf]
  rw [argument, if_pos this]; rfl

theorem argument_other (st : Str × Str) {a : Str} (h : ¬ Dashes a) : argument st a = (a, st.2) := by
  rw [argument, if_neg]
  intro hp
  obtain ⟨l, hl⟩ := List.isPrefixOf_iff_prefix.1 hp
  exact h ⟨l, hl.symm⟩

theorem foldl_others : ∀ (opts : List Str) (st : Str × Str), (∀ a ∈ opts, ¬ Dashes a) → (opts.foldl argument st).2 = st.2
  | [], _, _ => rfl
  | a :: opts, st, h => by
    rw [List.foldl_cons, foldl_others opts _ (fun b hb => h b (List.mem_cons_of_mem _ hb)), argument_other _ (h a (List.mem_cons_self ..))]

theorem foldl_dashes : ∀ (opts : List Str) (st : Str × Str), (∀ a ∈ opts, Dashes a) → (opts.foldl argument st).1 = st.1
  | [], _, _ => rfl
  | a :: opts, st, h => by
    obtain ⟨l, rfl⟩ := h a (List.mem_cons_self ..)
    rw [List.foldl_cons, foldl_dashes opts _ (fun b hb => h b (List.mem_cons_of_mem _ hb)), argument_dashes]

theorem parse_usual (lang sig : Str) (opts : List Str) (ho : ∀ a ∈ opts, ¬ Dashes a) (hs : ¬ Dashes sig) :
    parse ((45 :: 45 :: lang) :: opts ++ [sig]) = (sig, lang) := by
  rw [parse, List.foldl_append, List.foldl_cons, List.foldl_nil, argument_other _ hs, List.foldl_cons, argument_dashes, foldl_others opts _ ho]

theorem options_usual (a sig : Str) (opts : List Str) : options (a :: opts ++ [sig]) = opts.flatMap (fun a => 32 :: a) := by
  rw [options]; simp

/-! ### Names of files -/

theorem find_suffix (r t : Str) : ∀ (stem : Str), ¬ [46, 104] <:+: stem →
    find (46 :: 104 :: r) (stem ++ 46 :: t) = (find (46 :: 104 :: r) (46 :: t)).map (· + stem.length)
  | [], _ => by simp
  | c :: stem, h => by
    have ih := find_suffix r t stem (fun hi => h (hi.trans (List.suffix_cons c stem).isInfix))
    have hn : ¬ (46 :: 104 :: r : Str).isPrefixOf (c :: (stem ++ 46 :: t)) = true := by
      rw [List.isPrefixOf_iff_prefix]
      intro hp
      have h1 := List.cons_prefix_cons.1 hp
      cases stem with
      | nil => exact absurd (List.cons_prefix_cons.1 h1.2).1 (by decide)
      | cons d stem =>
        have h2 := List.cons_prefix_cons.1 h1.2
        refine h ⟨[], stem, ?_⟩
        rw [← h1.1, ← h2.1]; rfl
    rw [List.cons_append, find, if_neg hn, ih, Option.map_map]
    congr 1

theorem find_none (r : Str) : ∀ (s : Str), ¬ [46, 104] <:+: s → find (46 :: 104 :: r) s = none
  | [], _ => rfl
  | c :: s, h => by
    have ih := find_none r s (fun hi => h (hi.trans (List.suffix_cons c s).isInfix))
    have hn : ¬ (46 :: 104 :: r : Str).isPrefixOf (c :: s) = true := by
      rw [List.isPrefixOf_iff_prefix]
      intro hp
      have h1 := List.cons_prefix_cons.1 hp
      cases s with
      | nil => exact absurd h1.2 (by simp)
      | cons d s =>
        have h2 := List.cons_prefix_cons.1 h1.2
        refine h ⟨[], s, ?_⟩
        rw [← h1.1, ← h2.1]; rfl
    rw [find, if_neg hn, ih]; rfl

theorem not_infix {pat : Str} (hp : pat ≠ []) : ∀ {s : Str}, find pat s = none → ¬ pat <:+: s
  | [], _, h => hp (List.infix_nil.1 h)
  | c :: s, hf, h => by
    rw [find] at hf
    split at hf
    · cases hf
    · next hn =>
      rcases List.infix_cons_iff.1 h with h | h
      · exact hn (List.isPrefixOf_iff_prefix.2 h)
      · exact not_infix hp (by simpa using hf) h

theorem outname_stem {sig stem : Str} (h : Stem sig stem) : outname sig = stem := by
  obtain ⟨h, hs⟩ := h
  have a (r t : Str) := find_suffix r t stem hs
  rcases h with rfl | rfl | rfl
  · have : find [46, 104, 112, 112] (stem ++ [46, 104, 112, 112]) = some (0 + stem.length) := by rw [a]; rfl
    rw [outname, headerSufs, outnameFrom, this]
    simp
  · have h1 : find [46, 104, 112, 112] (stem ++ [46, 104, 120, 120]) = none := by rw [a]; rfl
    have h2 : find [46, 104, 120, 120] (stem ++ [46, 104, 120, 120]) = some (0 + stem.length) := by rw [a]; rfl
    rw [outname, headerSufs, outnameFrom, h1]
    simp only [outnameFrom, h2]
    simp
  · have h1 : find [46, 104, 112, 112] (stem ++ [46, 104]) = none := by rw [a]; rfl
    have h2 : find [46, 104, 120, 120] (stem ++ [46, 104]) = none := by rw [a]; rfl
    have h3 : find [46, 104] (stem ++ [46, 104]) = some (0 + stem.length) := by rw [a]; rfl
    rw [outname, headerSufs, outnameFrom, h1]
    simp only [outnameFrom, h2, h3]
    simp

theorem outname_none {sig : Str} (h : ¬ [46, 104] <:+: sig) : outname sig = sig := by
  rw [outname, headerSufs, outnameFrom, find_none _ _ h]
  simp only [outnameFrom, find_none _ _ h]

theorem find_some {pat : Str} : ∀ {s : Str} {p : Nat}, find pat s = some p → ∃ y, s = s.take p ++ pat ++ y ∧ s.drop (p + pat.length) = y
  | [], p, h => by cases h
  | c :: s, p, h => by
    rw [find] at h
    split at h
    · next hp =>
      cases h
      obtain ⟨y, hy⟩ := List.isPrefixOf_iff_prefix.1 hp
      exact ⟨y, by simpa using hy.symm, by rw [← hy]; simp⟩
    · cases hf : find pat s with
      | none => rw [hf] at h; cases h
      | some q =>
        rw [hf] at h
        cases h
        obtain ⟨y, h1, h2⟩ := find_some hf
        refine ⟨y, ?_, ?_⟩
        · rw [List.take_succ_cons, List.cons_append, List.cons_append, ← h1]
        · have : q + 1 + pat.length = (q + pat.length) + 1 := by omega
          simp only [this, List.drop_succ_cons, h2]

/-- A name from which a suffix was removed, or the name itself. -/
theorem outname_cases (sig : Str) : outname sig = sig ∨
    ∃ x y suf, suf ∈ headerSufs ∧ sig = x ++ suf ++ y ∧ outname sig = x ++ y := by
  have key : ∀ sufs : List Str, (∀ s ∈ sufs, s ∈ headerSufs) → outnameFrom sig sufs = sig ∨
      ∃ x y suf, suf ∈ headerSufs ∧ sig = x ++ suf ++ y ∧ outnameFrom sig sufs = x ++ y := by
    intro sufs
    induction sufs with
    | nil => intro _; exact .inl rfl
    | cons suf sufs ih =>
      intro hs
      cases hf : find suf sig with
      | none =>
        rw [outnameFrom, hf]
        exact ih (fun s h => hs s (List.mem_cons_of_mem _ h))
      | some p =>
        obtain ⟨y, h1, h2⟩ := find_some hf
        refine .inr ⟨sig.take p, y, suf, hs suf (List.mem_cons_self ..), h1, ?_⟩
        rw [outnameFrom, hf]
        simp only [h2]
  exact key headerSufs (fun _ h => h)

theorem php_word : ∀ (n : Nat) (y : Str), y.length ≤ n → ([46, 104, 112, 112] ++ y : Str) ≠ y ++ [46, 112, 104, 112]
  | n, y, hn => by
    intro h
    match y, hn, h with
    | [], _, h => exact absurd h (by decide)
    | [a], _, h => simp at h
    | [a, b], _, h => simp at h
    | [a, b, c], _, h => simp at h
    | a :: b :: c :: d :: y, hn, h =>
      simp only [List.cons_append, List.nil_append, List.cons.injEq] at h
      obtain ⟨rfl, rfl, rfl, rfl, h⟩ := h
      cases n with
      | zero => simp at hn
      | succ n => exact php_word n y (by simp at hn; omega) h

theorem php_not_sig (sig : Str) : outname sig ++ [46, 112, 104, 112] ≠ sig := by
  intro h
  rcases outname_cases sig with e | ⟨x, y, suf, hs, e1, e2⟩
  · rw [e] at h
    have := congrArg List.length h
    simp at this
  · rw [e2] at h
    have hl := congrArg List.length (h.trans e1)
    simp only [headerSufs, List.mem_cons, List.not_mem_nil, or_false] at hs
    have h' := h.trans e1
    rcases hs with rfl | rfl | rfl
    · rw [List.append_assoc, List.append_assoc] at h'
      exact php_word _ y (Nat.le_refl _) (List.append_cancel_left h').symm
    · rw [List.append_assoc, List.append_assoc] at h'
      have := (List.append_cancel_left h').symm
      have hc := congrArg (List.count 120) this
      simp [List.count_append] at hc
      omega
    · simp at hl

theorem length_capital (s : Str) : (capital s).length = s.length := by cases s <;> rfl

theorem hs_not_sig (sig : Str) : capital (outname sig) ++ [46, 104, 115] ≠ sig := by
  intro h
  have hl := congrArg List.length h
  rw [List.length_append, length_capital] at hl
  rcases outname_cases sig with e | ⟨x, y, suf, hs, e1, e2⟩
  · rw [e] at hl
    simp at hl
  · rw [e2] at hl
    have h1 := congrArg List.length e1
    simp only [headerSufs, List.mem_cons, List.not_mem_nil, or_false] at hs
    rcases hs with rfl | rfl | rfl <;> (simp at hl h1; omega)

/-! ### The whole command -/

theorem run_ready {E : Env} {T : Texts} {lang : Str} {opts : List Str} {sig : Str} {names : List Str} {fs : Files}
    (h : Ready E T lang opts sig names fs) :
    ∃ g fs1, 46 ∉ g ∧ AssocMap.find fs g = none ∧ (∀ n, n ≠ g → AssocMap.find fs1 n = AssocMap.find fs n) ∧
      run E ((45 :: 45 :: lang) :: opts ++ [sig]) fs = (match generator T lang sig names fs1 with
        | .error f => .error f
        | .ok (fs2, _, msgs, good) => .ok ⟨0, if good then msgs else msgs ++ [.generateFailed], AssocMap.erase fs2 g⟩) := by
  obtain ⟨p1, p2, p3, p4, p5, q1, q2, hi, b1, b2⟩ := h.inst
  obtain ⟨f1, f2, f3, f4, f5⟩ := hi.plain
  have hw : ∀ a ∈ opts, Word a := fun a ha => (h.optsOk a ha).1
  obtain ⟨g1, fs1, d1, n1, s1, r1⟩ := evalCpp_builds h.tempOk hw b1
  have same : Same fs (AssocMap.erase fs1 g1) := fun n => by
    rw [AssocMap.find_erase]
    by_cases e : n = g1
    · rw [if_pos e, e, n1]
    · rw [if_neg e, s1 n e]
  obtain ⟨g, fs2, d2, n2, s2, r2⟩ := evalCpp_builds (temp_same same h.tempOk) hw (builds_same same b2)
  refine ⟨g, fs2, d2, by rw [← same g]; exact n2, fun n hn => by rw [s2 n hn, same n], ?_⟩
  have hp := parse_usual lang sig opts (fun a ha => (h.optsOk a ha).2) h.sigOk.1
  have hx : replace E.extr sigMark sig = q1 ++ sig ++ q2 := by
    rw [hi.extr]
    exact replace_plain [83, 73, 71, 70, 73, 76, 69, 62, 62, 62] sig q2 q1 f5
  have hf := fill_eq (p5 := p5) names f1 f2 f3 f4 h.sigOk.2 h.langOk.2
  rw [← hi.tmpl] at hf
  have hlen : ¬ ((45 :: 45 :: lang) :: opts ++ [sig] : List Str).length < 2 := by simp
  simp only [extractor, if_true] at r1
  rw [run, if_neg hlen, hp]
  simp only [h.langOk.1, if_false, options_usual, hx, r1, words_names names h.namesOk, hf, r2]
  rcases generator T lang sig names fs2 with f | ⟨fs3, out, msgs, good⟩
  · rfl
  · cases good <;> rfl

end Verif.Genrpc.Lemmas
