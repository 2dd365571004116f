import Verif.Genrpc.Lemmas
/-! Properties of the command `genrpc`. -/
namespace Verif.Genrpc.Props
open Verif.Genrpc Verif.Genrpc.Spec Verif.Genrpc.Lemmas

/-! ### A situation for the examples

A header `foo.h` with one interface `calc`, short template files, and a compiler that knows the two programs. -/

/-- `foo.h`, `calc`, and the option `-I.`. -/
def foo : Str := [102, 111, 111, 46, 104]
def face : Str := [99, 97, 108, 99]
def inc : Str := [45, 73, 46]

/-- Names of temporary files: the beginning and `aaaaaa` or `aaaaab`. -/
def demoFresh (p : Str) (fs : Files) : Option Str :=
  if AssocMap.find fs (p ++ [97, 97, 97, 97, 97, 97]) = none then some (p ++ [97, 97, 97, 97, 97, 97]) else some (p ++ [97, 97, 97, 97, 97, 98])

def demoTexts : Texts := ⟨[80], [72], fun _ => true⟩

/-- The sources that are expected for a language. -/
def demoExtr (sig : Str) : Str := [35] ++ sig ++ [36]
def demoTmpl (sig lang : Str) (names : List Str) : Str := [35] ++ sig ++ [36] ++ sig ++ [37] ++ lang ++ [38] ++ adds names ++ [39]

def demoGxx (T : Texts) (sig lang : Str) (names : List Str) (ws : List Str) (fs : Files) : Files × Option Exe :=
  match AssocMap.find fs (ws.getD 2 []) with
  | none => (fs, none)
  | some src =>
    if src = demoExtr sig then (AssocMap.upsert fs (ws.getLastD []) [1], some (extractor names))
    else if src = demoTmpl sig lang names then (AssocMap.upsert fs (ws.getLastD []) [2], some (generator T lang sig names))
    else (fs, none)

def demo (T : Texts) (sig lang : Str) (names : List Str) : Env :=
  ⟨demoFresh, demoGxx T sig lang names, [35] ++ sigMark ++ [36] ++ baseMark ++ [37] ++ langMark ++ [38] ++ addMark ++ [39],
    [35] ++ sigMark ++ [36]⟩

theorem demo_temp (T : Texts) (sig lang : Str) (names : List Str) (fs : Files) (h : ∀ n, AssocMap.find fs n ≠ none → n.length < 6) :
    TempOk (demo T sig lang names) fs := by
  intro p t fs' hs
  have no : ∀ x : Str, x.length = 6 → AssocMap.find fs (p ++ x) = none := fun x hx => by
    cases hf : AssocMap.find fs (p ++ x) with
    | none => rfl
    | some v =>
      have := h (p ++ x) (by rw [hf]; simp)
      rw [List.length_append, hx] at this
      omega
  by_cases ha : AssocMap.find fs' (p ++ [97, 97, 97, 97, 97, 97]) = none
  · exact ⟨_, if_pos ha, ha, _, rfl, rfl, by decide⟩
  · refine ⟨_, if_neg ha, ?_, _, rfl, rfl, by decide⟩
    have ht : p ++ [97, 97, 97, 97, 97, 97] = t := by
      by_cases e : p ++ [97, 97, 97, 97, 97, 97] = t
      · exact e
      · exact absurd ((hs _ e).trans (no _ rfl)) ha
    rw [hs _ (fun e => ?_), no _ rfl]
    rw [← ht] at e
    exact absurd (List.append_cancel_left e) (by decide)

theorem demo_ready (T : Texts) (sig lang : Str) (opts names : List Str) (fs : Files) (h1 : ∀ n, AssocMap.find fs n ≠ none → n.length < 6)
    (h2 : Opts opts) (h3 : ¬ Dashes sig ∧ Plain sig) (h4 : lang ≠ [] ∧ Plain lang) (h5 : Names names)
    (h6 : demoTmpl sig lang names ≠ demoExtr sig) : Ready (demo T sig lang names) T lang opts sig names fs := by
  have last (t g : Str) : (cxxArgs t opts g).getLastD [] = g := by
    rw [List.getLastD_eq_getLast?, cxxArgs, List.getLast?_append_of_ne_nil _ (by simp)]; rfl
  have third (t g : Str) : (cxxArgs t opts g).getD 2 [] = t := rfl
  have one (c : UInt8) (hc : c ≠ 60) : Plain [c] := ⟨fun ⟨a, b, h⟩ => by have := congrArg List.length h; simp at this; omega, by simpa using hc⟩
  refine ⟨h2, h3, h4, h5, demo_temp T sig lang names fs h1, [35], [36], [37], [38], [39], [35], [36],
    ⟨rfl, rfl, one _ (by decide), one _ (by decide), one _ (by decide), one _ (by decide), one _ (by decide)⟩, ?_, ?_⟩
  · intro t g fs' _ ht _
    refine ⟨[1], ?_⟩
    simp only [demo, demoGxx, third, ht, last]
    rw [if_pos (by rfl)]
  · intro t g fs' _ ht _
    refine ⟨[2], ?_⟩
    simp only [demo, demoGxx, third, ht, last]
    have e : [35] ++ sig ++ [36] ++ sig ++ [37] ++ lang ++ [38] ++ adds names ++ [39] = demoTmpl sig lang names := rfl
    rw [e, if_neg h6, if_pos rfl]

theorem one_file (n c : Str) (h : n.length < 6) : ∀ m, AssocMap.find [(n, c)] m ≠ none → m.length < 6 := by
  intro m hm
  by_cases e : n = m
  · rw [← e]; exact h
  · simp [AssocMap.find, e] at hm

/-! ### The arguments -/

/-- In the usual form of the command the language, the signature and the options are those given. -/
theorem arguments (lang sig : Str) (opts : List Str) (ho : Opts opts) (hs : ¬ Dashes sig) :
    parse ((45 :: 45 :: lang) :: opts ++ [sig]) = (sig, lang) ∧ words isBlank (options ((45 :: 45 :: lang) :: opts ++ [sig]) ++ [32]) = opts := by
  refine ⟨parse_usual lang sig opts (fun a ha => (ho a ha).2) hs, ?_⟩
  rw [options_usual, words_opts [] opts (fun a ha => (ho a ha).1)]
  exact List.append_nil _

example : parse [45 :: 45 :: phpLang, inc, foo] = (foo, phpLang) ∧ words isBlank (options [45 :: 45 :: phpLang, inc, foo] ++ [32]) = [inc] :=
  arguments phpLang foo [inc] (fun a ha => by
    rw [List.mem_singleton.1 ha]
    exact ⟨⟨by decide, by decide⟩, fun ⟨l, h⟩ => by simp [inc] at h⟩) (fun ⟨l, h⟩ => by simp [foo] at h)

/-- The language is the last argument that begins with `--`, so a compiler option of that form takes its place. -/
theorem last_language (a b : List Str) (l : Str) (hb : ∀ x ∈ b, ¬ Dashes x) : (parse (a ++ (45 :: 45 :: l) :: b)).2 = l := by
  rw [parse, List.foldl_append, List.foldl_cons, argument_dashes, foldl_others b _ hb]

/-- `genrpc --php --std=c++98 foo.h` asks for the language `std=c++98`. -/
example : (parse [45 :: 45 :: phpLang, [45, 45, 115, 116, 100, 61, 99, 43, 43, 57, 56], foo]).2 = [115, 116, 100, 61, 99, 43, 43, 57, 56] := by decide

/-- The signature is the last argument that does not begin with `--`, so an option behind it takes its place. -/
theorem last_signature (a b : List Str) (x : Str) (hx : ¬ Dashes x) (hb : ∀ y ∈ b, Dashes y) : (parse (a ++ x :: b)).1 = x := by
  rw [parse, List.foldl_append, List.foldl_cons, argument_other _ hx, foldl_dashes b _ hb]

/-- `genrpc --php foo.h -I.` takes `-I.` for the signature. -/
example : (parse [45 :: 45 :: phpLang, foo, inc]).1 = inc := by decide

/-- The options are all arguments but the first and the last, whatever these are: with the language in the middle the first option is lost and
the compiler is given the language. -/
theorem options_by_position (a z : Str) (mid : List Str) (h : ∀ x ∈ mid, Word x) : words isBlank (options (a :: mid ++ [z]) ++ [32]) = mid := by
  rw [options_usual, words_opts [] mid h]
  exact List.append_nil _

example : words isBlank (options [inc, 45 :: 45 :: phpLang, foo] ++ [32]) = [45 :: 45 :: phpLang] ∧
    parse [inc, 45 :: 45 :: phpLang, foo] = (foo, phpLang) := by decide

/-- Only a missing language is reported by the exit status. -/
theorem status (E : Env) (args : List Str) (fs : Files) (r : Result) (h : run E args fs = .ok r) :
    r.status = 0 ∨ (r.status = 1 ∧ r.msgs = [.noLanguage] ∧ r.files = fs ∧ (parse args).2 = []) := by
  unfold run at h
  split at h
  · cases h; exact .inl rfl
  · dsimp only at h
    split at h
    · next hl => cases h; exact .inr ⟨rfl, rfl, rfl, hl⟩
    · split at h
      · cases h
      · cases h; exact .inl rfl
      · split at h
        · cases h
        · cases h; exact .inl rfl
        · cases h; exact .inl rfl

example (E : Env) (fs : Files) : run E [[45, 73], foo] fs = .ok ⟨1, [.noLanguage], fs⟩ := rfl

/-! ### What is generated -/

theorem find_infos_php : infos.find? (fun e => e.1 = phpLang) = some (phpLang, .php) := by decide
theorem find_infos_hs : infos.find? (fun e => e.1 = hsLang) = some (hsLang, .haskell) := by decide

theorem written {fs fs1 : Files} {T : Texts} {g out text : Str} (hd : 46 ∉ g) (hg : AssocMap.find fs g = none)
    (hs : ∀ n, n ≠ g → AssocMap.find fs1 n = AssocMap.find fs n) (ho : 46 ∈ out) :
    (T.canWrite out = true → Only fs (AssocMap.erase (write T fs1 out text) g) out (some text)) ∧
      (T.canWrite out = false → Same fs (AssocMap.erase (write T fs1 out text) g)) := by
  have ne : out ≠ g := fun e => hd (e ▸ ho)
  constructor
  · intro hc n
    rw [write, if_pos hc, AssocMap.find_erase, AssocMap.find_upsert]
    by_cases h : n = g
    · subst h; rw [if_pos rfl, if_neg (Ne.symm ne), hg]
    · rw [if_neg h, hs n h]
  · intro hc n
    rw [write, if_neg (by rw [hc]; decide), AssocMap.find_erase]
    by_cases h : n = g
    · subst h; rw [if_pos rfl, hg]
    · rw [if_neg h, hs n h]

/-- For PHP the file `stem.php` is written and nothing else changes: the temporary files are gone. Missing: signatures in whose names something
looks like the suffix of a header (`suffix_anywhere`) and places where nothing can be written (`php_not_written`). -/
theorem generates_php_partial (E : Env) (T : Texts) (opts : List Str) (sig stem : Str) (names : List Str) (fs : Files)
    (h : Ready E T phpLang opts sig names fs) (hs : Stem sig stem) (hw : T.canWrite (stem ++ [46, 112, 104, 112]) = true) :
    ∃ r, run E ((45 :: 45 :: phpLang) :: opts ++ [sig]) fs = .ok r ∧ r.status = 0 ∧ r.msgs = [] ∧
      Only fs r.files (stem ++ [46, 112, 104, 112]) (some T.php) := by
  obtain ⟨g, fs1, hd, hg, h1, hr⟩ := run_ready h
  have hgen : generator T phpLang sig names fs1 = .ok (write T fs1 (stem ++ [46, 112, 104, 112]) T.php, [], [], true) := by
    rw [generator, find_infos_php, outname_stem hs]
  rw [hgen] at hr
  exact ⟨_, hr, rfl, rfl, (written hd hg h1 (by simp)).1 hw⟩

theorem foo_ok : ¬ Dashes foo ∧ Plain foo :=
  ⟨fun ⟨l, h⟩ => by simp [foo] at h, not_infix (by decide) (by decide), by decide⟩

theorem php_ok : phpLang ≠ [] ∧ Plain phpLang := ⟨by decide, not_infix (by decide) (by decide), by decide⟩
theorem hs_ok : hsLang ≠ [] ∧ Plain hsLang := ⟨by decide, not_infix (by decide) (by decide), by decide⟩

theorem foo_stem : Stem foo [102, 111, 111] := ⟨.inr (.inr rfl), not_infix (by decide) (by decide)⟩

theorem no_opts : Opts [] := fun _ h => by cases h

theorem face_ok : Names [face] := fun n hn => by
  rw [List.mem_singleton.1 hn]; exact ⟨by decide, by decide⟩

example : ∃ r, run (demo demoTexts foo phpLang [face]) [45 :: 45 :: phpLang, foo] [(foo, [1])] = .ok r ∧ r.status = 0 ∧ r.msgs = [] ∧
    Only [(foo, [1])] r.files [102, 111, 111, 46, 112, 104, 112] (some [80]) :=
  generates_php_partial (demo demoTexts foo phpLang [face]) demoTexts [] foo [102, 111, 111] [face] [(foo, [1])]
    (demo_ready demoTexts foo phpLang [] [face] [(foo, [1])] (one_file _ _ (by decide)) no_opts foo_ok php_ok face_ok (by decide))
    foo_stem rfl

/-- Where the file cannot be written there is no file, no message and status 0. -/
theorem php_not_written (E : Env) (T : Texts) (opts : List Str) (sig stem : Str) (names : List Str) (fs : Files)
    (h : Ready E T phpLang opts sig names fs) (hs : Stem sig stem) (hw : T.canWrite (stem ++ [46, 112, 104, 112]) = false) :
    ∃ r, run E ((45 :: 45 :: phpLang) :: opts ++ [sig]) fs = .ok r ∧ r.status = 0 ∧ r.msgs = [] ∧ Same fs r.files := by
  obtain ⟨g, fs1, hd, hg, h1, hr⟩ := run_ready h
  have hgen : generator T phpLang sig names fs1 = .ok (write T fs1 (stem ++ [46, 112, 104, 112]) T.php, [], [], true) := by
    rw [generator, find_infos_php, outname_stem hs]
  rw [hgen] at hr
  exact ⟨_, hr, rfl, rfl, (written hd hg h1 (by simp)).2 hw⟩

example : ∃ r, run (demo ⟨[80], [72], fun _ => false⟩ foo phpLang [face]) [45 :: 45 :: phpLang, foo] [(foo, [1])] = .ok r ∧ r.status = 0 ∧
    r.msgs = [] ∧ Same [(foo, [1])] r.files :=
  php_not_written (demo ⟨[80], [72], fun _ => false⟩ foo phpLang [face]) ⟨[80], [72], fun _ => false⟩ [] foo [102, 111, 111] [face] [(foo, [1])]
    (demo_ready ⟨[80], [72], fun _ => false⟩ foo phpLang [] [face] [(foo, [1])] (one_file _ _ (by decide)) no_opts foo_ok php_ok face_ok
      (by decide)) foo_stem rfl

/-- For Haskell the name of the file begins with a capital: the first character of the whole path, not that of the name of the file
(`haskell_directory`). Missing also: several interfaces, of which the first is taken, and what is missing for PHP. -/
theorem generates_hs_partial (E : Env) (T : Texts) (opts : List Str) (sig stem : Str) (names : List Str) (fs : Files)
    (h : Ready E T hsLang opts sig names fs) (hs : Stem sig stem) (hn : names ≠ []) (hw : T.canWrite (capital stem ++ [46, 104, 115]) = true) :
    ∃ r, run E ((45 :: 45 :: hsLang) :: opts ++ [sig]) fs = .ok r ∧ r.status = 0 ∧ r.msgs = [] ∧
      Only fs r.files (capital stem ++ [46, 104, 115]) (some T.hs) := by
  obtain ⟨g, fs1, hd, hg, h1, hr⟩ := run_ready h
  have hgen : generator T hsLang sig names fs1 = .ok (write T fs1 (capital stem ++ [46, 104, 115]) T.hs, [], [], true) := by
    rw [generator, find_infos_hs, outname_stem hs]
    simp only [hn, if_false]
  rw [hgen] at hr
  exact ⟨_, hr, rfl, rfl, (written hd hg h1 (by simp)).1 hw⟩

example : ∃ r, run (demo demoTexts foo hsLang [face]) [45 :: 45 :: hsLang, foo] [(foo, [1])] = .ok r ∧ r.status = 0 ∧ r.msgs = [] ∧
    Only [(foo, [1])] r.files [70, 111, 111, 46, 104, 115] (some [72]) :=
  generates_hs_partial (demo demoTexts foo hsLang [face]) demoTexts [] foo [102, 111, 111] [face] [(foo, [1])]
    (demo_ready demoTexts foo hsLang [] [face] [(foo, [1])] (one_file _ _ (by decide)) no_opts foo_ok hs_ok face_ok (by decide))
    foo_stem (by decide) rfl

/-- The file for a signature `d/x.h` whose path begins with a small letter is not put into `d`; if the other directory is not there, it is not
written and nothing is reported. -/
theorem haskell_directory (E : Env) (T : Texts) (opts : List Str) (c : UInt8) (d x : Str) (names : List Str) (fs : Files)
    (hc : 97 ≤ c ∧ c ≤ 122) (h : Ready E T hsLang opts (c :: d ++ 47 :: x ++ [46, 104]) names fs) (hx : ¬ [46, 104] <:+: c :: d ++ 47 :: x)
    (hn : names ≠ []) (hw : ∀ y, T.canWrite ((c - 32) :: d ++ 47 :: y) = false) :
    ∃ r, run E ((45 :: 45 :: hsLang) :: opts ++ [c :: d ++ 47 :: x ++ [46, 104]]) fs = .ok r ∧ r.status = 0 ∧ r.msgs = [] ∧ Same fs r.files := by
  obtain ⟨g, fs1, hd, hg, h1, hr⟩ := run_ready h
  have hs : Stem (c :: d ++ 47 :: x ++ [46, 104]) (c :: d ++ 47 :: x) := ⟨.inr (.inr rfl), hx⟩
  have hgen : generator T hsLang (c :: d ++ 47 :: x ++ [46, 104]) names fs1 =
      .ok (write T fs1 ((c - 32) :: d ++ 47 :: (x ++ [46, 104, 115])) T.hs, [], [], true) := by
    rw [generator, find_infos_hs, outname_stem hs]
    simp only [hn, if_false, List.cons_append, capital, toupper, hc, and_self, if_true, List.append_assoc]
  rw [hgen] at hr
  exact ⟨_, hr, rfl, rfl, (written hd hg h1 (by simp)).2 (hw _)⟩

/-- `a/b.h`, with a directory `a` but none that is called `A`. -/
example : ∃ r, run (demo ⟨[80], [72], fun n => n.head? = some 97⟩ [97, 47, 98, 46, 104] hsLang [face]) [45 :: 45 :: hsLang, [97, 47, 98, 46, 104]]
    [([97, 47, 98, 46, 104], [1])] = .ok r ∧ r.status = 0 ∧ r.msgs = [] ∧ Same [([97, 47, 98, 46, 104], [1])] r.files :=
  haskell_directory (demo ⟨[80], [72], fun n => n.head? = some 97⟩ [97, 47, 98, 46, 104] hsLang [face]) ⟨[80], [72], fun n => n.head? = some 97⟩ []
    97 [] [98] [face] [([97, 47, 98, 46, 104], [1])] (by decide)
    (demo_ready _ _ _ [] [face] _ (one_file _ _ (by decide)) no_opts
      ⟨fun ⟨l, h⟩ => by simp at h, not_infix (by decide) (by decide), by decide⟩ hs_ok face_ok (by decide))
    (not_infix (by decide) (by decide)) (by decide) (fun y => rfl)

/-- A suffix of a header is removed wherever it is found first: `a.hd/b.h` gives `ad/b.h`. -/
theorem suffix_anywhere : outname [97, 46, 104, 100, 47, 98, 46, 104] = [97, 100, 47, 98, 46, 104] := by decide

/-- The signature itself is never written over. -/
theorem signature_kept_partial (E : Env) (T : Texts) (lang : Str) (opts : List Str) (sig : Str) (names : List Str) (fs : Files)
    (hl : lang = phpLang ∨ lang = hsLang) (h : Ready E T lang opts sig names fs) (hf : AssocMap.find fs sig ≠ none) (r : Result)
    (hr : run E ((45 :: 45 :: lang) :: opts ++ [sig]) fs = .ok r) : AssocMap.find r.files sig = AssocMap.find fs sig := by
  obtain ⟨g, fs1, hd, hg, h1, hrun⟩ := run_ready h
  have hne : sig ≠ g := fun e => hf (e ▸ hg)
  have key : ∀ out text, out ≠ sig → AssocMap.find (AssocMap.erase (write T fs1 out text) g) sig = AssocMap.find fs sig := by
    intro out text ho
    rw [AssocMap.find_erase, if_neg hne, write]
    split
    · rw [AssocMap.find_upsert, if_neg (Ne.symm ho), h1 sig hne]
    · rw [h1 sig hne]
  rw [hr] at hrun
  rcases hl with rfl | rfl
  · have hgen : generator T phpLang sig names fs1 = .ok (write T fs1 (outname sig ++ [46, 112, 104, 112]) T.php, [], [], true) := by
      rw [generator, find_infos_php]
    rw [hgen] at hrun
    cases hrun
    exact key _ _ (php_not_sig sig)
  · by_cases hn : names = []
    · have hgen : generator T hsLang sig names fs1 = .error .noInterface := by
        rw [generator, find_infos_hs]
        simp only [hn, if_true]
      rw [hgen] at hrun
      cases hrun
    · have hgen : generator T hsLang sig names fs1 = .ok (write T fs1 (capital (outname sig) ++ [46, 104, 115]) T.hs, [], [], true) := by
        rw [generator, find_infos_hs]
        simp only [hn, if_false]
      rw [hgen] at hrun
      cases hrun
      exact key _ _ (hs_not_sig sig)

example (r : Result) (hr : run (demo demoTexts foo hsLang [face]) [45 :: 45 :: hsLang, foo] [(foo, [1])] = .ok r) :
    AssocMap.find r.files foo = some [1] :=
  signature_kept_partial _ demoTexts hsLang [] foo [face] [(foo, [1])] (.inr rfl)
    (demo_ready demoTexts foo hsLang [] [face] [(foo, [1])] (one_file _ _ (by decide)) no_opts foo_ok hs_ok face_ok (by decide))
    (by decide) r hr

/-- The languages that are listed but have no generator: ocaml, java, ruby, python, perl. -/
def listed : List Str := [[111, 99, 97, 109, 108], [106, 97, 118, 97], [114, 117, 98, 121], [112, 121, 116, 104, 111, 110], [112, 101, 114, 108]]

theorem null_ready {E : Env} {T : Texts} {lang : Str} {opts : List Str} {sig : Str} {names : List Str} {fs : Files}
    (hl : lang ∈ listed) (h : Ready E T lang opts sig names fs) :
    ∃ r, run E ((45 :: 45 :: lang) :: opts ++ [sig]) fs = .ok r ∧ r.status = 0 ∧ r.msgs = [.notImplemented] ∧
      Only fs r.files (outname sig) none := by
  obtain ⟨g, fs1, hd, hg, h1, hr⟩ := run_ready h
  have hgen : generator T lang sig names fs1 = .ok (AssocMap.erase fs1 (outname sig), [], [.notImplemented], true) := by
    have : infos.find? (fun e => e.1 = lang) = some (lang, .null) := by
      simp only [listed, List.mem_cons, List.not_mem_nil, or_false] at hl
      rcases hl with rfl | rfl | rfl | rfl | rfl <;> decide
    rw [generator, this]
  rw [hgen] at hr
  refine ⟨_, hr, rfl, rfl, fun n => ?_⟩
  simp only
  rw [AssocMap.find_erase, AssocMap.find_erase]
  by_cases e : n = g
  · subst e; simp [hg]
  · simp [e, h1 n e]

/-- For these the file that has the name of the signature without its suffix is deleted: a program `foo`, for `foo.h`. -/
theorem deletes_program (E : Env) (T : Texts) (lang : Str) (opts : List Str) (sig stem : Str) (names : List Str) (fs : Files)
    (hl : lang ∈ listed) (h : Ready E T lang opts sig names fs) (hs : Stem sig stem) :
    ∃ r, run E ((45 :: 45 :: lang) :: opts ++ [sig]) fs = .ok r ∧ r.status = 0 ∧ r.msgs = [.notImplemented] ∧ Only fs r.files stem none := by
  have := null_ready hl h
  rwa [outname_stem hs] at this

/-- `java`. -/
def java : Str := [106, 97, 118, 97]

theorem java_ok : java ≠ [] ∧ Plain java := ⟨by decide, not_infix (by decide) (by decide), by decide⟩

example : ∃ r, run (demo demoTexts foo java [face]) [45 :: 45 :: java, foo] [([102, 111, 111], [7])] = .ok r ∧ r.status = 0 ∧
    r.msgs = [.notImplemented] ∧ Only [([102, 111, 111], [7])] r.files [102, 111, 111] none :=
  deletes_program _ demoTexts java [] foo [102, 111, 111] [face] [([102, 111, 111], [7])] (by decide)
    (demo_ready demoTexts foo java [] [face] _ (one_file _ _ (by decide)) no_opts foo_ok java_ok face_ok (by decide)) foo_stem

/-- A signature without `.h` in its name is deleted itself. -/
theorem deletes_signature (E : Env) (T : Texts) (lang : Str) (opts : List Str) (sig : Str) (names : List Str) (fs : Files)
    (hl : lang ∈ listed) (h : Ready E T lang opts sig names fs) (hs : ¬ [46, 104] <:+: sig) :
    ∃ r, run E ((45 :: 45 :: lang) :: opts ++ [sig]) fs = .ok r ∧ r.status = 0 ∧ r.msgs = [.notImplemented] ∧ Only fs r.files sig none := by
  have := null_ready hl h
  rwa [outname_none hs] at this

example : ∃ r, run (demo demoTexts [102, 111, 111] java [face]) [45 :: 45 :: java, [102, 111, 111]] [([102, 111, 111], [7])] = .ok r ∧
    r.status = 0 ∧ r.msgs = [.notImplemented] ∧ Only [([102, 111, 111], [7])] r.files [102, 111, 111] none :=
  deletes_signature _ demoTexts java [] [102, 111, 111] [face] [([102, 111, 111], [7])] (by decide)
    (demo_ready demoTexts [102, 111, 111] java [] [face] _ (one_file _ _ (by decide)) no_opts
      ⟨fun ⟨l, h⟩ => by simp at h, not_infix (by decide) (by decide), by decide⟩ java_ok face_ok (by decide))
    (not_infix (by decide) (by decide))

/-- Any other language is refused and nothing changes, with status 0. -/
theorem unsupported (E : Env) (T : Texts) (lang : Str) (opts : List Str) (sig : Str) (names : List Str) (fs : Files)
    (h1 : lang ≠ phpLang) (h2 : lang ≠ hsLang) (h3 : lang ∉ listed) (h : Ready E T lang opts sig names fs) :
    ∃ r, run E ((45 :: 45 :: lang) :: opts ++ [sig]) fs = .ok r ∧ r.status = 0 ∧ r.msgs = [.notSupported lang] ∧ Same fs r.files := by
  obtain ⟨g, fs1, hd, hg, hs, hr⟩ := run_ready h
  have hgen : generator T lang sig names fs1 = .ok (fs1, [], [.notSupported lang], true) := by
    have : infos.find? (fun e => e.1 = lang) = none := by
      rw [List.find?_eq_none]
      intro e he heq
      have heq : e.1 = lang := by simpa using heq
      subst heq
      have key : ∀ e ∈ infos, e.1 = phpLang ∨ e.1 = hsLang ∨ e.1 ∈ listed := by decide
      rcases key e he with h | h | h
      · exact h1 h
      · exact h2 h
      · exact h3 h
    rw [generator, this]
  rw [hgen] at hr
  refine ⟨_, hr, rfl, rfl, fun n => ?_⟩
  rw [AssocMap.find_erase]
  by_cases e : n = g
  · subst e; rw [if_pos rfl, hg]
  · rw [if_neg e, hs n e]

example : ∃ r, run (demo demoTexts foo [99] [face]) [[45, 45, 99], foo] [(foo, [1])] = .ok r ∧ r.status = 0 ∧
    r.msgs = [.notSupported [99]] ∧ Same [(foo, [1])] r.files :=
  unsupported _ demoTexts [99] [] foo [face] [(foo, [1])] (by decide) (by decide) (by decide)
    (demo_ready demoTexts foo [99] [] [face] _ (one_file _ _ (by decide)) no_opts foo_ok
      ⟨by decide, not_infix (by decide) (by decide), by decide⟩ face_ok (by decide))

/-- A signature without interfaces is undefined for Haskell. -/
theorem no_interface (E : Env) (T : Texts) (opts : List Str) (sig : Str) (fs : Files) (h : Ready E T hsLang opts sig [] fs) :
    run E ((45 :: 45 :: hsLang) :: opts ++ [sig]) fs = .error .noInterface := by
  obtain ⟨g, fs1, hd, hg, hs, hr⟩ := run_ready h
  have hgen : generator T hsLang sig [] fs1 = .error .noInterface := by
    rw [generator, find_infos_hs]; rfl
  rw [hr, hgen]

example : run (demo demoTexts foo hsLang []) [45 :: 45 :: hsLang, foo] [(foo, [1])] = .error .noInterface :=
  no_interface _ demoTexts [] foo [(foo, [1])]
    (demo_ready demoTexts foo hsLang [] [] _ (one_file _ _ (by decide)) no_opts foo_ok hs_ok (fun _ h => by cases h) (by decide))

/-! ### Failures -/

/-- If the signature does not compile this is said, the status is 0, and an empty temporary file stays in the directory. -/
theorem compile_error (E : Env) (lang : Str) (opts : List Str) (sig : Str) (fs : Files) (q1 q2 : Str) (ho : Opts opts) (hs : ¬ Dashes sig)
    (hl : lang ≠ []) (ht : TempOk E fs) (he : E.extr = q1 ++ sigMark ++ q2) (hq : Plain q1) (hc : Refuses E opts fs (q1 ++ sig ++ q2)) :
    ∃ r g, run E ((45 :: 45 :: lang) :: opts ++ [sig]) fs = .ok r ∧ r.status = 0 ∧ r.msgs = [.extractFailed] ∧ Temp exePrefix fs g ∧
      Only fs r.files g (some []) := by
  obtain ⟨g, fs1, hg, h1, hr⟩ := evalCpp_refuses ht (fun a ha => (ho a ha).1) hc
  have hp := parse_usual lang sig opts (fun a ha => (ho a ha).2) hs
  have hx : replace E.extr sigMark sig = q1 ++ sig ++ q2 := by
    rw [he]
    exact replace_plain [83, 73, 71, 70, 73, 76, 69, 62, 62, 62] sig q2 q1 hq
  have hlen : ¬ ((45 :: 45 :: lang) :: opts ++ [sig] : List Str).length < 2 := by simp
  refine ⟨⟨0, [.extractFailed], fs1⟩, g, ?_, rfl, rfl, hg, h1⟩
  rw [run, if_neg hlen, hp]
  simp only [hl, if_false, options_usual, hx, hr]
  rfl

example : ∃ r g, run (demo demoTexts foo phpLang [face]) [45 :: 45 :: phpLang, [120]] [(foo, [1])] = .ok r ∧ r.status = 0 ∧
    r.msgs = [.extractFailed] ∧ Temp exePrefix [(foo, [1])] g ∧ Only [(foo, [1])] r.files g (some []) :=
  compile_error (demo demoTexts foo phpLang [face]) phpLang [] [120] [(foo, [1])] [35] [36] no_opts (fun ⟨l, h⟩ => by simp at h) (by decide)
    (demo_temp demoTexts foo phpLang [face] _ (one_file _ _ (by decide))) rfl
    ⟨not_infix (by decide) (by decide), by decide⟩
    (fun t g fs' _ ht _ => by
      have third : (cxxArgs t [] g).getD 2 [] = t := rfl
      simp only [demo, demoGxx, third, ht]
      rw [if_neg (by decide), if_neg (by decide)])

/-- If only the generator does not compile the same file is left. -/
theorem generator_error (E : Env) (lang : Str) (opts : List Str) (sig : Str) (names : List Str) (fs : Files)
    (p1 p2 p3 p4 p5 q1 q2 : Str) (ho : Opts opts) (hs : ¬ Dashes sig ∧ Plain sig) (hl : lang ≠ [] ∧ Plain lang) (hn : Names names)
    (ht : TempOk E fs) (hi : Installed E p1 p2 p3 p4 p5 q1 q2) (hb : Builds E opts fs (q1 ++ sig ++ q2) (extractor names))
    (hc : Refuses E opts fs (p1 ++ sig ++ p2 ++ sig ++ p3 ++ lang ++ p4 ++ adds names ++ p5)) :
    ∃ r g, run E ((45 :: 45 :: lang) :: opts ++ [sig]) fs = .ok r ∧ r.status = 0 ∧ r.msgs = [.generateFailed] ∧
      AssocMap.find fs g = none ∧ Only fs r.files g (some []) := by
  obtain ⟨f1, f2, f3, f4, f5⟩ := hi.plain
  have hw : ∀ a ∈ opts, Word a := fun a ha => (ho a ha).1
  obtain ⟨g1, fs1, d1, n1, s1, r1⟩ := evalCpp_builds ht hw hb
  have same : Same fs (AssocMap.erase fs1 g1) := fun n => by
    rw [AssocMap.find_erase]
    by_cases e : n = g1
    · rw [if_pos e, e, n1]
    · rw [if_neg e, s1 n e]
  obtain ⟨g, fs2, hg, o2, r2⟩ := evalCpp_refuses (temp_same same ht) hw (refuses_same same hc)
  have hp := parse_usual lang sig opts (fun a ha => (ho a ha).2) hs.1
  have hx : replace E.extr sigMark sig = q1 ++ sig ++ q2 := by
    rw [hi.extr]
    exact replace_plain [83, 73, 71, 70, 73, 76, 69, 62, 62, 62] sig q2 q1 f5
  have hf := fill_eq (p5 := p5) names f1 f2 f3 f4 hs.2 hl.2
  rw [← hi.tmpl] at hf
  have hlen : ¬ ((45 :: 45 :: lang) :: opts ++ [sig] : List Str).length < 2 := by simp
  simp only [extractor, if_true] at r1
  refine ⟨⟨0, [.generateFailed], fs2⟩, g, ?_, rfl, rfl, by rw [← same g]; exact hg.1, fun n => by rw [o2 n, same n]⟩
  rw [run, if_neg hlen, hp]
  simp only [hl.1, if_false, options_usual, hx, r1, words_names names hn, hf, r2]
  rfl

example : ∃ r g, run (demo demoTexts foo phpLang [face]) [[45, 45, 99], foo] [(foo, [1])] = .ok r ∧ r.status = 0 ∧ r.msgs = [.generateFailed] ∧
    AssocMap.find ([(foo, [1])] : Files) g = none ∧ Only [(foo, [1])] r.files g (some []) :=
  generator_error _ [99] [] foo [face] [(foo, [1])] [35] [36] [37] [38] [39] [35] [36] no_opts foo_ok
    ⟨by decide, not_infix (by decide) (by decide), by decide⟩ face_ok (demo_temp demoTexts foo phpLang [face] _ (one_file _ _ (by decide)))
    ⟨rfl, rfl, by
      refine ⟨⟨?_, by decide⟩, ⟨?_, by decide⟩, ⟨?_, by decide⟩, ⟨?_, by decide⟩, ⟨?_, by decide⟩⟩ <;> exact not_infix (by decide) (by decide)⟩
    (fun t g fs' _ ht _ => ⟨[1], by
      have third : (cxxArgs t [] g).getD 2 [] = t := rfl
      have last : (cxxArgs t [] g).getLastD [] = g := by simp [cxxArgs]
      simp only [demo, demoGxx, third, ht, last]
      rw [if_pos (by rfl)]⟩)
    (fun t g fs' _ ht _ => by
      have third : (cxxArgs t [] g).getD 2 [] = t := rfl
      simp only [demo, demoGxx, third, ht]
      rw [if_neg (by decide), if_neg (by decide)])

/-- In a directory where no files can be made the command writes through a null pointer. -/
theorem unwritable_undefined (E : Env) (args : List Str) (fs : Files) (h1 : 2 ≤ args.length) (h2 : (parse args).2 ≠ [])
    (h : E.fresh tmpPrefix fs = none) : run E args fs = .error .nullStream := by
  rw [run, if_neg (by omega)]
  simp only [h2, if_false, evalCpp, h]

example : run ⟨fun _ _ => none, fun _ fs => (fs, none), [], []⟩ [45 :: 45 :: phpLang, foo] [] = .error .nullStream :=
  unwritable_undefined _ _ _ (by decide) (by decide) rfl

/-- An option with a character that means something to the shell is not passed as it is. -/
theorem shell_interprets (E : Env) (lang : Str) (opts : List Str) (sig o : Str) (c : UInt8) (fs : Files) (t : Str)
    (hl : (parse ((45 :: 45 :: lang) :: opts ++ [sig])).2 ≠ [])
    (hf : E.fresh tmpPrefix fs = some t) (ho : o ∈ opts) (hc : c ∈ o) (hs : c ∈ special) :
    run E ((45 :: 45 :: lang) :: opts ++ [sig]) fs = .error .shell := by
  have key : ∀ t g, shell (command t (opts.flatMap (fun a => 32 :: a)) g) = .error .shell := by
    intro t g
    rw [shell, if_pos]
    rw [List.any_eq_true]
    refine ⟨c, ?_, by simpa using hs⟩
    simp only [command, List.mem_append, List.mem_cons, List.mem_flatMap]
    exact .inl (.inl (.inr (.inr ⟨o, ho, .inr hc⟩)))
  have hlen : ¬ ((45 :: 45 :: lang) :: opts ++ [sig] : List Str).length < 2 := by simp
  rw [run, if_neg hlen]
  simp only [hl, if_false, options_usual, evalCpp, hf, key]

/-- `-D(`. -/
example : run (demo demoTexts foo phpLang [face]) [45 :: 45 :: phpLang, [45, 68, 40], foo] [] = .error .shell :=
  shell_interprets (demo demoTexts foo phpLang [face]) phpLang [[45, 68, 40]] foo [45, 68, 40] 40 [] _ (by decide) rfl (by decide) (by decide)
    (by decide)

/-- An option with a blank becomes two. -/
theorem option_split (a b : Str) (ha : Word a) (hb : Word b) : words isBlank (options [[45, 45, 112], a ++ 32 :: b, [102]] ++ [32]) = [a, b] := by
  have := words_opts [] [a, b] (by simp [ha, hb])
  have e : words isBlank [] = [] := rfl
  simpa [options, e] using this

example : words isBlank (options [[45, 45, 112], [45, 73, 109, 121, 32, 100, 105, 114], [102]] ++ [32]) = [[45, 73, 109, 121], [100, 105, 114]] :=
  option_split [45, 73, 109, 121] [100, 105, 114] ⟨by decide, by decide⟩ ⟨by decide, by decide⟩

/-- The marks that a template contains and the beginnings of the names of temporary files, as text. -/
theorem marks : [sigMark, baseMark, langMark, addMark, tmpPrefix, exePrefix] =
    ["<<<SIGFILE>>>", "<<<BASENAME>>>", "<<<LANG>>>", "<<<ADDREFLECTS>>>", "genrpctmp", "genrpcexe"].map (·.toUTF8.toList) := by decide +kernel

/-- The characters that mean something to the shell, besides blanks. -/
theorem special_text : ∀ c, c ∈ special ↔ c ∈ "\n!\"#$&'()*;<>?[\\`{|}~".toUTF8.toList := by
  intro c
  rw [show "\n!\"#$&'()*;<>?[\\`{|}~".toUTF8.toList = special by decide +kernel]

end Verif.Genrpc.Props
