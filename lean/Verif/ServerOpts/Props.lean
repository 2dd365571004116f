import Verif.ServerOpts.Lemmas
/-! C84: the web server starts as its command line says. -/
namespace Verif.ServerOpts.Props
open Verif.Sysstat (Str ascii ato)
open Verif Verif.ServerOpts Verif.ServerOpts.Spec Verif.ServerOpts.Lemmas

/-- C84: for every command line of settings that can be used, however they are written, the server listens with the last value of each, or with its default. -/
theorem listens (ss : List Setting) (args : List Str) (h : Line ss args) (hv : ∀ s ∈ ss, s.Valid) : start args = .listen (conf ss) := by
  unfold start
  rw [getopt_line ss args h _ (Nat.le_refl _)]
  have := handle_valid ss [] hv {}
  rw [List.append_nil] at this
  rw [this]
  rfl

/-- C84: a setting that cannot be used, or that asks for help, ends the program before it listens. A part: numbers of 2³¹ and more are undefined (`number_undefined`). -/
theorem refused_partial (good more : List Setting) (s : Setting) (args : List Str) (h : Line (good ++ s :: more) args) (hv : ∀ s ∈ good, s.Valid) (hr : s.Refused) :
    start args = .exit 0 := by
  unfold start
  rw [getopt_line _ args h _ (Nat.le_refl _), List.map_append, handle_valid good _ hv, List.map_cons, handle_refused s _ hr]

/-- C84: whatever the words are, the server never listens with a port or a number of threads out of range. -/
theorem in_range (args : List Str) (c : Conf) (h : start args = .listen c) : (1 ≤ c.port ∧ c.port ≤ 65535) ∧ 1 ≤ c.threads ∧ c.threads ≤ 1024 :=
  handle_listen _ _ c h (by decide) (by decide)

/-- C84: `run_server_or_cgi` is a server exactly if `-s` or `--server` is given, and as such takes the settings; else it shows its usage if it is asked to, and
else it is a CGI program. A part: the flags have to be written alone and in full, and no value may look like one of them (`modes_missed`). -/
theorem modes_partial (ss : List Setting) (args : List Str) (h : Plain ss args) :
    serverOrCgi args = if .server ∈ ss then .server (start args) else if .help ∈ ss then .usage else .cgi := by
  have e1 : (args.any fun a => a = ascii "-s" || a = ascii "--server") = true ↔ .server ∈ ss := by
    refine Iff.trans ?_ (plain_mode h .server rfl).symm
    simp only [List.any_eq_true, Bool.or_eq_true, decide_eq_true_iff]
    exact Iff.rfl
  have e2 : (args.any fun a => a = ascii "-h" || a = ascii "--help") = true ↔ .help ∈ ss := by
    refine Iff.trans ?_ (plain_mode h .help rfl).symm
    simp only [List.any_eq_true, Bool.or_eq_true, decide_eq_true_iff]
    exact Iff.rfl
  unfold serverOrCgi
  simp only [e1, e2]

/-- So such a server listens as its settings say. -/
theorem server_listens_partial (ss : List Setting) (args : List Str) (h : Plain ss args) (hs : .server ∈ ss) (hv : ∀ s ∈ ss, s.Valid) :
    serverOrCgi args = .server (.listen (conf ss)) := by
  rw [modes_partial ss args h, if_pos hs, listens ss args (line_of_plain h) hv]

/-! ### Threads -/

/-- C84: `run` with a socket starts as many threads as it was told, if the system lets it, and does not return while they serve; without waiting it returns at once. -/
theorem runs (creates : Nat → Bool) (n : Nat) (hn : 0 < n) (hc : ∀ i, i < n → creates i = true) (ths : List Bool) :
    run creates true ⟨true, n, ths⟩ = (.never, ⟨true, n, List.replicate n true⟩) ∧ run creates false ⟨true, n, ths⟩ = (.returns, ⟨true, n, List.replicate n true⟩) := by
  have hs := startAll_all creates n [] (fun i hi => hc i (by simpa using hi))
  have hneg : ¬ ((n : Int) < 0) := by omega
  have hany : (List.replicate n true).any id = true := by
    cases n with
    | zero => omega
    | succ n => simp [List.replicate_succ]
  rw [List.nil_append] at hs
  constructor
  · simp only [run, Bool.not_true, Bool.false_eq_true, if_false, hneg, Int.toNat_natCast, hs, if_true, join, hany]
  · simp only [run, Bool.not_true, Bool.false_eq_true, if_false, hneg, Int.toNat_natCast, hs]

/-- C84: if a thread cannot be started, `run` throws. -/
theorem start_failure (creates : Nat → Bool) (n i : Nat) (hi : i < n) (hf : creates i = false) (hb : ∀ j, j < i → creates j = true) (sync : Bool) (ths : List Bool) :
    run creates sync ⟨true, n, ths⟩ = (.startError, ⟨true, n, List.replicate i true ++ [false]⟩) := by
  have hs := startAll_fails creates n [] i hi (by simpa using hf) (fun j hj => by simpa using hb j hj)
  have hneg : ¬ ((n : Int) < 0) := by omega
  rw [List.nil_append] at hs
  simp only [run, Bool.not_true, Bool.false_eq_true, if_false, hneg, Int.toNat_natCast, hs]

/-! ### Examples -/

/-- `x -sp80 --thr=4 y -t 8 -o2.5 -- -h` -/
def sampleArgs : List Str := [ascii "x", ascii "-sp80", ascii "--thr=4", ascii "y", ascii "-t", ascii "8", ascii "-o2.5", ascii "--", ascii "-h"]

def sampleSettings : List Setting := [.server, .port 80, .threads 4, .threads 8, .timeout (ascii "2.5")]

theorem digits_80 : Decimal.digits 80 = ascii "80" := by decide +kernel
theorem digits_4 : Decimal.digits 4 = ascii "4" := by decide +kernel
theorem digits_8 : Decimal.digits 8 = ascii "8" := by decide +kernel

theorem sample_line : Line sampleSettings sampleArgs :=
  .other _ _ _ (.inl (by decide)) <|
  .flags .server 112 (ascii "80") _ _ rfl (by decide) <|
  .option (.port 80) _ _ _ (.joined (.port 80) (ascii "80") (by rw [← digits_80]; rfl) (by decide)) <|
  .option (.threads 4) _ _ _ (.longJoined (.threads 4) (ascii "thr") (ascii "4") (by rw [← digits_4]; rfl) ⟨by decide, by decide⟩) <|
  .other _ _ _ (.inl (by decide)) <|
  .option (.threads 8) [ascii "-t", ascii "8"] _ _ (.apart (.threads 8) (ascii "8") (by rw [← digits_8]; rfl)) <|
  .option (.timeout (ascii "2.5")) _ _ _ (.joined _ _ rfl (by decide)) <|
  .stop [ascii "-h"]

theorem sample_valid : ∀ s ∈ sampleSettings, s.Valid := by
  intro s hs
  simp only [sampleSettings, List.mem_cons, List.not_mem_nil, or_false] at hs
  rcases hs with rfl | rfl | rfl | rfl | rfl
  · trivial
  · exact (by decide : 1 ≤ 80 ∧ 80 ≤ 65535)
  · exact (by decide : 1 ≤ 4 ∧ 4 ≤ 1024)
  · exact (by decide : 1 ≤ 8 ∧ 8 ≤ 1024)
  · trivial

example : start sampleArgs = .listen ⟨80, 8, some (ascii "2.5")⟩ := listens sampleSettings sampleArgs sample_line sample_valid

/-- `-s --port 0 -h` -/
example : start [ascii "-s", ascii "--port", ascii "0", ascii "-h"] = .exit 0 :=
  refused_partial [.server] [.help] (.port 0) _
    (.option .server _ _ _ (.flag .server rfl) <|
      .option (.port 0) [ascii "--port", ascii "0"] _ _ (.longApart (.port 0) (ascii "port") (ascii "0") (by decide +kernel) ⟨by decide, by decide⟩) <|
      .option .help _ _ _ (.flag .help rfl) .nil)
    (by intro s hs; rw [List.mem_singleton.1 hs]; trivial) ⟨.inl (by decide), by decide⟩

/-- `-p 80 --server` -/
theorem sample_plain : Plain [.port 80, .server] [ascii "-p", ascii "80", ascii "--server"] :=
  .option (.port 80) [ascii "-p", ascii "80"] _ _ (fun e => by cases e) (.apart (.port 80) (ascii "80") (by rw [← digits_80]; rfl)) (by decide) <|
  .flag .server _ _ _ rfl (.inr (by decide)) .nil

example : serverOrCgi [ascii "-p", ascii "80", ascii "--server"] = .server (.listen ⟨80, 1, none⟩) := by
  rw [modes_partial _ _ sample_plain]
  decide +kernel

/-! ### What goes wrong -/

/-- A port or a number of threads of 2³¹ or more is undefined behaviour, wherever it comes among settings that can be used. -/
theorem number_undefined (good more : List Setting) (n : Nat) (hn : 2 ^ 31 ≤ n) (args : List Str)
    (h : Line (good ++ .port n :: more) args ∨ Line (good ++ .threads n :: more) args) (hv : ∀ s ∈ good, s.Valid) : start args = .undefined := by
  have ha : ato 32 (Decimal.digits n) = none := Sysstat.Lemmas.ato_large 32 n hn
  have hp : ∀ es c, handle (event (.port n) :: es) c = .undefined := fun es c => by
    show (match ato 32 (Decimal.digits n) with
      | none => .undefined
      | some p => if 1 ≤ p ∧ p ≤ 0xFFFF then handle es { c with port := p.toNat } else .exit 0 : Outcome) = _
    rw [ha]
  have ht : ∀ es c, handle (event (.threads n) :: es) c = .undefined := fun es c => by
    show (match ato 32 (Decimal.digits n) with
      | none => .undefined
      | some t => if 1 ≤ t ∧ t ≤ 1024 then handle es { c with threads := t.toNat } else .exit 0 : Outcome) = _
    rw [ha]
  unfold start
  rcases h with h | h
  · rw [getopt_line _ args h _ (Nat.le_refl _), List.map_append, handle_valid good _ hv, List.map_cons, hp]
  · rw [getopt_line _ args h _ (Nat.le_refl _), List.map_append, handle_valid good _ hv, List.map_cons, ht]

/-- Options that do not exist are passed over, and so are letters after a number and options without their argument: the server then starts with other settings
than those asked for, here with port 8080 and port 80. -/
theorem mistakes_ignored : start [ascii "--prot=80"] = .listen {} ∧ start [ascii "-p"] = .listen {} ∧ start [ascii "-p", ascii "80x0"] = .listen { port := 80 } := by
  decide +kernel

/-- A flag that `getopt_long` would understand does not make a server: joined with another, or abbreviated. And a word that is the value of another option does. -/
theorem modes_missed : serverOrCgi [ascii "-sp80"] = .cgi ∧ serverOrCgi [ascii "--serv"] = .cgi ∧ serverOrCgi [ascii "-o", ascii "-s"] = .server (.listen { timeout := some (ascii "-s") }) := by
  decide +kernel

/-- If a thread other than the first cannot be started, `run_server(…).run()` does not report it: the exception destroys the object, and the destructor waits for the
threads that were started. -/
theorem failure_hidden (creates : Nat → Bool) (n i : Nat) (hi : i + 1 < n) (hf : creates (i + 1) = false) (hb : ∀ j, j < i + 1 → creates j = true) :
    runTemporary creates ⟨true, n, []⟩ = .never := by
  unfold runTemporary
  rw [start_failure creates n (i + 1) hi hf hb]
  simp [join, List.replicate_succ]

example : runTemporary (· < 3) ⟨true, 8, []⟩ = .never := failure_hidden _ 8 2 (by decide) (by decide) (by decide)

/-- An object that serves in the background can never be destroyed. -/
theorem never_destroyed (creates : Nat → Bool) (n : Nat) (hn : 0 < n) (hc : ∀ i, i < n → creates i = true) : (join (run creates false ⟨true, n, []⟩).2).1 = .never := by
  rw [(runs creates n hn hc []).2]
  cases n with
  | zero => omega
  | succ n => simp [join, List.replicate_succ]

/-- A number of threads that is given to the other constructors is not looked at: with 0 `run` returns at once without serving, with -1 it throws. -/
theorem numbers_unchecked (creates : Nat → Bool) : (run creates true ⟨true, 0, []⟩).1 = .returns ∧ (run creates true ⟨true, -1, []⟩).1 = .lengthError := by
  constructor <;> rfl

end Verif.ServerOpts.Props
