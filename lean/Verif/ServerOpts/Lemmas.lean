import Verif.ServerOpts.Spec
import Verif.Sysstat.Lemmas
namespace Verif.ServerOpts.Lemmas
open Verif.Sysstat (Str ascii ato)
open Verif Verif.ServerOpts Verif.ServerOpts.Spec

/-- What a setting gives. -/
def event (s : Setting) : Event := .opt s.letter (s.arg.getD [])

theorem shorts_letter (s : Setting) : shorts s.letter = some s.arg.isSome := by cases s <;> rfl

theorem letter_ne (s : Setting) : s.letter ≠ 45 := by cases s <;> simp [Setting.letter]

theorem name_in (s : Setting) : s.name ∈ names := by cases s <;> simp [names, Setting.name]

theorem longs_names : longs.map (·.1) = names := rfl

theorem longs_of_name (s : Setting) : ∀ o ∈ longs, o.1 = s.name → o.2 = (s.arg.isSome, s.letter) := by
  cases s with
  | port n => show ∀ o ∈ longs, o.1 = ascii "port" → o.2 = (true, 112); decide
  | threads n => show ∀ o ∈ longs, o.1 = ascii "thread" → o.2 = (true, 116); decide
  | timeout n => show ∀ o ∈ longs, o.1 = ascii "timeout" → o.2 = (true, 111); decide
  | help => decide
  | server => decide

theorem names_nodup : (longs.map (·.1)).Nodup := by decide

theorem longOpt_abbr (a : Str) (s : Setting) (h : Abbreviates a s) : longOpt a = some (s.arg.isSome, s.letter) := by
  unfold longOpt
  cases hf : longs.find? (·.1 = a) with
  | some o =>
    have hm := List.mem_of_find?_eq_some hf
    have he : o.1 = a := by simpa using List.find?_some hf
    have := h.2 o.1 (by rw [← longs_names]; exact List.mem_map_of_mem hm) (by rw [he]; exact List.prefix_rfl)
    show some o.2 = _
    rw [longs_of_name s o hm this]
  | none =>
    have : longs.filter (a.isPrefixOf ·.1) = longs.filter (fun o => o.1 = s.name) := by
      apply List.filter_congr
      intro o ho
      rw [Bool.eq_iff_iff, List.isPrefixOf_iff_prefix, decide_eq_true_iff]
      exact ⟨h.2 o.1 (by rw [← longs_names]; exact List.mem_map_of_mem ho), fun e => by rw [e]; exact h.1⟩
    rw [this]
    cases s <;> rfl

theorem abbr_noeq (a : Str) (s : Setting) (h : Abbreviates a s) : 61 ∉ a := by
  have : 61 ∉ s.name := (by decide : ∀ n ∈ names, 61 ∉ n) s.name (name_in s)
  exact fun hm => this (h.1.subset hm)

theorem abbr_ne (a : Str) (s : Setting) (h : Abbreviates a s) : a ≠ [] := by
  rintro rfl
  have h1 := h.2 (ascii "port") (by simp [names]) List.nil_prefix
  have h2 := h.2 (ascii "help") (by simp [names]) List.nil_prefix
  rw [← h1] at h2
  exact absurd h2 (by decide)

theorem takeWhile_noeq (a : Str) (h : 61 ∉ a) (r : Str) (hr : r = [] ∨ r.head? = some 61) : (a ++ r).takeWhile (· ≠ 61) = a := by
  rw [List.takeWhile_append_of_pos (fun x hx => by simpa using fun e : x = 61 => h (e ▸ hx))]
  rcases hr with rfl | hr
  · simp
  · cases r with
    | nil => simp
    | cons c r =>
      have : c = 61 := by simpa using hr
      subst this
      simp

theorem long_alone (a : Str) (h : 61 ∉ a) (ws : List Str) :
    long a ws = match longOpt a with
      | none => (.bad, ws)
      | some (false, c) => (.opt c [], ws)
      | some (true, c) => match ws with
        | v :: ws => (.opt c v, ws)
        | [] => (.bad, []) := by
  have := takeWhile_noeq a h [] (.inl rfl)
  rw [List.append_nil] at this
  unfold long
  simp only [this, Nat.lt_irrefl, if_false]
  cases longOpt a with
  | none => rfl
  | some o => obtain ⟨b, c⟩ := o; cases b <;> cases ws <;> rfl

theorem long_value (a t : Str) (h : 61 ∉ a) (ws : List Str) :
    long (a ++ [61] ++ t) ws = match longOpt a with
      | none => (.bad, ws)
      | some (false, _) => (.bad, ws)
      | some (true, c) => (.opt c t, ws) := by
  have := takeWhile_noeq a h ([61] ++ t) (.inr rfl)
  rw [← List.append_assoc] at this
  unfold long
  have hl : a.length < (a ++ [61] ++ t).length := by simp
  have hd : (a ++ [61] ++ t).drop (a.length + 1) = t := by
    have : (a ++ [61]).length = a.length + 1 := by simp
    rw [← this, List.drop_left]
  simp only [this, hl, if_true, hd]
  cases longOpt a with
  | none => rfl
  | some o => obtain ⟨b, c⟩ := o; cases b <;> cases ws <;> rfl

theorem getopt_long_word (n : Nat) (a : Str) (ha : a ≠ []) (ws : List Str) :
    getopt (n + 1) (([45, 45] ++ a) :: ws) = (long a ws).1 :: getopt n (long a ws).2 := by
  cases a with
  | nil => exact absurd rfl ha
  | cons c a => rfl

theorem getopt_short_word (n : Nat) (c : UInt8) (hc : c ≠ 45) (w : Str) (ws : List Str) :
    getopt (n + 1) ((45 :: c :: w) :: ws) = (cluster (c :: w) ws).1 ++ getopt n (cluster (c :: w) ws).2 := by
  rw [getopt]
  · exact fun e _ => hc e
  · exact fun e => hc e

theorem getopt_other (n : Nat) (w : Str) (hw : Other w) (ws : List Str) : getopt (n + 1) (w :: ws) = getopt n ws := by
  cases w with
  | nil => rfl
  | cons c w =>
    rcases hw with h | h
    · have hc : c ≠ 45 := by simpa using h
      rw [getopt]
      · exact fun e => by simp only [List.cons.injEq] at e; exact hc e.1
      · exact fun x e => by simp only [List.cons.injEq] at e; exact hc e.1
      · exact fun x y e => by simp only [List.cons.injEq] at e; exact hc e.1
    · rw [h]; rfl

theorem getopt_spells (s : Setting) (w : List Str) (h : Spells s w) (n : Nat) (ws : List Str) (hn : w.length ≤ n) :
    ∃ m, n - w.length ≤ m ∧ getopt n (w ++ ws) = event s :: getopt m ws := by
  cases n with
  | zero => cases h <;> simp at hn
  | succ n =>
    cases h with
    | flag ha =>
      refine ⟨n, by simp, ?_⟩
      rw [List.cons_append, List.nil_append, getopt_short_word n _ (letter_ne s)]
      simp [cluster, shorts_letter, ha, event]
    | longFlag a ha hb =>
      refine ⟨n, by simp, ?_⟩
      rw [List.cons_append, List.nil_append, getopt_long_word n a (abbr_ne a s hb), long_alone a (abbr_noeq a s hb), longOpt_abbr a s hb]
      simp [ha, event]
    | joined t ha ht =>
      refine ⟨n, by simp, ?_⟩
      show getopt (n + 1) ((45 :: s.letter :: t) :: ws) = _
      rw [getopt_short_word n _ (letter_ne s)]
      simp [cluster, shorts_letter, ha, event, ht]
    | apart t ha =>
      refine ⟨n, by simp, ?_⟩
      show getopt (n + 1) ([45, s.letter] :: t :: ws) = _
      rw [getopt_short_word n _ (letter_ne s)]
      simp [cluster, shorts_letter, ha, event]
    | longJoined a t ha hb =>
      refine ⟨n, by simp, ?_⟩
      show getopt (n + 1) (([45, 45] ++ (a ++ [61] ++ t)) :: ws) = _
      rw [getopt_long_word n _ (by simp), long_value a t (abbr_noeq a s hb), longOpt_abbr a s hb]
      simp [ha, event]
    | longApart a t ha hb =>
      refine ⟨n, by simp, ?_⟩
      show getopt (n + 1) (([45, 45] ++ a) :: t :: ws) = _
      rw [getopt_long_word n a (abbr_ne a s hb), long_alone a (abbr_noeq a s hb), longOpt_abbr a s hb]
      simp [ha, event]

/-- A flag in front of other letters. -/
theorem getopt_flags (n : Nat) (s : Setting) (hs : s.arg = none) (c : UInt8) (hc : c ≠ 45) (r : Str) (ws : List Str) :
    getopt (n + 1) ((45 :: s.letter :: c :: r) :: ws) = event s :: getopt (n + 1) ((45 :: c :: r) :: ws) := by
  rw [getopt_short_word n _ (letter_ne s), getopt_short_word n c hc]
  rw [show cluster (s.letter :: c :: r) ws = (.opt s.letter [] :: (cluster (c :: r) ws).1, (cluster (c :: r) ws).2) by
    have : shorts s.letter = some false := by rw [shorts_letter, hs]; rfl
    simp only [cluster, this]]
  simp [event, hs]

theorem getopt_line (ss : List Setting) (ws : List Str) (h : Line ss ws) (n : Nat) (hn : ws.length ≤ n) : getopt n ws = ss.map event := by
  induction h generalizing n with
  | nil => cases n <;> rfl
  | option s w ss ws hs _ ih =>
    rw [List.length_append] at hn
    obtain ⟨m, h1, h2⟩ := getopt_spells s w hs n ws (by omega)
    rw [h2, ih m (by omega), List.map_cons]
  | flags s c r ss ws hs hc _ ih =>
    cases n with
    | zero => simp at hn
    | succ n => rw [getopt_flags n s hs c hc, ih (n + 1) (by simpa using hn), List.map_cons]
  | other w ss ws hw _ ih =>
    cases n with
    | zero => simp at hn
    | succ n => rw [getopt_other n w hw, ih n (by simpa using hn)]
  | stop ws =>
    cases n with
    | zero => simp at hn
    | succ n => rfl

/-! ### The constructor -/

theorem handle_port (n : Nat) (es : List Event) (c : Conf) (hn : n < 2 ^ 31) :
    handle (event (.port n) :: es) c = if 1 ≤ n ∧ n ≤ 65535 then handle es { c with port := n } else .exit 0 := by
  have ha : ato 32 (Decimal.digits n) = some (n : Int) := Sysstat.Lemmas.ato_digits 32 n hn
  show (match ato 32 (Decimal.digits n) with
      | none => .undefined
      | some p => if 1 ≤ p ∧ p ≤ 0xFFFF then handle es { c with port := p.toNat } else .exit 0 : Outcome) = _
  rw [ha]
  have : ((1 : Int) ≤ n ∧ (n : Int) ≤ 0xFFFF) ↔ 1 ≤ n ∧ n ≤ 65535 := by omega
  simp only [this, Int.toNat_natCast]

theorem handle_threads (n : Nat) (es : List Event) (c : Conf) (hn : n < 2 ^ 31) :
    handle (event (.threads n) :: es) c = if 1 ≤ n ∧ n ≤ 1024 then handle es { c with threads := n } else .exit 0 := by
  have ha : ato 32 (Decimal.digits n) = some (n : Int) := Sysstat.Lemmas.ato_digits 32 n hn
  show (match ato 32 (Decimal.digits n) with
      | none => .undefined
      | some t => if 1 ≤ t ∧ t ≤ 1024 then handle es { c with threads := t.toNat } else .exit 0 : Outcome) = _
  rw [ha]
  have : ((1 : Int) ≤ n ∧ (n : Int) ≤ 1024) ↔ 1 ≤ n ∧ n ≤ 1024 := by omega
  simp only [this, Int.toNat_natCast]

theorem handle_timeout (t : Str) (es : List Event) (c : Conf) : handle (event (.timeout t) :: es) c = handle es { c with timeout := some t } := rfl

theorem handle_server (es : List Event) (c : Conf) : handle (event .server :: es) c = handle es c := rfl

theorem handle_valid (ss : List Setting) (es : List Event) (hv : ∀ s ∈ ss, s.Valid) (c : Conf) :
    handle (ss.map event ++ es) c = handle es ⟨last portOf c.port ss, last threadsOf c.threads ss, last timeoutOf c.timeout ss⟩ := by
  induction ss generalizing c with
  | nil => rfl
  | cons s ss ih =>
    have hs := hv s (by simp)
    have ih := ih fun x hx => hv x (List.mem_cons_of_mem _ hx)
    have lastCons : ∀ {α : Type} (f : Setting → Option α) (d x : α), f s = some x → last f d (s :: ss) = last f x ss := by
      intro α f d x hf
      unfold last
      rw [List.filterMap_cons, hf]
      cases hl : ss.filterMap f with
      | nil => rfl
      | cons y ys => rfl
    have lastSkip : ∀ {α : Type} (f : Setting → Option α) (d : α), f s = none → last f d (s :: ss) = last f d ss := by
      intro α f d hf
      unfold last
      rw [List.filterMap_cons, hf]
    rw [List.map_cons, List.cons_append]
    cases s with
    | port n =>
      have hs : 1 ≤ n ∧ n ≤ 65535 := hs
      rw [handle_port n _ _ (by omega), if_pos hs, ih, lastCons portOf c.port n rfl, lastSkip threadsOf _ rfl, lastSkip timeoutOf _ rfl]
    | threads n =>
      have hs : 1 ≤ n ∧ n ≤ 1024 := hs
      rw [handle_threads n _ _ (by omega), if_pos hs, ih, lastSkip portOf _ rfl, lastCons threadsOf c.threads n rfl, lastSkip timeoutOf _ rfl]
    | timeout t => rw [handle_timeout, ih, lastSkip portOf _ rfl, lastSkip threadsOf _ rfl, lastCons timeoutOf c.timeout (some t) rfl]
    | help => exact hs.elim
    | server => rw [handle_server, ih, lastSkip portOf _ rfl, lastSkip threadsOf _ rfl, lastSkip timeoutOf _ rfl]

theorem handle_refused (s : Setting) (es : List Event) (h : s.Refused) (c : Conf) : handle (event s :: es) c = .exit 0 := by
  cases s with
  | port n =>
    have h : (n < 1 ∨ 65535 < n) ∧ n < 2 ^ 31 := h
    rw [handle_port n _ _ h.2, if_neg (by omega)]
  | threads n =>
    have h : (n < 1 ∨ 1024 < n) ∧ n < 2 ^ 31 := h
    rw [handle_threads n _ _ h.2, if_neg (by omega)]
  | timeout t => exact h.elim
  | help => rfl
  | server => exact h.elim

theorem handle_listen (es : List Event) (c c' : Conf) (h : handle es c = .listen c') (h1 : 1 ≤ c.port ∧ c.port ≤ 65535) (h2 : 1 ≤ c.threads ∧ c.threads ≤ 1024) :
    (1 ≤ c'.port ∧ c'.port ≤ 65535) ∧ 1 ≤ c'.threads ∧ c'.threads ≤ 1024 := by
  induction es generalizing c with
  | nil => cases h; exact ⟨h1, h2⟩
  | cons e es ih =>
    cases e with
    | bad => exact ih c h h1 h2
    | opt o a =>
      rw [handle] at h
      split at h
      · split at h
        · cases h
        · split at h
          · next hp => exact ih _ h (by dsimp only; omega) h2
          · cases h
      · split at h
        · split at h
          · cases h
          · split at h
            · next hp => exact ih _ h h1 (by dsimp only; omega)
            · cases h
        · split at h
          · exact ih _ h h1 h2
          · split at h
            · cases h
            · exact ih _ h h1 h2

/-! ### The mode -/

theorem line_of_plain {ss : List Setting} {ws : List Str} (h : Plain ss ws) : Line ss ws := by
  induction h with
  | nil => exact .nil
  | flag s w ss ws ha hw _ ih =>
    refine .option s [w] ss ws ?_ ih
    rcases hw with rfl | rfl
    · exact .flag s ha
    · refine .longFlag s s.name ha ⟨List.prefix_rfl, ?_⟩
      exact fun n hn hp => (by decide : ∀ a ∈ names, ∀ b ∈ names, a <+: b → b = a) s.name (name_in s) n hn hp
  | option s w ss ws _ hs _ _ ih => exact .option s w ss ws hs ih
  | other w ss ws hw _ ih => exact .other w ss ws hw ih

theorem other_mode (w : Str) (h : Other w) : w ∉ modeWords := by
  intro hm
  have : ∀ w ∈ modeWords, w.head? = some 45 ∧ w ≠ [45] := by decide
  have := this w hm
  rcases h with h | h
  · exact h this.1
  · exact this.2 h

/-- The words of a plain line that matter. -/
theorem plain_mode {ss : List Setting} {ws : List Str} (h : Plain ss ws) (s : Setting) (hs : s.arg = none) :
    s ∈ ss ↔ ∃ w ∈ ws, w = [45, s.letter] ∨ w = [45, 45] ++ s.name := by
  have key : ∀ (s : Setting), s.arg = none → ([45, s.letter] : Str) ∈ modeWords ∧ ([45, 45] ++ s.name : Str) ∈ modeWords := by
    intro s hs
    cases s with
    | help => decide
    | server => decide
    | _ => cases hs
  induction h with
  | nil => simp
  | flag s' w ss ws ha hw _ ih =>
    refine List.mem_cons.trans ((or_congr Iff.rfl ih).trans ?_)
    constructor
    · rintro (rfl | ⟨x, hx, hx'⟩)
      · exact ⟨w, by simp, hw⟩
      · exact ⟨x, List.mem_cons_of_mem _ hx, hx'⟩
    · rintro ⟨x, hx, hx'⟩
      rcases List.mem_cons.1 hx with rfl | hx
      · left
        cases s with
        | help => cases s' with
          | help => rfl
          | server => rcases hw with rfl | rfl <;> exact absurd hx' (by decide)
          | _ => cases ha
        | server => cases s' with
          | server => rfl
          | help => rcases hw with rfl | rfl <;> exact absurd hx' (by decide)
          | _ => cases ha
        | _ => cases hs
      · exact .inr ⟨x, hx, hx'⟩
  | option s' w ss ws ha _ hw _ ih =>
    refine List.mem_cons.trans ((or_congr Iff.rfl ih).trans ?_)
    constructor
    · rintro (rfl | ⟨x, hx, hx'⟩)
      · exact absurd hs ha
      · exact ⟨x, List.mem_append_right _ hx, hx'⟩
    · rintro ⟨x, hx, hx'⟩
      rcases List.mem_append.1 hx with hx | hx
      · refine absurd ?_ (hw x hx)
        rcases hx' with rfl | rfl
        · exact (key s hs).1
        · exact (key s hs).2
      · exact .inr ⟨x, hx, hx'⟩
  | other w ss ws hw _ ih =>
    refine ih.trans ?_
    constructor
    · rintro ⟨x, hx, hx'⟩
      exact ⟨x, List.mem_cons_of_mem _ hx, hx'⟩
    · rintro ⟨x, hx, hx'⟩
      rcases List.mem_cons.1 hx with rfl | hx
      · refine absurd ?_ (other_mode x hw)
        rcases hx' with rfl | rfl
        · exact (key s hs).1
        · exact (key s hs).2
      · exact ⟨x, hx, hx'⟩

/-! ### Threads -/

theorem startAll_all (creates : Nat → Bool) (n : Nat) (ths : List Bool) (h : ∀ i, i < ths.length + n → creates i = true) :
    startAll creates n ths = (true, ths ++ List.replicate n true) := by
  induction n generalizing ths with
  | zero => simp [startAll]
  | succ n ih =>
    rw [startAll, if_pos (h _ (by omega)), ih _ (fun i hi => h i (by simp at hi; omega)), List.append_assoc, List.replicate_succ]
    rfl

theorem startAll_fails (creates : Nat → Bool) (n : Nat) (ths : List Bool) (i : Nat) (hi : i < n) (h : creates (ths.length + i) = false)
    (hb : ∀ j, j < i → creates (ths.length + j) = true) : startAll creates n ths = (false, ths ++ List.replicate i true ++ [false]) := by
  induction i generalizing n ths with
  | zero =>
    cases n with
    | zero => omega
    | succ n => rw [startAll, if_neg (by simpa using h)]; simp
  | succ i ih =>
    cases n with
    | zero => omega
    | succ n =>
      rw [startAll, if_pos (by simpa using hb 0 (by omega))]
      rw [ih n (ths ++ [true]) (by omega) (by rw [List.length_append]; simpa [Nat.add_assoc, Nat.add_comm 1] using h)
        (fun j hj => by rw [List.length_append]; simpa [Nat.add_assoc, Nat.add_comm 1] using hb (j + 1) (by omega))]
      simp [List.replicate_succ]

end Verif.ServerOpts.Lemmas
