import Verif.Sysstat.Spec
namespace Verif.Sysstat.Lemmas
open Verif Verif.Sysstat Verif.Sysstat.Spec

theorem linesGo_line (l : Str) (hl : 10 ∉ l) (rest : Str) : ∀ acc, linesGo acc (l ++ 10 :: rest) = (acc ++ l) :: linesGo [] rest := by
  induction l with
  | nil => intro acc; simp [linesGo]
  | cons c l ih =>
    intro acc
    have hc : c ≠ 10 := fun e => hl (by simp [e])
    rw [List.cons_append, linesGo, if_neg hc, ih (fun h => hl (List.mem_cons_of_mem _ h)), List.append_assoc, List.singleton_append]

/-- The line without its end. -/
def body (f : Field) : Str :=
  f.name ++ ascii ":" ++ List.replicate (f.pad + 1) 32 ++ Decimal.digits f.number ++ (if f.kB then ascii " kB" else [])

theorem digit_not_space {c : UInt8} (h : Decimal.isDigit c = true) : isspace c = false := by
  have := Decimal.digit_bounds h
  have h1 : ¬ c = 32 := fun e => by subst e; revert this; decide
  have h2 : ¬ c ≤ 13 := fun e => by have : c.toNat ≤ 13 := e; omega
  simp [isspace, h1, h2]

theorem body_newline (f : Field) (hf : ∀ c ∈ f.name, isspace c = false) : 10 ∉ body f := by
  intro h
  simp only [body, List.mem_append, List.mem_replicate] at h
  rcases h with (((h | h) | h) | h) | h
  · exact absurd (hf 10 h) (by decide)
  · exact absurd h (by decide)
  · exact absurd h.2 (by decide)
  · exact absurd (digit_not_space ((Decimal.digits_spec _).2.1 10 h)) (by decide)
  · split at h
    · exact absurd h (by decide)
    · cases h

theorem text_eq (f : Field) : f.text = body f ++ [10] := rfl

theorem lines_file (fs : List Field) (hf : ∀ f ∈ fs, ∀ c ∈ f.name, isspace c = false) : lines (fileText fs) = fs.map body := by
  induction fs with
  | nil => rfl
  | cons f fs ih =>
    have e : fileText (f :: fs) = body f ++ 10 :: fileText fs := by simp [fileText, text_eq]
    unfold lines
    rw [e, linesGo_line _ (body_newline f (hf f (by simp))), List.map_cons, List.nil_append]
    congr 1
    exact ih fun g hg => hf g (List.mem_cons_of_mem _ hg)

theorem word_spec (sp w rest : Str) (h1 : ∀ c ∈ sp, isspace c = true) (h2 : ∀ c ∈ w, isspace c = false) (hw : w ≠ [] ∨ rest = [])
    (hr : rest.head?.all isspace = true) : word (sp ++ w ++ rest) = (w, rest) := by
  unfold word
  have e : (sp ++ w ++ rest).dropWhile isspace = w ++ rest := by
    rw [List.append_assoc, List.dropWhile_append_of_pos h1]
    cases w with
    | nil => rcases hw with h | h
             · exact absurd rfl h
             · subst h; rfl
    | cons c w => rw [List.cons_append, List.dropWhile_cons_of_neg (by simp [h2 c (by simp)])]
  rw [e]
  have h2' : ∀ c ∈ w, (!isspace c) = true := fun c hc => by rw [h2 c hc]; rfl
  cases rest with
  | nil => rw [List.takeWhile_append_of_pos h2', List.dropWhile_append_of_pos h2']; simp
  | cons r rest =>
    have hr' : isspace r = true := by simpa using hr
    rw [List.takeWhile_append_of_pos h2', List.dropWhile_append_of_pos h2', List.takeWhile_cons_of_neg (by simp [hr']),
      List.dropWhile_cons_of_neg (by simp [hr']), List.append_nil]

theorem words_body (f : Field) (hf : ∀ c ∈ f.name, isspace c = false) :
    words (body f) = (Decimal.digits f.number, if f.kB then ascii "kB" else []) := by
  have hd : ∀ c ∈ Decimal.digits f.number, isspace c = false := fun c hc => digit_not_space ((Decimal.digits_spec _).2.1 c hc)
  have h1 : word (body f) = (f.name ++ ascii ":", List.replicate (f.pad + 1) 32 ++ (Decimal.digits f.number ++ (if f.kB then ascii " kB" else []))) := by
    have := word_spec [] (f.name ++ ascii ":") (List.replicate (f.pad + 1) 32 ++ (Decimal.digits f.number ++ (if f.kB then ascii " kB" else [])))
      (by simp) (by
        intro c hc
        rcases List.mem_append.1 hc with h | h
        · exact hf c h
        · have : ∀ c ∈ ascii ":", isspace c = false := by decide
          exact this c h) (.inl (by simp [ascii])) (by rw [List.replicate_succ]; rfl)
    rw [← this]
    simp [body]
  have h2 : word (List.replicate (f.pad + 1) 32 ++ (Decimal.digits f.number ++ (if f.kB then ascii " kB" else [])))
      = (Decimal.digits f.number, if f.kB then ascii " kB" else []) := by
    have := word_spec (List.replicate (f.pad + 1) 32) (Decimal.digits f.number) (if f.kB then ascii " kB" else [])
      (fun c hc => by rw [(List.mem_replicate.1 hc).2]; rfl) hd (.inl (Decimal.digits_spec _).1) (by split <;> decide)
    rw [← this, List.append_assoc]
  unfold words
  rw [h1]
  dsimp only
  rw [h2]
  dsimp only
  cases f.kB with
  | false => rfl
  | true =>
    have : word (ascii " kB") = (ascii "kB", []) := by decide
    simp [this]

theorem ato_number (bits n : Nat) :
    ato bits (Decimal.digits n) = if - 2 ^ (bits - 1) ≤ (n : Int) ∧ (n : Int) < 2 ^ (bits - 1) then some (n : Int) else none := by
  obtain ⟨hne, hd, hv⟩ := Decimal.digits_spec n
  have e1 : (Decimal.digits n).dropWhile isspace = Decimal.digits n := by
    cases hc : Decimal.digits n with
    | nil => rfl
    | cons c ds => rw [List.dropWhile_cons_of_neg (by rw [digit_not_space (hd c (by rw [hc]; simp))]; simp)]
  have e2 : ∀ x : UInt8, Decimal.isDigit x = false → (Decimal.digits n).head? ≠ some x := by
    intro x hx h
    have := hd x (List.mem_of_mem_head? (by rw [h]; rfl))
    rw [hx] at this; cases this
  have e3 := (Decimal.takeWhile_digits n [] rfl).1
  rw [List.append_nil] at e3
  unfold ato
  simp only [e1, e2 45 (by decide), e2 43 (by decide), or_self, if_false, e3, hv]

theorem ato_digits (bits n : Nat) (h : n < 2 ^ (bits - 1)) : ato bits (Decimal.digits n) = some (n : Int) := by
  rw [ato_number]
  have : (n : Int) < 2 ^ (bits - 1) := by
    have := Int.ofNat_lt.2 h
    simpa using this
  rw [if_pos ⟨by have : (0 : Int) ≤ 2 ^ (bits - 1) := Int.pow_nonneg (by decide); omega, this⟩]

theorem ato_large (bits n : Nat) (h : 2 ^ (bits - 1) ≤ n) : ato bits (Decimal.digits n) = none := by
  rw [ato_number, if_neg fun hc => ?_]
  have := Int.ofNat_le.2 h
  simp only [Int.natCast_pow] at this
  exact absurd hc.2 (by simpa using this)

/-- What a line is worth. -/
def worth (f : Field) : Nat := if f.kB then f.number * 1000 else f.number

theorem amount_body (bits : Nat) (hb : bits ≤ 64) (f : Field) (hf : ∀ c ∈ f.name, isspace c = false) (h : f.number < 2 ^ (bits - 1)) (x : Nat) :
    amount bits (body f) x = some (worth f % 2 ^ 64) := by
  have h64 : f.number < 2 ^ 64 := Nat.lt_of_lt_of_le h (Nat.pow_le_pow_right (by decide) (by omega))
  have e : ((f.number : Int) % 2 ^ 64).toNat = f.number := by
    rw [Int.emod_eq_of_lt (by omega) (by have := Int.ofNat_lt.2 h64; simpa using this)]
    rfl
  unfold amount
  rw [words_body f hf]
  dsimp only
  rw [if_pos (Decimal.digits_spec _).1, ato_digits bits _ h]
  simp only [Option.bind_eq_bind, Option.bind_some, e, worth]
  cases f.kB with
  | true => simp
  | false => simp [show ¬ [] = ascii "kB" from by decide, Nat.mod_eq_of_lt h64]

theorem prefix_of_append {n a r : Str} (hn : 58 ∉ n) (h : n <+: a ++ 58 :: r) : n <+: a := by
  induction n generalizing a with
  | nil => exact List.nil_prefix
  | cons c n ih =>
    cases a with
    | nil =>
      rw [List.nil_append, List.cons_prefix_cons] at h
      exact absurd h.1 fun e => hn (by simp [e])
    | cons d a =>
      rw [List.cons_append, List.cons_prefix_cons] at h
      exact List.cons_prefix_cons.2 ⟨h.1, ih (fun hm => hn (List.mem_cons_of_mem _ hm)) h.2⟩

theorem prefix_body (n : Str) (hn : 58 ∉ n) (f : Field) : n.isPrefixOf (body f) = true ↔ n <+: f.name := by
  rw [List.isPrefixOf_iff_prefix]
  have e : body f = f.name ++ 58 :: (List.replicate (f.pad + 1) 32 ++ Decimal.digits f.number ++ (if f.kB then ascii " kB" else [])) := by
    simp [body, ascii]
  rw [e]
  constructor
  · intro h
    exact prefix_of_append hn h
  · intro h
    exact h.trans (List.prefix_append _ _)

/-- What the file says about a name, or else `x`. -/
def saysOr (x : Nat) (fs : List Field) (n : Str) : Nat :=
  match fs.find? (fun f => f.name = n) with
  | none => x
  | some f => worth f % 2 ^ 64

theorem saysOr_cons (x : Nat) (f : Field) (fs : List Field) (n : Str) (hn : ((f :: fs).map (·.name)).Nodup) :
    saysOr (if f.name = n then worth f % 2 ^ 64 else x) fs n = saysOr x (f :: fs) n := by
  rw [List.map_cons, List.nodup_cons] at hn
  by_cases h : f.name = n
  · have : fs.find? (fun f => f.name = n) = none := by
      rw [List.find?_eq_none]
      intro g hg
      have : g.name ≠ f.name := fun e => hn.1 (List.mem_map.2 ⟨g, hg, e⟩)
      simp [← h, this]
    simp [saysOr, h, this]
  · simp [saysOr, h]

theorem saysOr_says (fs : List Field) (n : Str) : saysOr 0 fs n = says 1000 fs n % 2 ^ 64 := by
  unfold saysOr says
  cases fs.find? (fun f => f.name = n) <;> rfl

theorem legal_tail {f : Field} {fs : List Field} (h : Legal (f :: fs)) : Legal fs := by
  refine ⟨fun g hg => h.names g (List.mem_cons_of_mem _ hg), ?_, fun g hg => h.begins g (List.mem_cons_of_mem _ hg)⟩
  have := h.once
  rw [List.map_cons, List.nodup_cons] at this
  exact this.2

/-- One line, for one name. -/
theorem line_name {f : Field} {fs : List Field} (h : Legal (f :: fs)) (n : Str) (hn : n ∈ known) (bits : Nat) (hb : bits ≤ 64)
    (hlt : f.name = n → f.number < 2 ^ (bits - 1)) (x : Nat) :
    onLine n bits (body f) x = some (if f.name = n then worth f % 2 ^ 64 else x) := by
  have h58 : 58 ∉ n := (by decide : ∀ n ∈ known, 58 ∉ n) n hn
  unfold onLine
  by_cases e : f.name = n
  · rw [if_pos ((prefix_body n h58 f).2 (by rw [e]; exact List.prefix_rfl)), amount_body bits hb f (h.names f (by simp)) (hlt e), if_pos e]
  · rw [if_neg fun hp => e (h.begins f (by simp) n hn ((prefix_body n h58 f).1 hp)), if_neg e]

theorem total_fold (fs : List Field) (h : Legal fs) (hb : Below (2 ^ 63) fs (ascii "MemTotal")) (x : Nat) :
    (fs.map body).foldlM (fun memtotal s => onLine (ascii "MemTotal") 64 s memtotal) x
      = some (saysOr x fs (ascii "MemTotal")) := by
  induction fs generalizing x with
  | nil => rfl
  | cons f fs ih =>
    rw [List.map_cons, List.foldlM_cons, line_name h _ (by simp [known]) 64 (by decide) (hb f (by simp))]
    rw [← saysOr_cons x f fs _ h.once]
    exact ih (legal_tail h) (fun g hg => hb g (List.mem_cons_of_mem _ hg)) _

theorem free_fold (fs : List Field) (h : Legal fs) (h1 : Below (2 ^ 31) fs (ascii "MemFree")) (h2 : Below (2 ^ 31) fs (ascii "Cached")) (x y : Nat) :
    (fs.map body).foldlM freeStep (x, y) = some (saysOr x fs (ascii "MemFree"), saysOr y fs (ascii "Cached")) := by
  induction fs generalizing x y with
  | nil => rfl
  | cons f fs ih =>
    rw [List.map_cons, List.foldlM_cons]
    have : freeStep (x, y) (body f) = some (if f.name = ascii "MemFree" then worth f % 2 ^ 64 else x, if f.name = ascii "Cached" then worth f % 2 ^ 64 else y) := by
      unfold freeStep
      dsimp only
      rw [line_name h (ascii "MemFree") (by simp [known]) 32 (by decide) (h1 f (by simp)), line_name h (ascii "Cached") (by simp [known]) 32 (by decide) (h2 f (by simp))]
      rfl
    rw [this, ← saysOr_cons x f fs _ h.once, ← saysOr_cons y f fs _ h.once]
    exact ih (legal_tail h) (fun g hg => h1 g (List.mem_cons_of_mem _ hg)) (fun g hg => h2 g (List.mem_cons_of_mem _ hg)) _ _

theorem amount_large (f : Field) (hf : ∀ c ∈ f.name, isspace c = false) (h : 2 ^ 31 ≤ f.number) (x : Nat) : amount 32 (body f) x = none := by
  unfold amount
  rw [words_body f hf]
  dsimp only
  rw [if_pos (Decimal.digits_spec _).1, ato_large 32 _ h]
  rfl

theorem free_large (fs : List Field) (h : Legal fs) (f : Field) (hf : f ∈ fs) (hn : f.name = ascii "MemFree" ∨ f.name = ascii "Cached") (hl : 2 ^ 31 ≤ f.number)
    (st : Nat × Nat) : (fs.map body).foldlM freeStep st = none := by
  induction fs generalizing st with
  | nil => cases hf
  | cons g fs ih =>
    rw [List.map_cons, List.foldlM_cons]
    rcases List.mem_cons.1 hf with rfl | hf
    · have : freeStep st (body f) = none := by
        unfold freeStep
        rcases hn with hn | hn
        · have : onLine (ascii "MemFree") 32 (body f) st.1 = none := by
            rw [onLine, if_pos ((prefix_body _ (by decide) f).2 (by rw [hn]; exact List.prefix_rfl)), amount_large f (h.names f (by simp)) hl]
          rw [this]
          rfl
        · have : onLine (ascii "Cached") 32 (body f) st.2 = none := by
            rw [onLine, if_pos ((prefix_body _ (by decide) f).2 (by rw [hn]; exact List.prefix_rfl)), amount_large f (h.names f (by simp)) hl]
          rw [this]
          cases onLine (ascii "MemFree") 32 (body f) st.1 <;> rfl
      rw [this]
      rfl
    · cases freeStep st (body g) with
      | none => rfl
      | some st' => exact ih (legal_tail h) hf st'

theorem only_name {fs : List Field} (h : (fs.map (·.name)).Nodup) {f g : Field} (hf : f ∈ fs) (hg : g ∈ fs) (e : g.name = f.name) : g = f := by
  induction fs with
  | nil => cases hf
  | cons a fs ih =>
    rw [List.map_cons, List.nodup_cons] at h
    rcases List.mem_cons.1 hf with e1 | hf' <;> rcases List.mem_cons.1 hg with e2 | hg'
    · rw [e1, e2]
    · exact absurd (List.mem_map.2 ⟨g, hg', e.trans (by rw [e1])⟩) h.1
    · exact absurd (List.mem_map.2 ⟨f, hf', e.symm.trans (by rw [e2])⟩) h.1
    · exact ih h.2 hf' hg'

theorem says_lt {b : Nat} {fs : List Field} {n : Str} (hb : Below b fs n) (h : 0 < b) (u : Nat) (hu : 0 < u) : says u fs n < b * u := by
  unfold says
  cases hc : fs.find? (fun f => f.name = n) with
  | none => exact Nat.mul_pos h hu
  | some f =>
    have := hb f (List.mem_of_find?_eq_some hc) (by simpa using List.find?_some hc)
    show (if f.kB = true then _ else _) < _
    split
    · exact Nat.mul_lt_mul_of_pos_right this hu
    · exact Nat.lt_of_lt_of_le this (Nat.le_mul_of_pos_right _ hu)

end Verif.Sysstat.Lemmas
