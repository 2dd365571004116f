import Verif.CgiRun.Spec
import Verif.Cgi.Props
namespace Verif.CgiRun.Lemmas
open Verif Verif.AssocMap Verif.Http Verif.CgiServer Verif.CgiRun Verif.CgiRun.Spec
open Verif.Socket (Str)

/-! ### Variables -/

theorem addVar_string (env : Env) (k v : Str) (hk : 61 ∉ k) : addVar env (k ++ [61] ++ v) = upsert env k v := by
  have hi : (k ++ [61] ++ v).findIdx? (· = 61) = some k.length := by
    rw [List.findIdx?_eq_some_iff_getElem]
    refine ⟨by simp, by simp, fun j hj => ?_⟩
    have hj' : (k ++ [61] ++ v)[j]'(by simp; omega) = k[j] := by
      simp [List.getElem_append_left, hj]
    rw [hj']
    have : k[j] ≠ 61 := fun e => hk (e ▸ List.getElem_mem hj)
    simpa using this
  unfold addVar
  rw [hi]
  simp

theorem find_strings (vs : List (Str × Str)) (hk : ∀ e ∈ vs, 61 ∉ e.1) (hn : (vs.map (·.1)).Nodup) (env : Env) (k : Str) :
    find ((vs.map fun e => e.1 ++ [61] ++ e.2).foldl addVar env) k = (find vs k).or (find env k) := by
  induction vs generalizing env with
  | nil => simp [find]
  | cons e vs ih =>
    rw [List.map_cons, List.foldl_cons, addVar_string _ _ _ (hk e (by simp))]
    rw [List.map_cons, List.nodup_cons] at hn
    rw [ih (fun x hx => hk x (List.mem_cons_of_mem _ hx)) hn.2, find_upsert]
    by_cases h : k = e.1
    · have h1 : find vs k = none := find_eq_none_iff.2 (by rw [h]; exact hn.1)
      have h2 : find (e :: vs) k = some e.2 := by simp [find, h]
      rw [h1, h2, if_pos h]
      rfl
    · have h2 : find (e :: vs) k = find vs k := by
        unfold find
        rw [List.find?_cons_of_neg (by simpa using fun he => h he.symm)]
      rw [h2, if_neg h]

theorem find_getEnv (c : Call) (h : c.Legal) (k : Str) : find (getEnv c.strings) k = find c.vars k := by
  unfold getEnv Call.strings
  rw [find_strings c.vars h.names h.once]
  cases find c.vars k <;> rfl

theorem has_iff (c : Call) (h : c.Legal) (k v : Str) : c.Has k v ↔ find (getEnv c.strings) k = some v := by
  rw [find_getEnv c h, find_eq_some_iff h.once]
  rfl

theorem hasnt_iff (c : Call) (h : c.Legal) (k : Str) : (∀ v, ¬ c.Has k v) ↔ find (getEnv c.strings) k = none := by
  constructor
  · intro hn
    cases hf : find (getEnv c.strings) k with
    | none => rfl
    | some v => exact absurd ((has_iff c h k v).2 hf) (hn v)
  · intro hf v hv
    rw [has_iff c h, hf] at hv
    cases hv

/-- Only variables that are empty or not there differ. -/
def Like (a b : Env) : Prop := ∀ k, find b k = find a k ∨ (find a k = none ∧ find b k = some [])

theorem Like.refl (a : Env) : Like a a := fun _ => .inl rfl

theorem like_touch (k : String) {a b : Env} (h : Like a b) : Like a (touch k b) := by
  unfold touch
  split
  · exact h
  · next hk =>
    intro x
    rw [find_upsert]
    split
    · next e =>
      subst e
      have hb : find b (ascii k) = none := by simpa using hk
      rcases h (ascii k) with h | ⟨_, h⟩
      · exact .inr ⟨by rw [← h, hb], rfl⟩
      · rw [hb] at h; cases h
    · exact h x

theorem like_touched (max : Nat) (env : Env) (input : Str) : Like env (touched max env input) := by
  unfold touched
  dsimp only
  split
  · exact like_touch _ (like_touch _ (Like.refl _))
  · split
    · split
      · exact like_touch _ (like_touch _ (Like.refl _))
      · exact like_touch _ (like_touch _ (like_touch _ (Like.refl _)))
    · exact like_touch _ (Like.refl _)

theorem like_getD {a b : Env} (h : Like a b) (k : Str) : (find b k).getD [] = (find a k).getD [] := by
  rcases h k with h | ⟨h1, h2⟩
  · rw [h]
  · rw [h1, h2]; rfl

theorem sees (c : Call) (h : c.Legal) (max : Nat) (input : Str) : Sees c (touched max (getEnv c.strings) input) := by
  have hl := like_touched max (getEnv c.strings) input
  constructor
  · intro k v hv
    rw [has_iff c h] at hv
    rcases hl k with e | ⟨e, _⟩
    · rw [e, hv]
    · rw [hv] at e; cases e
  · intro k hn
    rw [hasnt_iff c h] at hn
    rcases hl k with e | ⟨_, e⟩
    · exact .inl (by rw [e, hn])
    · exact .inr e

/-! ### Reading -/

theorem uflow_eq (s : Str) : InBuf.uflow ⟨s, -1⟩ = match s with | [] => (-1, ⟨[], -1⟩) | c :: s => ((c.toNat : Int), ⟨s, -1⟩) := by
  cases s with
  | nil => rfl
  | cons c s =>
    have : ¬ ((c.toNat : Int) < 0) := by omega
    simp [InBuf.uflow, InBuf.underflow, getChar, this]

theorem read_eq (n : Nat) (s : Str) : read n ⟨s, -1⟩ = (s.take n, ⟨s.drop n, -1⟩) := by
  induction n generalizing s with
  | zero => rfl
  | succ n ih =>
    unfold read
    rw [uflow_eq]
    cases s with
    | nil => simp
    | cons c s =>
      have : ¬ ((c.toNat : Int) = -1) := by omega
      simp only [this, if_false, ih, List.take_succ_cons, List.drop_succ_cons]
      simp

/-! ### Writing -/

/-- The text of a piece. -/
def Piece.text : Piece → Str
  | .str s => s
  | .endl => [10]

theorem toInt_small {n : Nat} (h : n < 2 ^ 31) : toInt n = n := by
  unfold toInt
  omega

theorem write_ok (o : Out) (x : Piece) (h1 : (Piece.text x).length < 2 ^ 31) (h2 : (Piece.text x).length ≤ o.room) :
    write (false, o) x = some (false, ⟨o.sent ++ Piece.text x, o.room - (Piece.text x).length⟩) := by
  cases x with
  | str s =>
    have h1' : s.length < 2 ^ 31 := h1
    have h2' : (s.length : Int) ≤ o.room := Int.ofNat_le.2 h2
    have : ¬ ((s.length : Int) < 0) := by omega
    simp [write, xsputn, putStr, toInt_small h1', this, h2', Piece.text]
  | endl =>
    have h2' : 0 < o.room := h2
    simp [write, overflow, putChar, h2', Piece.text]

theorem writes_ok (xs : List Piece) (o : Out) (h1 : ∀ x ∈ xs, (Piece.text x).length < 2 ^ 31) (h2 : (xs.flatMap Piece.text).length ≤ o.room) :
    xs.foldlM write (false, o) = some (false, ⟨o.sent ++ xs.flatMap Piece.text, o.room - (xs.flatMap Piece.text).length⟩) := by
  induction xs generalizing o with
  | nil => simp
  | cons x xs ih =>
    rw [List.flatMap_cons, List.length_append] at h2
    rw [List.foldlM_cons, write_ok o x (h1 x (by simp)) (by omega)]
    show xs.foldlM write _ = _
    rw [ih _ (fun y hy => h1 y (List.mem_cons_of_mem _ hy)) (by show _ ≤ o.room - _; omega), List.flatMap_cons, List.length_append]
    simp [Nat.sub_sub]

theorem pieces_text (h : Header) (body : Str) : (pieces h body).flatMap Piece.text = output h body := by
  unfold pieces output
  rw [List.flatMap_append, List.flatMap_append]
  congr 1
  · congr 1
    induction h with
    | nil => rfl
    | cons e h ih =>
      rw [List.map_cons, List.flatten_cons, List.flatMap_append, ih, List.map_cons, List.flatten_cons]
      have : ascii ": " = [58, 32] := by decide
      simp [Piece.text, this]
  · simp [Piece.text]

theorem pieces_small {h : Header} {body : Str} (hs : (output h body).length < 2 ^ 31) : ∀ x ∈ pieces h body, (Piece.text x).length < 2 ^ 31 := by
  intro x hx
  rw [← pieces_text] at hs
  have : (Piece.text x).Sublist ((pieces h body).flatMap Piece.text) := List.sublist_flatten_of_mem (List.mem_map_of_mem hx)
  exact Nat.lt_of_le_of_lt this.length_le hs

/-- What was sent is always a beginning of the answer. -/
theorem write_prefix (st st' : Bool × Out) (x : Piece) (h : write st x = some st') :
    (st.1 = true → st' = st) ∧ (st.1 = false → st'.1 = false → st'.2.sent = st.2.sent ++ Piece.text x) ∧ (st.1 = false → ∃ t, st'.2.sent = st.2.sent ++ t ∧ t <+: Piece.text x) := by
  obtain ⟨bad, o⟩ := st
  cases bad with
  | true =>
    cases x <;> (simp only [write, if_true, Option.some.injEq] at h; subst h; simp)
  | false =>
    refine ⟨fun h => (by cases h), ?_⟩
    cases x with
    | str s =>
      simp only [write, xsputn, putStr, Bool.false_eq_true, if_false] at h
      by_cases h1 : toInt s.length < 0
      · simp [h1] at h
      · rw [if_neg h1] at h
        by_cases h2 : toInt s.length ≤ o.room
        · rw [if_pos h2] at h
          simp only [Option.bind_eq_bind, Option.bind_some, h1, if_false, Option.some.injEq] at h
          subst h
          refine ⟨fun _ hr => ?_, fun _ => ⟨_, rfl, List.take_prefix _ _⟩⟩
          have : toInt s.length = s.length := by simpa using hr
          simp [Piece.text, this]
        · rw [if_neg h2] at h
          simp only [Option.bind_eq_bind, Option.bind_some, Option.some.injEq] at h
          subst h
          refine ⟨fun _ hr => ?_, fun _ => ⟨_, rfl, List.take_prefix _ _⟩⟩
          have : (0 : Int) = s.length := by simpa using hr
          have : s = [] := by
            cases s with
            | nil => rfl
            | cons c s => simp at this; omega
          simp [Piece.text, this]
    | endl =>
      simp only [write, overflow, putChar, Bool.false_eq_true, if_false, Option.some.injEq] at h
      by_cases h1 : 0 < o.room
      · rw [if_pos h1] at h
        subst h
        exact ⟨fun _ _ => rfl, fun _ => ⟨[10], rfl, List.prefix_rfl⟩⟩
      · rw [if_neg h1] at h
        subst h
        exact ⟨fun _ h => (by simp at h), fun _ => ⟨[], by simp, List.nil_prefix⟩⟩

theorem writes_prefix (xs : List Piece) (st st' : Bool × Out) (h : xs.foldlM write st = some st') :
    ∃ t, st'.2.sent = st.2.sent ++ t ∧ t <+: xs.flatMap Piece.text := by
  induction xs generalizing st with
  | nil => cases h; exact ⟨[], by simp, List.nil_prefix⟩
  | cons x xs ih =>
    rw [List.foldlM_cons] at h
    cases hw : write st x with
    | none => rw [hw] at h; cases h
    | some st1 =>
      rw [hw] at h
      obtain ⟨h1, h2, h3⟩ := write_prefix st st1 x hw
      have hbad : ∀ (ys : List Piece) (s : Bool × Out), s.1 = true → ys.foldlM write s = some s := by
        intro ys
        induction ys with
        | nil => intro s _; rfl
        | cons y ys ihy =>
          intro s hs
          have : write s y = some s := by cases y <;> simp [write, hs]
          rw [List.foldlM_cons, this]
          exact ihy s hs
      cases hb : st.1 with
      | true =>
        rw [h1 hb] at h
        have := hbad xs st hb
        rw [show (some st >>= fun s' => xs.foldlM write s') = xs.foldlM write st from rfl, this] at h
        cases h
        exact ⟨[], by simp, List.nil_prefix⟩
      | false =>
        cases hb1 : st1.1 with
        | true =>
          have := hbad xs st1 hb1
          rw [show (some st1 >>= fun s' => xs.foldlM write s') = xs.foldlM write st1 from rfl, this] at h
          cases h
          obtain ⟨t, e1, e2⟩ := h3 hb
          exact ⟨t, e1, e2.trans (by rw [List.flatMap_cons]; exact List.prefix_append _ _)⟩
        | false =>
          obtain ⟨t, e1, e2⟩ := ih st1 h
          refine ⟨Piece.text x ++ t, by rw [e1, h2 hb hb1, List.append_assoc], ?_⟩
          rw [List.flatMap_cons]
          exact (List.prefix_append_right_inj _).2 e2

/-! ### What is read is enough -/

theorem exec_take (env : Cgi.Env) (max : Nat) (input : Str) : (Cgi.exec env max (input.take (wanted env max))).1 = (Cgi.exec env max input).1 := by
  have hp : ([80, 79, 83, 84] : Str) = ascii "POST" := by decide
  unfold Cgi.exec
  by_cases h1 : env.method = [71, 69, 84]
  · rw [if_pos h1, if_pos h1]
  · rw [if_neg h1, if_neg h1]
    by_cases h2 : env.method = [80, 79, 83, 84]
    · rw [if_pos h2, if_pos h2]
      dsimp only
      by_cases h3 : max < Cgi.contentLength env.contentLength
      · rw [if_pos h3, if_pos h3]
      · rw [if_neg h3, if_neg h3]
        have hw : wanted env max = Cgi.contentLength env.contentLength := if_pos ⟨h2.trans hp, by omega⟩
        rw [hw, List.take_take, Nat.min_self]
        by_cases h4 : input.length < Cgi.contentLength env.contentLength
        · have h5 : (input.take (Cgi.contentLength env.contentLength)).length < Cgi.contentLength env.contentLength := by rw [List.length_take]; omega
          rw [if_pos h4, if_pos h5]
        · have h5 : ¬ (input.take (Cgi.contentLength env.contentLength)).length < Cgi.contentLength env.contentLength := by rw [List.length_take]; omega
          rw [if_neg h4, if_neg h5]
    · rw [if_neg h2, if_neg h2]

theorem formEnv_like {a b : Env} (h : Like a b) : formEnv b = formEnv a := by
  unfold formEnv
  rw [like_getD h, like_getD h, like_getD h, like_getD h]

theorem touched_take (max : Nat) (env : Env) (input : Str) : touched max env (input.take (wanted (formEnv env) max)) = touched max env input := by
  have e1 : formEnv (touch "REQUEST_METHOD" env) = formEnv env := formEnv_like (like_touch _ (Like.refl _))
  have e2 : formEnv (touch "CONTENT_LENGTH" (touch "REQUEST_METHOD" env)) = formEnv env := formEnv_like (like_touch _ (like_touch _ (Like.refl _)))
  unfold touched
  simp only [e1, e2]
  split
  · rfl
  · split
    · next hm =>
      by_cases h : max < Cgi.contentLength (formEnv env).contentLength
      · rw [if_pos (.inl h), if_pos (.inl h)]
      · have hw : wanted (formEnv env) max = Cgi.contentLength (formEnv env).contentLength := by
          unfold wanted
          rw [if_pos ⟨hm, by omega⟩]
        rw [hw, List.length_take]
        by_cases h' : input.length < Cgi.contentLength (formEnv env).contentLength
        · rw [if_pos (.inr (by omega)), if_pos (.inr h')]
        · rw [if_neg (by omega), if_neg (by omega)]
    · rfl

theorem answer_take {σ : Type} (p : Program σ) (st : σ) (env : Env) (input : Str) :
    answer p st env (input.take (wanted (formEnv env) p.maxLength)) = answer p st env input := by
  unfold answer
  rw [exec_take, touched_take]

end Verif.CgiRun.Lemmas
