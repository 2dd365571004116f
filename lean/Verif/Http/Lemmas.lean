import Verif.Http.Spec
/-! Lemmas about HTTP headers and bodies. -/

namespace Verif.Http.Lemmas
open Verif.Socket Verif.Http Verif.Http.Spec

/-! ### The header as a map -/

theorem cicmp_iff : ∀ s t : Str, cicmp s t = true ↔ fold s = fold t
  | [], [] => by simp [cicmp, fold]
  | [], _ :: _ => by simp [cicmp, fold]
  | _ :: _, [] => by simp [cicmp, fold]
  | c :: s, d :: t => by
    have := cicmp_iff s t
    unfold fold at this ⊢
    simp [cicmp, this, tolower]

/-- The names, without regard to case. -/
def names (h : Header) : List Str := h.map fun e => fold e.1

/-- What belongs to a name. -/
def lookup (h : Header) (n : Str) : Option Str := (h.find? fun e => fold e.1 = fold n).map (·.2)

theorem getConst_eq (n : Str) (h : Header) : getConst n h = (lookup h n).getD [] := by
  induction h with
  | nil => rfl
  | cons e h ih =>
    unfold getConst lookup
    by_cases hc : fold e.1 = fold n
    · rw [if_pos ((cicmp_iff _ _).2 hc)]
      simp [hc]
    · rw [if_neg (fun h' => hc ((cicmp_iff _ _).1 h')), ih]
      simp [lookup, hc]

theorem hasKey_iff (n : Str) (h : Header) : hasKey n h = (lookup h n).isSome := by
  induction h with
  | nil => rfl
  | cons e h ih =>
    unfold hasKey lookup
    by_cases hc : fold e.1 = fold n
    · simp [(cicmp_iff _ _).2 hc, hc]
    · have : cicmp e.1 n = false := by
        cases hx : cicmp e.1 n with
        | false => rfl
        | true => exact absurd ((cicmp_iff _ _).1 hx) hc
      rw [this, ih]
      simp [lookup, hc]

theorem lookup_none {h : Header} {n : Str} : lookup h n = none ↔ fold n ∉ names h := by
  simp only [lookup, names, Option.map_eq_none_iff, List.find?_eq_none, decide_eq_true_eq, List.mem_map, not_exists, not_and]

theorem names_update (k : Str) (f : Str → Str) (h : Header) :
    names (update k f h) = if fold k ∈ names h then names h else names h ++ [fold k] := by
  induction h with
  | nil => rfl
  | cons e h ih =>
    unfold update
    by_cases hc : fold e.1 = fold k
    · rw [if_pos ((cicmp_iff _ _).2 hc)]
      simp [names, hc]
    · rw [if_neg (fun h' => hc ((cicmp_iff _ _).1 h'))]
      have e1 : ∀ h : Header, names (e :: h) = fold e.1 :: names h := fun _ => rfl
      rw [e1, ih, e1]
      simp only [List.mem_cons, Ne.symm hc, false_or]
      split <;> simp

theorem lookup_update (k : Str) (f : Str → Str) (h : Header) (n : Str) :
    lookup (update k f h) n = if fold k = fold n then some (f ((lookup h n).getD [])) else lookup h n := by
  induction h with
  | nil =>
    by_cases hk : fold k = fold n
    · simp [update, lookup, hk]
    · simp [update, lookup, hk]
  | cons e h ih =>
    unfold update
    by_cases hc : fold e.1 = fold k
    · rw [if_pos ((cicmp_iff _ _).2 hc)]
      by_cases hk : fold k = fold n
      · simp [lookup, hc, hk]
      · simp [lookup, hc, hk]
    · rw [if_neg (fun h' => hc ((cicmp_iff _ _).1 h'))]
      by_cases hn : fold e.1 = fold n
      · have hk : ¬ fold k = fold n := fun h' => hc (hn.trans h'.symm)
        simp [lookup, hn, hk]
      · have e1 : ∀ h : Header, lookup (e :: h) n = lookup h n := fun h => by simp [lookup, hn]
        rw [e1, e1, ih]

theorem names_erase (k : Str) (h : Header) (hn : (names h).Nodup) :
    names (erase k h) = (names h).filter (· ≠ fold k) := by
  induction h with
  | nil => rfl
  | cons e h ih =>
    have e1 : ∀ h : Header, names (e :: h) = fold e.1 :: names h := fun _ => rfl
    rw [e1, List.nodup_cons] at hn
    unfold erase
    by_cases hc : fold e.1 = fold k
    · rw [if_pos ((cicmp_iff _ _).2 hc), e1, List.filter_cons, if_neg (by simp [hc])]
      rw [List.filter_eq_self.2]
      intro x hx
      simp only [ne_eq, decide_not, Bool.not_eq_eq_eq_not, Bool.not_true, decide_eq_false_iff_not]
      rintro rfl
      exact hn.1 (hc ▸ hx)
    · rw [if_neg (fun h' => hc ((cicmp_iff _ _).1 h')), e1, e1, ih hn.2, List.filter_cons, if_pos (by simp [hc])]

theorem lookup_erase (k : Str) (h : Header) (n : Str) (hn : (names h).Nodup) :
    lookup (erase k h) n = if fold k = fold n then none else lookup h n := by
  induction h with
  | nil => simp [erase, lookup]
  | cons e h ih =>
    have e1 : ∀ h : Header, names (e :: h) = fold e.1 :: names h := fun _ => rfl
    rw [e1, List.nodup_cons] at hn
    unfold erase
    by_cases hc : fold e.1 = fold k
    · rw [if_pos ((cicmp_iff _ _).2 hc)]
      by_cases hk : fold k = fold n
      · rw [if_pos hk]
        exact lookup_none.2 (by rw [← hk, ← hc]; exact hn.1)
      · rw [if_neg hk]
        simp [lookup, hc, hk]
    · rw [if_neg (fun h' => hc ((cicmp_iff _ _).1 h'))]
      by_cases hx : fold e.1 = fold n
      · have hk : ¬ fold k = fold n := fun h' => hc (hx.trans h'.symm)
        simp [lookup, hx, hk]
      · have e2 : ∀ h : Header, lookup (e :: h) n = lookup h n := fun h => by simp [lookup, hx]
        rw [e2, e2, ih hn.2]

theorem names_after (ops : List HOp) : (names (after ops)).Nodup ∧ names (after ops) = order ops := by
  induction ops with
  | nil => exact ⟨List.nodup_nil, rfl⟩
  | cons o ops ih =>
    obtain ⟨h1, h2⟩ := ih
    have nodup_new : ∀ k : Str, (if fold k ∈ names (after ops) then names (after ops) else names (after ops) ++ [fold k]).Nodup := by
      intro k
      split
      · exact h1
      · rename_i hk
        rw [List.nodup_append]
        refine ⟨h1, by simp, ?_⟩
        intro a ha b hb
        rw [List.mem_singleton] at hb
        rintro rfl
        exact hk (hb ▸ ha)
    cases o with
    | set k v =>
      have e : names (after (.set k v :: ops)) = _ := names_update k (fun _ => v) (after ops)
      exact ⟨e ▸ nodup_new k, by rw [e, h2]; rfl⟩
    | get k =>
      have e : names (after (.get k :: ops)) = _ := names_update k id (after ops)
      exact ⟨e ▸ nodup_new k, by rw [e, h2]; rfl⟩
    | erase k =>
      have e : names (after (.erase k :: ops)) = _ := names_erase k (after ops) h1
      exact ⟨e ▸ h1.filter _, by rw [e, h2]; rfl⟩

theorem lookup_after (ops : List HOp) (n : Str) : lookup (after ops) n = value ops n := by
  induction ops with
  | nil => rfl
  | cons o ops ih =>
    cases o with
    | set k v =>
      have e : lookup (after (.set k v :: ops)) n = _ := lookup_update k (fun _ => v) (after ops) n
      rw [e, ih]; rfl
    | get k =>
      have e : lookup (after (.get k :: ops)) n = _ := lookup_update k id (after ops) n
      rw [e, ih]; rfl
    | erase k =>
      have e : lookup (after (.erase k :: ops)) n = _ := lookup_erase k (after ops) n (names_after ops).1
      rw [e, ih]; rfl

/-- `set` of a new name puts it at the end. -/
theorem set_new (k v : Str) (h : Header) (hk : fold k ∉ names h) : set k v h = h ++ [(k, v)] := by
  induction h with
  | nil => rfl
  | cons e h ih =>
    have e1 : ∀ h : Header, names (e :: h) = fold e.1 :: names h := fun _ => rfl
    rw [e1, List.mem_cons, not_or] at hk
    unfold set update
    rw [if_neg (fun h' => hk.1 ((cicmp_iff _ _).1 h').symm)]
    exact congrArg (e :: ·) (ih hk.2)

/-! ### Lines -/

theorem isspace_iff (c : UInt8) : isspace c = true ↔ Space c := by
  simp [isspace, Space]

/-- A line of the stream that fits into the limit. -/
theorem nextLine_crlf (l rest : Str) (h : 10 ∉ l) (hl : l.length + 2 ≤ 4096) :
    Socket.Spec.nextLine (some 4096) (l ++ [13, 10] ++ rest) = (some l, rest) := by
  have e : l ++ [13, 10] ++ rest = (l ++ [13]) ++ 10 :: rest := by simp
  have h' : 10 ∉ l ++ [13] := by simp [h]
  have ht : ((l ++ [13]) ++ 10 :: rest).takeWhile (· ≠ 10) = l ++ [13] := by
    rw [List.takeWhile_append_of_pos]
    · simp
    · intro a ha
      simp only [ne_eq, decide_eq_true_eq]
      rintro rfl
      exact h' ha
  rw [e]
  unfold Socket.Spec.nextLine
  dsimp only
  rw [ht, if_neg, if_pos (by simp)]
  · congr 1
    · simp [Socket.Spec.dropCR]
    · rw [List.drop_append, List.drop_eq_nil_iff.2 (by omega)]
      simp
  · rintro ⟨n, hn, hle⟩
    cases hn
    rw [List.length_append, List.length_singleton] at hle
    omega

theorem flat_line (l rest : Str) (h : 10 ∉ l) (hl : l.length + 2 ≤ 4096) :
    (Prog.getline (lineLimit : Nat)).flat (l ++ [13, 10] ++ rest) = (some l, rest) := by
  rw [Prog.flat_getline, if_neg (by omega)]
  exact nextLine_crlf l rest h hl

theorem flat_bind {α β : Type} (p : Prog α) (f : α → Prog β) (s : Str) :
    (p.bind f).flat s = (f (p.flat s).1).flat (p.flat s).2 := Prog.run_bind' _ p f s

theorem flat_bind_eq {α β : Type} {p : Prog α} {f : α → Prog β} {s s' : Str} {a : α} (h : p.flat s = (a, s')) :
    (p.bind f).flat s = (f a).flat s' := by rw [flat_bind, h]

theorem flat_ret {α : Type} (a : α) (s : Str) : (Prog.ret a).flat s = (a, s) := rfl

/-! ### The header on the wire -/

theorem splitLine_eq (k v : Str) (h : 58 ∉ k) : ∀ acc, splitLine acc (k ++ 58 :: v) = (((acc ++ k).reverse.dropWhile isspace).reverse, v) := by
  induction k with
  | nil => intro acc; simp [splitLine]
  | cons c k ih =>
    intro acc
    rw [List.mem_cons, not_or] at h
    rw [List.cons_append, splitLine, if_pos (Ne.symm h.1), ih h.2]
    simp

theorem dropWhile_head {p : UInt8 → Bool} {l : Str} (h : ∀ c ∈ l.head?, p c = false) : l.dropWhile p = l := by
  cases l with
  | nil => rfl
  | cons c l => simp [h c (by simp)]

/-- The line of a legal field. -/
def fieldLine (e : Str × Str) : Str := e.1 ++ 58 :: 32 :: e.2

theorem text_cons (e : Str × Str) (h : Header) : text (e :: h) = fieldLine e ++ [13, 10] ++ text h := by
  simp [text, fieldLine]

theorem legal_line {e : Str × Str} (h : Legal e) :
    10 ∉ fieldLine e ∧ (fieldLine e).length + 2 ≤ 4096 ∧ splitLine [] (fieldLine e) = (e.1, 32 :: e.2)
      ∧ (32 :: e.2).dropWhile isspace = e.2 ∧ ∃ c l, fieldLine e = c :: l ∧ isspace c = false ∧ c :: l ≠ [13] := by
  have hns : ∀ c ∈ e.1, isspace c = false := by
    intro c hc
    cases hx : isspace c with
    | false => rfl
    | true => exact absurd ((isspace_iff c).1 hx) (h.token c hc).1
  refine ⟨?_, ?_, ?_, ?_, ?_⟩
  · unfold fieldLine
    simp only [List.mem_append, List.mem_cons, not_or]
    refine ⟨fun hc => ?_, by decide, by decide, h.oneLine⟩
    exact (h.token 10 hc).1 (Or.inr (by decide))
  · have := h.short
    simp [fieldLine]
    omega
  · unfold fieldLine
    rw [splitLine_eq _ _ (fun hc => (h.token 58 hc).2 rfl), List.nil_append, dropWhile_head, List.reverse_reverse]
    intro c hc
    refine hns c ?_
    rw [List.head?_reverse] at hc
    exact List.mem_of_getLast? hc
  · rw [List.dropWhile_cons, if_pos (by decide), dropWhile_head]
    intro c hc
    cases hx : isspace c with
    | false => rfl
    | true => exact absurd ((isspace_iff c).1 hx) (h.start c hc)
  · obtain ⟨k, v⟩ := e
    cases k with
    | nil => exact absurd rfl h.nonempty
    | cons c k =>
      refine ⟨c, k ++ 58 :: 32 :: v, rfl, hns c (by simp), ?_⟩
      simp

/-- Reading the fields behind the line of the first. -/
theorem readFields_text (rest : Str) : ∀ (h : Header) (e : Str × Str) (done : Header) (fuel : Nat),
    h.length < fuel → Legal e → (∀ e ∈ h, Legal e) → (names (done ++ e :: h)).Nodup →
    (readFields (Prog.getline (lineLimit : Nat)) fuel (fieldLine e) done).flat (text h ++ rest) = (.ok (done ++ e :: h), rest) := by
  intro h
  induction h with
  | nil =>
    intro e done fuel hf he _ hn
    obtain ⟨fuel, rfl⟩ : ∃ n, fuel = n + 1 := ⟨fuel - 1, by omega⟩
    obtain ⟨_, _, h3, h4, _⟩ := legal_line he
    have hnew : fold e.1 ∉ names done := by
      have e1 : names (done ++ [e]) = names done ++ [fold e.1] := by simp [names]
      rw [e1, List.nodup_append] at hn
      intro hx
      exact hn.2.2 _ hx _ (List.mem_singleton.2 rfl) rfl
    have hl : (Prog.getline (lineLimit : Nat)).flat (text [] ++ rest) = (some [], rest) := flat_line [] rest (by simp) (by decide)
    unfold readFields
    rw [h3]
    dsimp only
    have hr : (readLws (Prog.getline (lineLimit : Nat)) (fuel + 1) (32 :: e.2)).flat (text [] ++ rest) = (some (none, 32 :: e.2), rest) := by
      unfold readLws
      rw [flat_bind_eq hl]
      rfl
    rw [flat_bind_eq hr]
    dsimp only
    rw [h4, set_new _ _ _ hnew]
    rfl
  | cons e' h ih =>
    intro e done fuel hf he hh hn
    obtain ⟨fuel, rfl⟩ : ∃ n, fuel = n + 1 := ⟨fuel - 1, by omega⟩
    obtain ⟨_, _, h3, h4, _⟩ := legal_line he
    obtain ⟨g1, g2, _, _, c, l, g5, g6, g7⟩ := legal_line (hh e' (by simp))
    have hn' : (names (done ++ [e] ++ e' :: h)).Nodup := by
      rw [List.append_assoc]; exact hn
    have hnew : fold e.1 ∉ names done := by
      have e1 : names (done ++ e :: e' :: h) = names done ++ fold e.1 :: names (e' :: h) := by simp [names]
      rw [e1, List.nodup_append] at hn
      intro hx
      exact hn.2.2 _ hx _ (by simp) rfl
    have hl : (Prog.getline (lineLimit : Nat)).flat (text (e' :: h) ++ rest) = (some (fieldLine e'), text h ++ rest) := by
      rw [text_cons, List.append_assoc]
      exact flat_line _ _ g1 g2
    unfold readFields
    rw [h3]
    dsimp only
    have hr : (readLws (Prog.getline (lineLimit : Nat)) (fuel + 1) (32 :: e.2)).flat (text (e' :: h) ++ rest)
        = (some (some (fieldLine e'), 32 :: e.2), text h ++ rest) := by
      unfold readLws
      rw [flat_bind_eq hl, g5]
      dsimp only
      rw [if_neg g7, if_neg (by simp [g6]), flat_ret]
    rw [flat_bind_eq hr]
    dsimp only
    rw [h4, set_new _ _ _ hnew, ih e' (done ++ [e]) fuel (by simpa using hf) (hh e' (by simp)) (fun x hx => hh x (by simp [hx])) hn']
    simp

theorem header_text (h : Header) (rest : Str) (fuel : Nat) (hf : h.length < fuel) (hl : ∀ e ∈ h, Legal e) (hn : (names h).Nodup) :
    (headerOfSocket fuel).flat (text h ++ rest) = (.ok h, rest) := by
  unfold headerOfSocket readHeader
  cases h with
  | nil =>
    have hl : (Prog.getline (lineLimit : Nat)).flat (text [] ++ rest) = (some [], rest) := flat_line [] rest (by simp) (by decide)
    rw [flat_bind_eq hl]
    rfl
  | cons e h =>
    obtain ⟨g1, g2, _, _, c, l, g5, _, _⟩ := legal_line (hl e (by simp))
    have h1 : (Prog.getline (lineLimit : Nat)).flat (text (e :: h) ++ rest) = (some (fieldLine e), text h ++ rest) := by
      rw [text_cons, List.append_assoc]
      exact flat_line _ _ g1 g2
    rw [flat_bind_eq h1]
    have := readFields_text rest h e [] fuel (by simp at hf; omega) (hl e (by simp)) (fun x hx => hl x (by simp [hx])) hn
    rw [g5] at this ⊢
    exact this

theorem written_sendOps (h : Header) : Socket.Spec.written (sendOps h) = text h := by
  unfold sendOps
  induction h with
  | nil => rfl
  | cons e h ih =>
    rw [List.map_cons, List.cons_append, Socket.Spec.written, ih]
    simp [fieldText, text]

theorem writing_sendOps (h : Header) : ∀ o ∈ sendOps h, Socket.Spec.Writing o := by
  intro o ho
  simp only [sendOps, List.mem_append, List.mem_map, List.mem_singleton] at ho
  rcases ho with ⟨e, _, rfl⟩ | rfl <;> trivial

theorem reads_readLws {f : Prog (Option Str)} (hf : f.Reads) : ∀ n val, (readLws f n val).Reads := by
  intro n
  induction n with
  | zero => intro val; exact .ret _
  | succ n ih =>
    intro val
    unfold readLws
    refine Prog.reads_bind hf fun r => ?_
    split
    · exact .ret _
    · exact .ret _
    · split
      · exact .ret _
      · split
        · exact ih _
        · exact .ret _

theorem reads_readFields {f : Prog (Option Str)} (hf : f.Reads) : ∀ n line h, (readFields f n line h).Reads := by
  intro n
  induction n with
  | zero => intro line h; exact .ret _
  | succ n ih =>
    intro line h
    unfold readFields
    refine Prog.reads_bind (reads_readLws hf _ _) fun r => ?_
    split
    · exact .ret _
    · dsimp only
      split
      · exact .ret _
      · exact ih _ _

theorem reads_header (fuel : Nat) : (headerOfSocket fuel).Reads := by
  unfold headerOfSocket readHeader
  refine Prog.reads_bind (Prog.reads_getline _) fun r => ?_
  split
  · exact .ret _
  · exact .ret _
  · exact reads_readFields (Prog.reads_getline _) _ _ _

/-! ### Folded lines -/

/-- No two spaces next to each other, none after a space. -/
def single : Bool → Str → Prop
  | _, [] => True
  | b, c :: s => (b = true → isspace c = false) ∧ single (isspace c) s

theorem joinLws_single : ∀ (s val : Str), single (val.getLast?.any isspace) s → joinLws val s = val ++ s := by
  intro s
  induction s with
  | nil => intro val _; simp [joinLws]
  | cons c s ih =>
    intro val h
    unfold joinLws
    rw [if_neg, ih]
    · simp
    · simpa using h.2
    · intro h'
      rw [Bool.and_eq_true] at h'
      rw [h.1 h'.1] at h'
      simp at h'

theorem joinLws_spaces : ∀ (w s val : Str), (∀ c ∈ w, isspace c = true) → val.getLast?.any isspace = true →
    joinLws val (w ++ s) = joinLws val s := by
  intro w
  induction w with
  | nil => intro s val _ _; rfl
  | cons c w ih =>
    intro s val hw hv
    rw [List.cons_append, joinLws, if_pos (by simp [hv, hw c (by simp)])]
    exact ih s val (fun c hc => hw c (by simp [hc])) hv

end Verif.Http.Lemmas
