import Verif.DbConnect.Spec
/-! # Lemmas: connection strings -/
namespace Verif.DbConnect.Lemmas
open Verif.DbConnect Verif.DbConnect.Spec

/-- A byte of a plain value. -/
def Ok (c : UInt8) : Prop := space c = false ∧ c ≠ 92 ∧ c ≠ 0

theorem bare_plain {v : Str} (h : ∀ c ∈ v, Ok c) (rest : Str) : bare (v ++ 32 :: rest) = (v, rest) := by
  induction v with
  | nil =>
    rw [List.nil_append, bare.eq_4 _ _ (by simp) (by simp)]
    simp [space]
  | cons c v ih =>
    have hc := h c List.mem_cons_self
    rw [List.cons_append, bare.eq_4 _ _ (by intro h; exact absurd h hc.2.1) (by intro _ _ h; exact absurd h hc.2.1)]
    rw [if_neg (by rw [hc.1]; simp), ih (fun c h' => h c (List.mem_cons_of_mem _ h'))]

theorem bare_end {v : Str} (h : ∀ c ∈ v, Ok c) : bare v = (v, []) := by
  induction v with
  | nil => rfl
  | cons c v ih =>
    have hc := h c List.mem_cons_self
    rw [bare.eq_4 _ _ (by intro h; exact absurd h hc.2.1) (by intro _ _ h; exact absurd h hc.2.1)]
    rw [if_neg (by rw [hc.1]; simp), ih (fun c h' => h c (List.mem_cons_of_mem _ h'))]

theorem value_bare {s : Str} (h : s.head? ≠ some 39) : value s = some (bare s) := by
  unfold value
  split
  · simp at h
  · rfl

theorem skip_cons {c : UInt8} {s : Str} (h : space c = false) : skip (c :: s) = c :: s := by
  unfold skip
  rw [List.dropWhile_cons_of_neg (by rw [h]; simp)]

theorem keyword_plain {k : Str} (h : ∀ c ∈ k, c ≠ 61 ∧ space c = false) (rest : Str) : keyword (k ++ 61 :: rest) = (k, 61 :: rest) := by
  induction k with
  | nil => rfl
  | cons c k ih =>
    have hc := h c List.mem_cons_self
    rw [List.cons_append, keyword, if_neg (by simp [hc.1, hc.2]), ih (fun c h' => h c (List.mem_cons_of_mem _ h'))]

/-- `a` is a way to write the value `v`, followed by white space or nothing. -/
def Arg (a v : Str) : Prop :=
  ∀ rest : Str, rest = [] ∨ (∃ r, rest = 32 :: r) → ∃ rest', value (skip (a ++ rest)) = some (v, rest') ∧ skip rest' = skip rest

theorem skip_space (s : Str) : skip (32 :: s) = skip s := by
  unfold skip
  rw [List.dropWhile_cons_of_pos (by decide)]

theorem arg_plain {v : Str} (hv : Plain v) : Arg v v := by
  obtain ⟨h0, h1, h2⟩ := hv
  intro rest hr
  cases v with
  | nil => exact absurd rfl h0
  | cons c v =>
    have hc := h1 c List.mem_cons_self
    rw [List.cons_append, skip_cons hc.1, value_bare (by simpa using h2), ← List.cons_append]
    rcases hr with rfl | ⟨r, rfl⟩
    · rw [List.append_nil, bare_end h1]
      exact ⟨[], rfl, rfl⟩
    · rw [bare_plain h1]
      exact ⟨r, rfl, (skip_space r).symm⟩

theorem quoted_quote (v rest : Str) :
    quoted (v.flatMap (fun c => if c = 39 || c = 92 then [92, c] else [c]) ++ [39] ++ rest) = some (v, rest) := by
  induction v with
  | nil => simp [quoted]
  | cons c v ih =>
    rw [List.flatMap_cons]
    split
    · simp only [List.cons_append, List.nil_append]
      rw [quoted, ih]
      rfl
    · rename_i h
      have h1 : c ≠ 39 ∧ c ≠ 92 := by simpa using h
      simp only [List.cons_append, List.nil_append]
      rw [quoted.eq_4 _ _ (by intro h; exact absurd h h1.2) (by intro _ _ h; exact absurd h h1.2), if_neg h1.1, ih]
      rfl

theorem arg_quote (v : Str) : Arg (quote v) v := by
  intro rest hr
  refine ⟨rest, ?_, rfl⟩
  unfold quote
  rw [List.cons_append, skip_cons (by decide)]
  exact quoted_quote v rest

/-- One setting at the beginning. -/
theorem settings_arg {k a v rest : Str} {fuel : Nat} (hk : k ≠ []) (hks : ∀ c ∈ k, c ≠ 61 ∧ space c = false) (ha : Arg a v)
    (hr : rest = [] ∨ ∃ r, rest = 32 :: r) : settings (fuel + 1) (k ++ 61 :: (a ++ rest)) = (settings fuel rest).map ((k, v) :: ·) := by
  obtain ⟨rest', h1, h2⟩ := ha rest hr
  have hset : setting (k ++ 61 :: (a ++ rest)) = some ((k, v), rest') := by
    unfold setting
    rw [keyword_plain hks]
    dsimp only
    rw [skip_cons (by decide)]
    simp only [h1]
    rfl
  have hf : settings fuel rest' = settings fuel rest := by
    cases fuel with
    | zero => rfl
    | succ n => rw [settings, settings, h2]
  cases k with
  | nil => exact absurd rfl hk
  | cons c k =>
    rw [settings, List.cons_append, skip_cons (hks c List.mem_cons_self).2]
    dsimp only
    rw [← List.cons_append, hset, ← hf]

theorem settings_space (fuel : Nat) (s : Str) : settings fuel (32 :: s) = settings fuel s := by
  cases fuel with
  | zero => rfl
  | succ n => rw [settings, settings, skip_space]

/-- Settings one after the other. -/
def render : List (Str × Str) → Str
  | [] => []
  | [(k, a)] => k ++ 61 :: a
  | (k, a) :: l => k ++ 61 :: (a ++ 32 :: render l)

theorem settings_render {l : List (Str × Str × Str)} (h : ∀ x ∈ l, x.1 ≠ [] ∧ (∀ c ∈ x.1, c ≠ 61 ∧ space c = false) ∧ Arg x.2.1 x.2.2) :
    settings (l.length + 1) (render (l.map (fun x => (x.1, x.2.1)))) = some (l.map (fun x => (x.1, x.2.2))) := by
  induction l with
  | nil => rfl
  | cons x l ih =>
    obtain ⟨h1, h2, h3⟩ := h x List.mem_cons_self
    have ih := ih (fun y hy => h y (List.mem_cons_of_mem _ hy))
    cases l with
    | nil =>
      have := settings_arg (fuel := 1) h1 h2 h3 (Or.inl rfl)
      rw [List.append_nil] at this
      simp only [List.map_cons, List.map_nil, render, List.length_cons, List.length_nil]
      rw [this]
      rfl
    | cons y l =>
      have := settings_arg (fuel := (y :: l).length + 1) h1 h2 h3 (Or.inr ⟨render ((y :: l).map (fun x => (x.1, x.2.1))), rfl⟩)
      rw [settings_space, ih] at this
      exact this

theorem render_length (l : List (Str × Str)) : l.length ≤ (render l).length := by
  induction l with
  | nil => simp
  | cons x l ih =>
    cases l with
    | nil => simp [render]; omega
    | cons y l => simp only [render, List.length_cons, List.length_append] at ih ⊢; omega

/-- With more fuel the same comes out. -/
theorem settings_mono {n : Nat} {s : Str} {r : List (Str × Str)} (h : settings n s = some r) : ∀ m, n ≤ m → settings m s = some r := by
  induction n generalizing s r with
  | zero => cases h
  | succ n ih =>
    intro m hm
    cases m with
    | zero => omega
    | succ m =>
      rw [settings] at h ⊢
      split at h
      · exact h
      · rename_i c t e
        split at h
        · cases h
        · rename_i kv t' e2
          obtain ⟨r', h1, h2⟩ := Option.map_eq_some_iff.1 h
          rw [ih h1 m (by omega)]
          exact congrArg some h2

theorem cstr_all {s : Str} (h : ∀ c ∈ s, c ≠ 0) : cstr s = s := by
  unfold cstr
  induction s with
  | nil => rfl
  | cons c s ih =>
    rw [List.takeWhile_cons_of_pos (by simpa using h c List.mem_cons_self), ih (fun c hc => h c (List.mem_cons_of_mem _ hc))]

theorem digits_plain (n : Nat) : Plain (Decimal.digits n) := by
  obtain ⟨h1, h2, _⟩ := Decimal.digits_spec n
  have all : ∀ c : UInt8, Decimal.isDigit c = true → (space c = false ∧ c ≠ 92 ∧ c ≠ 0) ∧ c ≠ 39 := by
    intro c hc
    have h := Decimal.digit_bounds hc
    have : ∀ n : Fin 256, 48 ≤ n.1 → n.1 ≤ 57 → (space (UInt8.ofNat n.1) = false ∧ UInt8.ofNat n.1 ≠ 92 ∧ UInt8.ofNat n.1 ≠ 0) ∧ UInt8.ofNat n.1 ≠ 39 := by
      decide +kernel
    have := this ⟨c.toNat, c.toNat_lt⟩ h.1 h.2
    simpa using this
  refine ⟨h1, fun c hc => (all c (h2 c hc)).1, ?_⟩
  intro h
  exact (all 39 (h2 39 (List.mem_of_mem_head? h))).2 rfl

/-- What a text of settings is read as. -/
theorem parse_render {l : List (Str × Str × Str)} (h : ∀ x ∈ l, x.1 ≠ [] ∧ (∀ c ∈ x.1, c ≠ 61 ∧ space c = false) ∧ Arg x.2.1 x.2.2) :
    parse (render (l.map (fun x => (x.1, x.2.1)))) = some (l.map (fun x => (x.1, x.2.2))) := by
  refine settings_mono (settings_render h) _ ?_
  have := render_length (l.map (fun x => (x.1, x.2.1)))
  simp only [List.length_map] at this
  omega

theorem conninfo_render (host : Str) (port : UInt16) (dbname user password : Str) :
    conninfo host port dbname user password = render [(ascii "host", host), (ascii "port", Decimal.digits port.toNat), (ascii "dbname", dbname),
      (ascii "user", user), (ascii "password", password)] := by
  have e : ∀ s : String, ∀ t : Str, ascii (s ++ "=") ++ t = ascii s ++ 61 :: t := by
    intro s t
    simp [ascii]
  have e1 := e "host"
  have e2 := e "port"
  have e3 := e "dbname"
  have e4 := e "user"
  have e5 := e "password"
  have sp : ascii " " = [32] := by decide
  simp only [conninfo, render, List.append_assoc, sp]
  rw [show "host=" = "host" ++ "=" by decide, show "port=" = "port" ++ "=" by decide, show "dbname=" = "dbname" ++ "=" by decide,
    show "user=" = "user" ++ "=" by decide, show "password=" = "password" ++ "=" by decide, e1, e2, e3, e4, e5]
  simp

theorem keys : (∀ c ∈ ascii "host", c ≠ 61 ∧ space c = false) ∧ (∀ c ∈ ascii "port", c ≠ 61 ∧ space c = false) ∧
    (∀ c ∈ ascii "dbname", c ≠ 61 ∧ space c = false) ∧ (∀ c ∈ ascii "user", c ≠ 61 ∧ space c = false) ∧
    (∀ c ∈ ascii "password", c ≠ 61 ∧ space c = false) := by decide

/-- A way to write a value without a NUL. -/
theorem no_nul {host : Str} {port : UInt16} {dbname user password : Str} (h1 : 0 ∉ host) (h2 : 0 ∉ dbname) (h3 : 0 ∉ user) (h4 : 0 ∉ password) :
    pgConnect host port dbname user password = conninfo host port dbname user password := by
  refine cstr_all ?_
  intro c hc h
  subst h
  have hd : (0 : UInt8) ∉ Decimal.digits port.toNat := fun h => (digits_plain _).2.1 0 h |>.2.2 rfl
  simp only [conninfo, List.mem_append] at hc
  have a1 : (0 : UInt8) ∉ ascii "host=" := by decide
  have a2 : (0 : UInt8) ∉ ascii "port=" := by decide
  have a3 : (0 : UInt8) ∉ ascii "dbname=" := by decide
  have a4 : (0 : UInt8) ∉ ascii "user=" := by decide
  have a5 : (0 : UInt8) ∉ ascii "password=" := by decide
  have a6 : (0 : UInt8) ∉ ascii " " := by decide
  simp only [a1, a2, a3, a4, a5, a6, hd, h1, h2, h3, h4, or_self] at hc

theorem quote_nul {v : Str} (h : 0 ∉ v) : 0 ∉ quote v := by
  unfold quote
  simp only [List.mem_cons, List.mem_append, List.mem_flatMap]
  rintro (h1 | ⟨c, hc, h1⟩ | h1)
  · cases h1
  · split at h1
    · simp only [List.mem_cons, List.not_mem_nil, or_false] at h1
      rcases h1 with h1 | h1
      · cases h1
      · exact h (h1 ▸ hc)
    · simp only [List.mem_cons, List.not_mem_nil, or_false] at h1
      exact h (h1 ▸ hc)
  · rcases h1 with h1 | h1
    · cases h1
    · cases h1

theorem plain_nul {v : Str} (h : Plain v) : 0 ∉ v := fun h0 => (h.2.1 0 h0).2.2 rfl

/-- What the client library reads, however the values are written. -/
theorem read_as {h d u p vh vd vu vp : Str} (port : UInt16) (nh : 0 ∉ h) (nd : 0 ∉ d) (nu : 0 ∉ u) (np : 0 ∉ p)
    (ah : Arg h vh) (ad : Arg d vd) (au : Arg u vu) (ap : Arg p vp) :
    parse (pgConnect h port d u p) =
      some [kv "host" vh, kv "port" (Decimal.digits port.toNat), kv "dbname" vd, kv "user" vu, kv "password" vp] := by
  rw [no_nul nh nd nu np, conninfo_render]
  have := parse_render (l := [(ascii "host", h, vh), (ascii "port", Decimal.digits port.toNat, Decimal.digits port.toNat), (ascii "dbname", d, vd),
    (ascii "user", u, vu), (ascii "password", p, vp)]) (by
      intro x hx
      simp only [List.mem_cons, List.not_mem_nil, or_false] at hx
      obtain ⟨k1, k2, k3, k4, k5⟩ := keys
      rcases hx with rfl | rfl | rfl | rfl | rfl
      · exact ⟨by dsimp only; decide, k1, ah⟩
      · exact ⟨by dsimp only; decide, k2, arg_plain (digits_plain _)⟩
      · exact ⟨by dsimp only; decide, k3, ad⟩
      · exact ⟨by dsimp only; decide, k4, au⟩
      · exact ⟨by dsimp only; decide, k5, ap⟩)
  exact this

/-- A MySQL connection: the handle it has is one of the library's, and the others are as at the beginning. -/
def Inv (l₀ : Lib) (c : Option Nat) (l : Lib) : Prop :=
  l.misused = l₀.misused ∧ Sane l ∧ match c with
    | none => l.alive = l₀.alive
    | some h => l.alive = h :: l₀.alive

theorem reconnect_inv {l₀ : Lib} {c : Option Nat} {l : Lib} (hi : Inv l₀ c l) (ping : Bool) (luck : Luck) :
    Inv l₀ (myReconnect ping luck c l).2.1 (myReconnect ping luck c l).2.2 := by
  obtain ⟨h1, h2, h3⟩ := hi
  have fresh : ∀ l : Lib, Sane l → ∀ h ∈ (l.next :: l.alive), h < l.next + 1 := by
    intro l hl h hh
    rcases List.mem_cons.1 hh with rfl | hh
    · omega
    · have := hl h hh; omega
  have key : ∀ l : Lib, l.misused = l₀.misused → Sane l → l.alive = l₀.alive → Inv l₀ (myReconnect ping luck none l).2.1 (myReconnect ping luck none l).2.2 := by
    intro l h1 h2 h3
    cases luck with
    | noHandle => exact ⟨h1, h2, h3⟩
    | refused =>
      simp only [myReconnect, Lib.new, Lib.use, Lib.close, List.mem_cons, true_or, if_true, List.erase_cons_head]
      exact ⟨h1, fun h hh => by have := h2 h hh; dsimp only; omega, h3⟩
    | good =>
      simp only [myReconnect, Lib.new, Lib.use, List.mem_cons, true_or, if_true]
      exact ⟨h1, fresh l h2, by dsimp only; rw [h3]⟩
  cases c with
  | none => exact key l h1 h2 h3
  | some h =>
    have h3 : l.alive = h :: l₀.alive := h3
    have hm : h ∈ l.alive := by rw [h3]; exact List.mem_cons_self
    cases ping with
    | true =>
      simp only [myReconnect, Lib.use, hm, if_true]
      exact ⟨h1, h2, h3⟩
    | false =>
      have := key (l.close h) (by simp only [Lib.close, hm, if_true]; exact h1)
        (by simp only [Lib.close, hm, if_true]; intro x hx; exact h2 x (List.mem_of_mem_erase hx))
        (by simp only [Lib.close, hm, if_true]; rw [h3, List.erase_cons_head])
      simp only [myReconnect, Lib.use, hm, if_true]
      exact this

theorem reconnects_inv {l₀ : Lib} (es : List (Bool × Luck)) {c : Option Nat} {l : Lib} (hi : Inv l₀ c l) :
    Inv l₀ (reconnects es c l).1 (reconnects es c l).2 := by
  induction es generalizing c l with
  | nil => exact hi
  | cons e es ih => exact ih (reconnect_inv hi e.1 e.2)

theorem delete_inv {l₀ : Lib} {c : Option Nat} {l : Lib} (hi : Inv l₀ c l) : (myDelete c l).alive = l₀.alive ∧ (myDelete c l).misused = l₀.misused := by
  obtain ⟨h1, _, h3⟩ := hi
  cases c with
  | none => exact ⟨h3, h1⟩
  | some h =>
    have h3 : l.alive = h :: l₀.alive := h3
    have hm : h ∈ l.alive := by rw [h3]; exact List.mem_cons_self
    simp only [myDelete, Lib.close, hm, if_true]
    exact ⟨by rw [h3, List.erase_cons_head], h1⟩

theorem pg_reconnects {h : Nat} {l : Lib} (hm : h ∈ l.alive) (es : List (Bool × Bool)) : pgReconnects es h l = l := by
  induction es with
  | nil => rfl
  | cons e es ih =>
    have : (pgReconnect e.1 e.2 h l).2 = l := by
      simp only [pgReconnect, Lib.use, hm, if_true]
      split <;> rfl
    simp only [pgReconnects, this]
    exact ih

end Verif.DbConnect.Lemmas
