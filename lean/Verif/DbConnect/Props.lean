import Verif.DbConnect.Lemmas
/-!
# C91: connections are made to the database that was asked for, and closed
-/
namespace Verif.DbConnect.Props
open Verif.DbConnect Verif.DbConnect.Spec Verif.DbConnect.Lemmas

/-! ### PostgreSQL: the parameters -/

/-- **Plain parameters arrive.** If host, database, user and password are plain
words — not empty, without white space, backslashes and NULs, and not
beginning with a quote — exactly these five settings reach the client
library, each under its own name. -/
theorem params_arrive {host dbname user password : Str} (port : UInt16) (hh : Plain host) (hd : Plain dbname) (hu : Plain user)
    (hp : Plain password) : parse (pgConnect host port dbname user password) =
      some [kv "host" host, kv "port" (Decimal.digits port.toNat), kv "dbname" dbname, kv "user" user, kv "password" password] :=
  read_as port (plain_nul hh) (plain_nul hd) (plain_nul hu) (plain_nul hp) (arg_plain hh) (arg_plain hd) (arg_plain hu) (arg_plain hp)

example : Plain (ascii "db.example.org") ∧ Plain (ascii "o'reilly=1") ∧ ¬ Plain (ascii "two words") ∧ ¬ Plain (ascii "'x") ∧ ¬ Plain [] := by decide

/-- **Quoted parameters arrive**, whatever they are: a caller that puts each
value in quotes, with a backslash before every quote and backslash, gets
exactly these settings, also for empty values and values with spaces. -/
theorem quoted_arrive {host dbname user password : Str} (port : UInt16) (hh : 0 ∉ host) (hd : 0 ∉ dbname) (hu : 0 ∉ user)
    (hp : 0 ∉ password) : parse (pgConnect (quote host) port (quote dbname) (quote user) (quote password)) =
      some [kv "host" host, kv "port" (Decimal.digits port.toNat), kv "dbname" dbname, kv "user" user, kv "password" password] :=
  read_as port (quote_nul hh) (quote_nul hd) (quote_nul hu) (quote_nul hp) (arg_quote _) (arg_quote _) (arg_quote _) (arg_quote _)

example : quote (ascii "it's a \\") = ascii "'it\\'s a \\\\'" := by decide

/-- The empty password arrives, as it is the last setting. -/
theorem empty_password {host dbname user : Str} (port : UInt16) (hh : Plain host) (hd : Plain dbname) (hu : Plain user) :
    parse (pgConnect host port dbname user []) =
      some [kv "host" host, kv "port" (Decimal.digits port.toNat), kv "dbname" dbname, kv "user" user, kv "password" []] := by
  rw [no_nul (plain_nul hh) (plain_nul hd) (plain_nul hu) (by simp), conninfo_render]
  obtain ⟨k1, k2, k3, k4, k5⟩ := keys
  have ra : ∀ r : Str, (32 :: r : Str) = [] ∨ ∃ r', (32 :: r : Str) = 32 :: r' := fun r => Or.inr ⟨r, rfl⟩
  have h5 : settings 7 (ascii "password" ++ 61 :: []) = some [kv "password" []] := by decide +kernel
  have h4 := settings_arg (fuel := 7) (by decide) k4 (arg_plain hu) (ra (ascii "password" ++ 61 :: []))
  rw [settings_space, h5] at h4
  have h3 := settings_arg (fuel := 8) (by decide) k3 (arg_plain hd) (ra (ascii "user" ++ 61 :: (user ++ 32 :: (ascii "password" ++ 61 :: []))))
  rw [settings_space, h4] at h3
  have h2 := settings_arg (fuel := 9) (by decide) k2 (arg_plain (digits_plain port.toNat)) (ra (ascii "dbname" ++ 61 :: (dbname ++ 32 :: (ascii "user" ++ 61 :: (user ++ 32 :: (ascii "password" ++ 61 :: []))))))
  rw [settings_space, h3] at h2
  have h1 := settings_arg (fuel := 10) (by decide) k1 (arg_plain hh) (ra (ascii "port" ++ 61 :: (Decimal.digits port.toNat ++ 32 :: (ascii "dbname" ++ 61 :: (dbname ++ 32 :: (ascii "user" ++ 61 :: (user ++ 32 :: (ascii "password" ++ 61 :: []))))))))
  rw [settings_space, h2] at h1
  refine settings_mono h1 _ ?_
  simp only [render, List.length_append, List.length_cons]
  have e1 : (ascii "host").length = 4 := by decide
  have e2 : (ascii "dbname").length = 6 := by decide
  omega

example : parse (pgConnect (ascii "h") 5432 (ascii "d") (ascii "u") []) =
    some [kv "host" (ascii "h"), kv "port" (ascii "5432"), kv "dbname" (ascii "d"), kv "user" (ascii "u"), kv "password" []] := by decide +kernel

/-- **Settings can be smuggled in.** A database name that contains a space and
`host=…` makes the connection — with the user's password — go to another host.
This is so for every name before it and every host. -/
theorem injection {host dbname evil user password : Str} (port : UInt16) (hh : Plain host) (hd : Plain dbname) (he : Plain evil)
    (hu : Plain user) (hp : Plain password) :
    parse (pgConnect host port (dbname ++ ascii " host=" ++ evil) user password) =
      some [kv "host" host, kv "port" (Decimal.digits port.toNat), kv "dbname" dbname, kv "host" evil, kv "user" user, kv "password" password] ∧
    ∀ kvs, parse (pgConnect host port (dbname ++ ascii " host=" ++ evil) user password) = some kvs → lookup kvs (ascii "host") = some evil := by
  have hp : parse (pgConnect host port (dbname ++ ascii " host=" ++ evil) user password) =
      some [kv "host" host, kv "port" (Decimal.digits port.toNat), kv "dbname" dbname, kv "host" evil, kv "user" user, kv "password" password] := by
    rw [no_nul (plain_nul hh) (by
        simp only [List.mem_append, not_or]
        exact ⟨⟨plain_nul hd, by decide⟩, plain_nul he⟩) (plain_nul hu) (plain_nul hp), conninfo_render]
    have := parse_render (l := [(ascii "host", host, host), (ascii "port", Decimal.digits port.toNat, Decimal.digits port.toNat), (ascii "dbname", dbname, dbname),
      (ascii "host", evil, evil), (ascii "user", user, user), (ascii "password", password, password)]) (by
        intro x hx
        simp only [List.mem_cons, List.not_mem_nil, or_false] at hx
        obtain ⟨k1, k2, k3, k4, k5⟩ := keys
        rcases hx with rfl | rfl | rfl | rfl | rfl | rfl
        · exact ⟨by dsimp only; decide, k1, arg_plain hh⟩
        · exact ⟨by dsimp only; decide, k2, arg_plain (digits_plain _)⟩
        · exact ⟨by dsimp only; decide, k3, arg_plain hd⟩
        · exact ⟨by dsimp only; decide, k1, arg_plain he⟩
        · exact ⟨by dsimp only; decide, k4, arg_plain hu⟩
        · exact ⟨by dsimp only; decide, k5, arg_plain hp⟩)
    have e : ascii " host=" = 32 :: (ascii "host" ++ [61]) := by decide
    simp only [List.map_cons, List.map_nil, render] at this
    simp only [render, e, List.append_assoc, List.cons_append, List.nil_append]
    exact this
  refine ⟨hp, fun kvs h => ?_⟩
  rw [hp] at h
  cases h
  have e1 : ascii "user" ≠ ascii "host" := by decide
  have e2 : ascii "password" ≠ ascii "host" := by decide
  simp [lookup, kv, e1, e2]

example : (parse (pgConnect (ascii "db") 5432 (ascii "x host=evil") (ascii "u") (ascii "secret"))).map (lookup · (ascii "host")) =
    some (some (ascii "evil")) := by decide +kernel

/-- **An empty host swallows the port.** With an empty host, as one would ask
for the local server, the client library is told to connect to a host named
`port=…`, on the default port. -/
theorem empty_host {dbname user password : Str} (port : UInt16) (hd : Plain dbname) (hu : Plain user) (hp : Plain password) :
    parse (pgConnect [] port dbname user password) =
      some [kv "host" (ascii "port=" ++ Decimal.digits port.toNat), kv "dbname" dbname, kv "user" user, kv "password" password] := by
  rw [no_nul (by simp) (plain_nul hd) (plain_nul hu) (plain_nul hp), conninfo_render]
  have hpl : Plain (ascii "port=" ++ Decimal.digits port.toNat) := by
    obtain ⟨_, h1, _⟩ := digits_plain port.toNat
    refine ⟨by simp [ascii], fun c hc => ?_, by simp [ascii]⟩
    rcases List.mem_append.1 hc with hc | hc
    · exact (by decide : ∀ c ∈ ascii "port=", space c = false ∧ c ≠ 92 ∧ c ≠ 0) c hc
    · exact h1 c hc
  have ha : Arg (32 :: (ascii "port=" ++ Decimal.digits port.toNat)) (ascii "port=" ++ Decimal.digits port.toNat) := by
    intro rest hr
    obtain ⟨r, h1, h2⟩ := arg_plain hpl rest hr
    exact ⟨r, by rw [List.cons_append, skip_space]; exact h1, h2⟩
  have := parse_render (l := [(ascii "host", 32 :: (ascii "port=" ++ Decimal.digits port.toNat), ascii "port=" ++ Decimal.digits port.toNat),
    (ascii "dbname", dbname, dbname), (ascii "user", user, user), (ascii "password", password, password)]) (by
      intro x hx
      simp only [List.mem_cons, List.not_mem_nil, or_false] at hx
      obtain ⟨k1, k2, k3, k4, k5⟩ := keys
      rcases hx with rfl | rfl | rfl | rfl
      · exact ⟨by dsimp only; decide, k1, ha⟩
      · exact ⟨by dsimp only; decide, k3, arg_plain hd⟩
      · exact ⟨by dsimp only; decide, k4, arg_plain hu⟩
      · exact ⟨by dsimp only; decide, k5, arg_plain hp⟩)
  have e : ascii "port=" = ascii "port" ++ [61] := by decide
  simp only [List.map_cons, List.map_nil, render] at this
  refine Eq.trans ?_ this
  simp only [render, e, List.append_assoc, List.cons_append, List.nil_append]

example : parse (pgConnect [] 5432 (ascii "d") (ascii "u") (ascii "p")) =
    some [kv "host" (ascii "port=5432"), kv "dbname" (ascii "d"), kv "user" (ascii "u"), kv "password" (ascii "p")] := by decide +kernel

/-- **An empty database name or user swallows the next setting**: the database
is then `user=…` and nobody is named as the user; and an empty user becomes a user
named `password=…`, without a password. -/
theorem empty_swallows {host dbname user password : Str} (port : UInt16) (hh : Plain host) (hd : Plain dbname) (hu : Plain user) (hp : Plain password) :
    parse (pgConnect host port [] user password) =
      some [kv "host" host, kv "port" (Decimal.digits port.toNat), kv "dbname" (ascii "user=" ++ user), kv "password" password] ∧
    parse (pgConnect host port dbname [] password) =
      some [kv "host" host, kv "port" (Decimal.digits port.toNat), kv "dbname" dbname, kv "user" (ascii "password=" ++ password)] := by
  have pl : ∀ (w : Str) {v : Str}, (∀ c ∈ w, space c = false ∧ c ≠ 92 ∧ c ≠ 0) → w ≠ [] → w.head? ≠ some 39 → Plain v → Arg (32 :: (w ++ v)) (w ++ v) := by
    intro w v hw hn hq hv rest hr
    have hpl : Plain (w ++ v) := by
      obtain ⟨_, h1, _⟩ := hv
      refine ⟨by simp [hn], fun c hc => ?_, ?_⟩
      · rcases List.mem_append.1 hc with hc | hc
        · exact hw c hc
        · exact h1 c hc
      · cases w with
        | nil => exact absurd rfl hn
        | cons a w => exact hq
    obtain ⟨r, h1, h2⟩ := arg_plain hpl rest hr
    exact ⟨r, by rw [List.cons_append, skip_space]; exact h1, h2⟩
  constructor
  · rw [no_nul (plain_nul hh) (by simp) (plain_nul hu) (plain_nul hp), conninfo_render]
    have := parse_render (l := [(ascii "host", host, host), (ascii "port", Decimal.digits port.toNat, Decimal.digits port.toNat),
      (ascii "dbname", 32 :: (ascii "user=" ++ user), ascii "user=" ++ user), (ascii "password", password, password)]) (by
        intro x hx
        simp only [List.mem_cons, List.not_mem_nil, or_false] at hx
        obtain ⟨k1, k2, k3, k4, k5⟩ := keys
        rcases hx with rfl | rfl | rfl | rfl
        · exact ⟨by dsimp only; decide, k1, arg_plain hh⟩
        · exact ⟨by dsimp only; decide, k2, arg_plain (digits_plain _)⟩
        · exact ⟨by dsimp only; decide, k3, pl (ascii "user=") (by decide) (by decide) (by decide) hu⟩
        · exact ⟨by dsimp only; decide, k5, arg_plain hp⟩)
    have e : ascii "user=" = ascii "user" ++ [61] := by decide
    simp only [List.map_cons, List.map_nil, render] at this
    refine Eq.trans ?_ this
    simp only [render, e, List.append_assoc, List.cons_append, List.nil_append]
  · rw [no_nul (plain_nul hh) (plain_nul hd) (by simp) (plain_nul hp), conninfo_render]
    have := parse_render (l := [(ascii "host", host, host), (ascii "port", Decimal.digits port.toNat, Decimal.digits port.toNat),
      (ascii "dbname", dbname, dbname), (ascii "user", 32 :: (ascii "password=" ++ password), ascii "password=" ++ password)]) (by
        intro x hx
        simp only [List.mem_cons, List.not_mem_nil, or_false] at hx
        obtain ⟨k1, k2, k3, k4, k5⟩ := keys
        rcases hx with rfl | rfl | rfl | rfl
        · exact ⟨by dsimp only; decide, k1, arg_plain hh⟩
        · exact ⟨by dsimp only; decide, k2, arg_plain (digits_plain _)⟩
        · exact ⟨by dsimp only; decide, k3, arg_plain hd⟩
        · exact ⟨by dsimp only; decide, k4, pl (ascii "password=") (by decide) (by decide) (by decide) hp⟩)
    have e : ascii "password=" = ascii "password" ++ [61] := by decide
    simp only [List.map_cons, List.map_nil, render] at this
    refine Eq.trans ?_ this
    simp only [render, e, List.append_assoc, List.cons_append, List.nil_append]

example : parse (pgConnect (ascii "h") 1 [] (ascii "u") (ascii "p")) =
    some [kv "host" (ascii "h"), kv "port" (ascii "1"), kv "dbname" (ascii "user=u"), kv "password" (ascii "p")] := by decide +kernel

/-- **Passwords that do not arrive.** One with a space is refused or cut, a backslash is
dropped, a NUL ends it. -/
theorem password_lost :
    parse (pgConnect (ascii "h") 1 (ascii "d") (ascii "u") (ascii "two words")) = none ∧
    (parse (pgConnect (ascii "h") 1 (ascii "d") (ascii "u") (ascii "a\\b"))).map (lookup · (ascii "password")) = some (some (ascii "ab")) ∧
    (parse (pgConnect (ascii "h") 1 (ascii "d") (ascii "u") [97, 0, 98])).map (lookup · (ascii "password")) = some (some (ascii "a")) := by
  decide +kernel

/-! ### MySQL: the parameters -/

/-- **With MySQL every parameter arrives at its place**, up to the first NUL in it. -/
theorem mysql_params (host : Str) (port : UInt16) (dbname user password : Str) :
    ((myConnect host port dbname user password).host <+: host ∧ (0 ∉ host → (myConnect host port dbname user password).host = host)) ∧
    ((myConnect host port dbname user password).user <+: user ∧ (0 ∉ user → (myConnect host port dbname user password).user = user)) ∧
    ((myConnect host port dbname user password).passwd <+: password ∧ (0 ∉ password → (myConnect host port dbname user password).passwd = password)) ∧
    ((myConnect host port dbname user password).db <+: dbname ∧ (0 ∉ dbname → (myConnect host port dbname user password).db = dbname)) ∧
    (myConnect host port dbname user password).port = port := by
  have key : ∀ s : Str, cstr s <+: s ∧ (0 ∉ s → cstr s = s) := by
    intro s
    refine ⟨List.takeWhile_prefix _, fun h => cstr_all ?_⟩
    intro c hc h0
    exact h (h0 ▸ hc)
  exact ⟨key host, key user, key password, key dbname, rfl⟩

example : myConnect (ascii "h") 3306 (ascii "d") (ascii "u") (ascii "p w") = ⟨ascii "h", ascii "u", ascii "p w", ascii "d", 3306⟩ := by decide

/-! ### Handles -/

/-- **PostgreSQL: a connection that fails leaves nothing open**; one that is made can
be reset any number of times, with any outcome, and when it is deleted its handle is closed, once. -/
theorem pg_handles {l : Lib} (threadsafe : Bool) (luck : Luck) :
    ((pgNew threadsafe luck l).1 = none → (pgNew threadsafe luck l).2.alive = l.alive ∧ (pgNew threadsafe luck l).2.misused = l.misused) ∧
    ∀ h, (pgNew threadsafe luck l).1 = some h →
      (threadsafe = true ∧ luck = .good) ∧
      ∀ es, (pgReconnects es h (pgNew threadsafe luck l).2).alive = h :: l.alive ∧
        (pgDelete h (pgReconnects es h (pgNew threadsafe luck l).2)).alive = l.alive ∧
        (pgDelete h (pgReconnects es h (pgNew threadsafe luck l).2)).misused = l.misused := by
  cases threadsafe with
  | false => exact ⟨fun _ => ⟨rfl, rfl⟩, fun h e => by simp [pgNew] at e⟩
  | true =>
    cases luck with
    | noHandle => exact ⟨fun _ => ⟨rfl, rfl⟩, fun h e => by simp [pgNew] at e⟩
    | refused =>
      refine ⟨fun _ => ?_, fun h e => by simp [pgNew] at e⟩
      simp [pgNew, Lib.new, Lib.use, Lib.close]
    | good =>
      refine ⟨fun e => by simp [pgNew] at e, fun h e => ⟨⟨rfl, rfl⟩, fun es => ?_⟩⟩
      have e : l.next = h := by simpa [pgNew, Lib.new] using e
      subst e
      have h2 : (pgNew true .good l).2 = { l with alive := l.next :: l.alive, next := l.next + 1 } := by
        simp [pgNew, Lib.new, Lib.use]
      rw [h2, pg_reconnects List.mem_cons_self]
      simp [pgDelete, Lib.close]

example : pgNew true .refused {} = (none, { next := 1 }) ∧ (pgNew true .good {}).1 = some 0 := by decide

/-- A reconnection that fails is an exception; the handle is kept, and a later one may go well. -/
theorem pg_reconnect_result {l : Lib} {h : Nat} (hm : h ∈ l.alive) (good again : Bool) :
    (pgReconnect good again h l).1 = (good || again) ∧ (pgReconnect good again h l).2 = l := by
  simp only [pgReconnect, Lib.use, hm, if_true]
  cases good <;> simp

example : (pgReconnect false false 0 ⟨[0], 1, false⟩).1 = false := by decide

/-- **MySQL: no handle is lost or closed twice.** Whether the connection is
made, and whatever happens in any number of later reconnections — the server
answers or not, there is no memory for a handle, the new connection is refused —
the connection has at most one handle, the handles of others are untouched, none is
used after it is closed, and the destructor leaves none. -/
theorem mysql_handles {l : Lib} (hl : Sane l) (luck : Luck) :
    ((myNew luck l).1 = none → (myNew luck l).2.alive = l.alive ∧ (myNew luck l).2.misused = l.misused) ∧
    ∀ c, (myNew luck l).1 = some c → ∀ es,
      (reconnects es c (myNew luck l).2).2.alive = (reconnects es c (myNew luck l).2).1.toList ++ l.alive ∧
      (reconnects es c (myNew luck l).2).2.misused = l.misused ∧
      (myDelete (reconnects es c (myNew luck l).2).1 (reconnects es c (myNew luck l).2).2).alive = l.alive ∧
      (myDelete (reconnects es c (myNew luck l).2).1 (reconnects es c (myNew luck l).2).2).misused = l.misused := by
  have h0 : Inv l none l := ⟨rfl, hl, rfl⟩
  have h1 := reconnect_inv h0 false luck
  constructor
  · intro e
    cases luck with
    | noHandle => exact ⟨rfl, rfl⟩
    | refused => simp [myNew, myReconnect, Lib.new, Lib.use, Lib.close]
    | good => simp [myNew, myReconnect] at e
  · intro c e es
    have h2 : Inv l c (myNew luck l).2 := by
      cases luck with
      | noHandle => simp [myNew, myReconnect] at e
      | refused => simp [myNew, myReconnect] at e
      | good =>
        have e : some l.next = c := by simpa [myNew, myReconnect, Lib.new] using e
        subst e
        exact h1
    have h3 := reconnects_inv es h2
    obtain ⟨a, b⟩ := delete_inv h3
    refine ⟨?_, h3.1, a, b⟩
    have := h3.2.2
    generalize (reconnects es c (myNew luck l).2).1 = c' at this ⊢
    cases c' <;> exact this

example : Sane {} ∧ (myNew .good {}).1 = some (some 0) ∧
    (reconnects [(false, .refused), (false, .noHandle), (false, .good), (true, .refused)] (some 0) (myNew .good {}).2).1 = some 2 := by
  refine ⟨fun h hh => (by cases hh), by decide, by decide⟩

/-- **A reconnection says how it went**: without an exception there is a handle,
the same one if the server answered; after an exception there is none, and the next use connects again. -/
theorem mysql_reconnect_result (ping : Bool) (luck : Luck) (c : Option Nat) (l : Lib) :
    ((myReconnect ping luck c l).1 = true ↔ (ping = true ∧ c ≠ none) ∨ luck = .good) ∧
    ((myReconnect ping luck c l).1 = false → (myReconnect ping luck c l).2.1 = none) ∧
    ((myReconnect ping luck c l).1 = true → (myReconnect ping luck c l).2.1 ≠ none) ∧
    (ping = true → c ≠ none → (myReconnect ping luck c l).2.1 = c) := by
  cases c <;> cases ping <;> cases luck <;> simp [myReconnect]

example : (myReconnect false .refused (some 0) ⟨[0], 1, false⟩) = (false, none, ⟨[], 2, false⟩) := by decide

end Verif.DbConnect.Props
