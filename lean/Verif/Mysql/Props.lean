import Verif.Mysql.Lemmas
/-! # C71: what is bound reaches MySQL, and what MySQL sends is read -/

namespace Verif.Mysql.Props
open Verif Verif.Sql Verif.Mysql Verif.Mysql.Spec Verif.Mysql.Lemmas

/-! ## Arguments -/

/-- **The server is told the value of each argument**: all integers, the bits of all doubles, all strings, with zeros in them too, and times to the
microsecond. -/
theorem argument_bound (z : Calendar.Zone) (v : Value) (h : Bindable z v) : ∃ b t, toBind z (some v) = .ok b ∧ sent b = some t ∧ Tells z v t := by
  cases v with
  | unknown s => exact absurd h id
  | bool b =>
    cases b
    · exact ⟨_, _, rfl, by decide +kernel, .no⟩
    · exact ⟨_, _, rfl, by decide +kernel, .yes⟩
  | string s =>
    refine ⟨_, _, rfl, ?_, .string (s := s)⟩
    rw [sent, if_neg (fun h => by simp [tString, tNull] at h), if_neg (fun h => by simp at h)]
    show some (Told.bytes (s.take s.length)) = _
    rw [List.take_length]
  | int32 n =>
    refine ⟨_, _, rfl, ?_, .int32 (n := n)⟩
    rw [sent, if_neg (fun h => by simp [tLong, tNull] at h), if_neg (fun h => by simp [bytesOfInt, bytesOf_length] at h)]
    show some (Told.int (intOf 4 ((bytesOfInt 4 n).take 4))) = _
    rw [List.take_of_length_le (by rw [bytesOfInt, bytesOf_length]; decide), intOf_bytesOfInt 4 n (by decide) h.1 (Int.lt_of_le_of_lt h.2 (by decide))]
  | int64 n =>
    refine ⟨_, _, rfl, ?_, .int64 (n := n)⟩
    rw [sent, if_neg (fun h => by simp [tLongLong, tNull] at h), if_neg (fun h => by simp [bytesOfInt, bytesOf_length] at h)]
    show some (Told.int (intOf 8 ((bytesOfInt 8 n).take 8))) = _
    rw [List.take_of_length_le (by rw [bytesOfInt, bytesOf_length]; decide), intOf_bytesOfInt 8 n (by decide) h.1 (Int.lt_of_le_of_lt h.2 (by decide))]
  | float d =>
    refine ⟨_, _, rfl, ?_, .float (d := d)⟩
    rw [sent, if_neg (fun h => by simp [tDouble, tNull] at h), if_neg (fun h => by simp [bytesOf_length] at h)]
    show some (Told.double (UInt64.ofNat (natOf ((bytesOf 8 d.toNat).take 8)))) = _
    rw [List.take_of_length_le (by rw [bytesOf_length]; decide), natOf_bytesOf 8 _ (by have := d.toNat_lt; simpa using this), UInt64.ofNat_toNat]
  | timestamp t =>
    obtain ⟨k, hk, y, u1, u2⟩ := h
    have hf := Postgres.Lemmas.yearFits_of hk
    obtain ⟨k', g1, g2, g3⟩ := Calendar.Props.calendar_of_clock z t hf
    rw [hk] at g1
    cases g1
    obtain ⟨r1, r2⟩ := Postgres.Lemmas.shows_ranges g2
    have hy : k.year < 2147483648 := by
      have := Calendar.Lemmas.ofClock_eq hf
      rw [hk] at this
      rw [Option.some.inj this]
      exact hf.2
    have h1 := g2.hour
    have h2 := g2.min
    have h3 := g2.sec
    unfold toBind
    dsimp only
    rw [hk]
    refine ⟨_, _, rfl, rfl, .timestamp g2 g3 ?_⟩
    constructor <;> dsimp only
    · rw [toUnsigned_id y (by omega)]
    · rw [toUnsigned_id (by omega) (by omega)]
    · rw [toUnsigned_id (by omega) (by omega)]
    · rw [toUnsigned_id (by omega) (by omega)]
    · rw [toUnsigned_id (by omega) (by omega)]
    · rw [toUnsigned_id (by omega) (by omega)]
    · rw [toUnsigned_id (by omega) (by omega)]

/-- New year 2000 in Greenwich, half a second later, is such a time. -/
example : Bindable Calendar.Props.utc (.timestamp ⟨946684800, 500000⟩) :=
  ⟨⟨0, 6, 2000, 1, 1, 0, 0, 0, 500000, some false⟩, by decide +kernel, by decide, by decide, by decide⟩

example : ∃ b, toBind Calendar.Props.utc (some (.int32 (-2))) = .ok b ∧ b.data = [254, 255, 255, 255] ∧ sent b = some (.int (-2)) :=
  ⟨_, rfl, by decide +kernel, by decide +kernel⟩

/-- **The arguments are bound one for one and in their order**, if there are as many as the statement has places. -/
theorem arguments_bound (z : Calendar.Zone) (args : List Value) (h : ∀ v ∈ args, Bindable z v) :
    ∃ bs, bindArgs z args.length (args.map some) = .ok bs ∧ List.Forall₂ (fun v b => ∃ t, sent b = some t ∧ Tells z v t) args bs := by
  unfold bindArgs
  rw [if_neg (by simp)]
  induction args with
  | nil => exact ⟨[], rfl, .nil⟩
  | cons v args ih =>
    obtain ⟨bs, h1, h2⟩ := ih (fun v hv => h v (by simp [hv]))
    obtain ⟨b, t, g1, g2, g3⟩ := argument_bound z v (h v (by simp))
    rw [List.map_cons, toBinds, g1]
    dsimp only
    rw [h1]
    exact ⟨_, rfl, .cons ⟨t, g2, g3⟩ h2⟩

/-- **Any other number of arguments is refused**, before the server is asked. -/
theorem wrong_number_refused (z : Calendar.Zone) (n : Nat) (args : List Ptr) (h : args.length ≠ n) : bindArgs z n args = .error .database := by
  unfold bindArgs
  rw [if_pos (fun e => h e.symm)]

example : bindArgs Calendar.Props.utc 2 [none, none, none] = .error .database := wrong_number_refused _ _ _ (by decide)

/-- A value of unknown type is refused. -/
theorem unknown_refused (z : Calendar.Zone) (s : Str) (before after : List Ptr) (hb : ∀ p ∈ before, ∃ b, toBind z p = .ok b) :
    bindArgs z (before ++ some (.unknown s) :: after).length (before ++ some (.unknown s) :: after) = .error .database := by
  unfold bindArgs
  rw [if_neg (by simp)]
  induction before with
  | nil => rfl
  | cons p before ih =>
    obtain ⟨b, e⟩ := hb p (by simp)
    rw [List.cons_append, toBinds, e]
    dsimp only
    rw [ih (fun p hp => hb p (by simp [hp]))]

/-- Finding: NULL is not sent as NULL. `to_bind` sets the pointer to the flag to null, which means to the library that the value is not NULL; the type that is
left in the structure is that of decimals, so the server is told the decimal with the empty text. -/
theorem null_not_null (z : Calendar.Zone) : ∃ b, toBind z none = .ok b ∧ sent b = some (.decimal []) := ⟨_, rfl, by decide⟩

/-! ## Rows -/

/-- What `fetch_row` needs and keeps from one row to the next. -/
private theorem fetch_next (env : Env) {ts : List Nat} (hts : ts ≠ []) {vs : List Ptr} {row : List Cell} {rows : List (List Cell)} (h : ShownRow ts vs row) (s : Stmt)
    (hf : s.flds = ts) (hb : s.binds = [] ∨ Cols ts s.binds) (hr : s.rows = row :: rows) :
    (s.fetchRow env).1 = .ok (some vs) ∧ (s.fetchRow env).2.flds = ts ∧ (s.fetchRow env).2.rows = rows ∧ Cols ts (s.fetchRow env).2.binds := by
  obtain ⟨flds, binds, rows'⟩ := s
  dsimp only at hf hb hr
  subst hf hr
  unfold Stmt.fetchRow
  dsimp only
  rw [if_neg hts]
  have hc : Cols flds (if binds.length = 0 then flds.map newCol else binds) := by
    rcases hb with rfl | hb
    · exact cols_new flds
    · rw [if_neg]
      · exact hb
      · intro e
        have := congrArg List.length hb.1
        rw [List.length_map, e] at this
        exact hts (List.eq_nil_of_length_eq_zero this.symm)
  generalize (if binds.length = 0 then flds.map newCol else binds) = cs at *
  obtain ⟨r1, r2⟩ := row_read env ((List.zipWith truncated cs row).any id) h cs hc (fun b hm e => by
    rw [List.any_eq_true]
    exact ⟨b, hm, e⟩)
  rw [zipWith_grow, r1]
  exact ⟨rfl, rfl, rfl, r2⟩

/-- **Each row is read once, in the order of the server and complete, and then there are no more.** This is so for strings of any length, however the
lengths change from row to row, and with NULLs in any columns. -/
theorem rows_fetched (env : Env) (ts : List Nat) (hts : ts ≠ []) (table : List (List Ptr)) (rows : List (List Cell)) (h : List.Forall₂ (ShownRow ts) table rows) (n : Nat) :
    Stmt.fetchMany env (table.length + n) { flds := ts, rows := rows } = table.map (fun vs => Except.ok (some vs)) ++ List.replicate n (Except.ok none) := by
  have key : ∀ s : Stmt, s.flds = ts → (s.binds = [] ∨ Cols ts s.binds) → s.rows = rows →
      Stmt.fetchMany env (table.length + n) s = table.map (fun vs => Except.ok (some vs)) ++ List.replicate n (Except.ok none) := by
    induction h with
    | nil =>
      intro s h1 h2 h3
      simp only [List.length_nil, Nat.zero_add, List.map_nil, List.nil_append]
      clear h2
      induction n generalizing s with
      | zero => rfl
      | succ n ih =>
        have e : s.fetchRow env = (.ok none, { s with binds := if s.binds.length = 0 then s.flds.map newCol else s.binds }) := by
          unfold Stmt.fetchRow
          rw [h1, if_neg hts, h3]
        unfold Stmt.fetchMany
        rw [e, List.replicate_succ]
        exact congrArg (_ :: ·) (ih _ h1 h3)
    | @cons vs row table rows hrow _ ih =>
      intro s h1 h2 h3
      obtain ⟨e1, e2, e3, e4⟩ := fetch_next env hts hrow s h1 h2 h3
      rw [List.length_cons, show table.length + 1 + n = (table.length + n) + 1 by omega, Stmt.fetchMany, e1, List.map_cons, List.cons_append]
      exact congrArg (_ :: ·) (ih _ e2 (.inr e4) e3)
  exact key _ rfl (.inl rfl) rfl

/-- A text longer than the first buffer, then a short one, with a NULL between. -/
example (env : Env) : Stmt.fetchMany env 4 { flds := [252, 3], rows := [[.bytes (List.replicate 20000 65), .int (-7)], [.null, .int 0], [.bytes [66], .null]] } =
    [.ok (some [some (.string (List.replicate 20000 65)), some (.int32 (-7))]), .ok (some [none, some (.int32 0)]), .ok (some [some (.string [66]), none]), .ok none] :=
  rows_fetched env [252, 3] (by decide)
    [[some (.string (List.replicate 20000 65)), some (.int32 (-7))], [none, some (.int32 0)], [some (.string [66]), none]] _
    (.cons (.value .text (.value (.int (by decide) (by decide)) .nil)) (.cons (.null (.value (.int (by decide) (by decide)) .nil))
      (.cons (.value .text (.null .nil)) .nil))) 1

/-- **What is bound is what is read**: an integer that the server keeps in an `INT` or `BIGINT` column, a double, and a string in a `CHAR`, `TEXT` or `BLOB`
column, come back as the same values, if the server sends what it was told. -/
theorem round_trip (env : Env) (v : Value) (t : Nat) (x : Cell) (hs : Shown t v x) (hb : t = 3 ∨ t = 8 ∨ t = 5 ∨ t = 252 ∨ t = 254) :
    ∃ b, toBind env.zone (some v) = .ok b
      ∧ (match sent b with | some (.int n) => some (Cell.int n) | some (.double d) => some (.double d) | some (.bytes s) => some (.bytes s) | _ => none) = some x
      ∧ (Stmt.fetchRow env { flds := [t], rows := [[x]] }).1 = .ok (some [some v]) := by
  have hB : Bindable env.zone v := by cases hs <;> first | trivial | (constructor <;> omega) | (exfalso; omega)
  obtain ⟨b, told, h1, h2, h3⟩ := argument_bound env.zone v hB
  refine ⟨b, h1, ?_, (fetch_next env (by simp) (.value hs .nil) _ rfl (.inl rfl) rfl).1⟩
  rw [h2]
  cases hs <;> cases h3 <;> rfl

/-- A column of type `VARCHAR` (253) cannot be read: `from_bind` does not know the type, and throws, whatever string the server sends. -/
theorem varchar_refused (env : Env) (s : Str) (rows : List (List Cell)) : (Stmt.fetchRow env { flds := [253], rows := [.bytes s] :: rows }).1 = .error .database := by
  have h : ∀ c : Col, c.type = 253 → c.null = false → fromBind env c = .error .database := by
    intro c h1 h2
    unfold fromBind
    rw [h2, h1, if_neg (by decide), if_neg (by decide), if_neg (by decide), if_neg (by decide), if_neg (by decide), if_neg (by decide), if_neg (by decide), if_neg (by decide),
      if_neg (by decide), if_neg (by decide)]
  have hb := final_bytes (rc := truncated (newCol 253) (.bytes s)) (x := .bytes s) (good_new 253) (fun e => by cases e) (fun m e => by cases e)
    (fun hl => by rw [truncated_bytes (fun e => by cases e) (fun m e => by cases e)]; exact decide_eq_true hl)
  exact fetch_one env 253 _ rows _ (h _ hb.2.1 hb.1)

/-- The numbers of a column `INT UNSIGNED` are read as if they were signed: 2³² − 1 is read as −1. -/
theorem unsigned_misread (env : Env) (n : Int) (h1 : 2147483648 ≤ n) (h2 : n < 4294967296) :
    (Stmt.fetchRow env { flds := [3], rows := [[.int n]] }).1 = .ok (some [some (.int32 (n - 4294967296))]) := by
  have e : raw 3 (.int n) = raw 3 (.int (n - 4294967296)) := by
    show bytesOf 4 (n % (4294967296 : Int)).toNat = bytesOf 4 ((n - 4294967296) % (4294967296 : Int)).toNat
    congr 2
    omega
  have hs : Shown 3 (.int32 (n - 4294967296)) (.int (n - 4294967296)) := .int (by omega) (by omega)
  have hb := final_bytes (rc := truncated (newCol 3) (.int n)) (x := .int n) (good_new 3) (fun e => by cases e) (fun m e => by cases e)
    (fun hl => by rw [truncated_bytes (fun e => by cases e) (fun m e => by cases e)]; exact decide_eq_true hl)
  rw [show (newCol 3).type = 3 from rfl, e] at hb
  exact fetch_one env 3 _ [] _ (fromBind_shown env hs hb.1 hb.2.1 hb.2.2.1 hb.2.2.2.1 hb.2.2.2.2.length)

/-- A truth value is bound as an integer, and no column is read as a truth value, so that no column can be read into a `bool`. -/
theorem no_bool (env : Env) (c : Col) (p : Ptr) (h : fromBind env c = .ok p) : (Sql.fromSql env.zone .bool p) = .error .database := by
  have key : ∀ v : Value, (∀ b, v ≠ .bool b) → Sql.fromSql env.zone .bool (some v) = .error .database := by
    intro v hv
    cases v with
    | bool b => exact absurd rfl (hv b)
    | _ => rfl
  cases p with
  | none => rfl
  | some v =>
    apply key
    intro b e
    subst e
    unfold fromBind at h
    repeat' split at h
    all_goals cases h

/-- A statement without columns has no rows to fetch: `fetch_row` throws. -/
theorem no_columns (env : Env) (rows : List (List Cell)) : (Stmt.fetchRow env { flds := [], rows := rows }).1 = .error .database := rfl

/-! ## Times -/

/-- Finding: reading a time is undefined, whatever the server has sent, because the constructor of `calendar_time` is. -/
theorem time_undefined (env : Env) (h : env.memory = none) (c : Col) (hn : c.null = false) (ht : c.type = 7 ∨ c.type = 10 ∨ c.type = 11 ∨ c.type = 12) :
    fromBind env c = .error .ub := by
  have := Calendar.Props.make_undefined env.zone env.mktime (toInt c.time.year) (toInt c.time.month) (toInt c.time.day) (toInt c.time.hour) (toInt c.time.minute)
    (toInt c.time.second) (toInt c.time.second_part)
  unfold Calendar.make at this
  unfold fromBind
  rw [hn, if_neg Bool.false_ne_true]
  have n1 : c.type ≠ tTiny ∧ c.type ≠ tShort ∧ c.type ≠ tLong ∧ c.type ≠ tLongLong ∧ c.type ≠ tFloat ∧ c.type ≠ tDouble := by
    unfold tTiny tShort tLong tLongLong tFloat tDouble; omega
  rw [if_neg n1.1, if_neg n1.2.1, if_neg n1.2.2.1, if_neg n1.2.2.2.1, if_neg n1.2.2.2.2.1, if_neg n1.2.2.2.2.2, if_pos (by unfold tTime tDate tDatetime tTimestamp; omega), h, this]
  rfl

/-- **If the memory happens to hold whether there is summer time, a time is read as it was bound**, where the clocks show it only once. Missing: the memory. -/
theorem time_round_trip_partial (env : Env) (hm : Calendar.Spec.Inverts env.zone env.mktime) (t : Clock.T) (h : Bindable env.zone (.timestamp t))
    (ho : Calendar.Spec.Once env.zone (Calendar.toTime t.sec)) (hmem : env.memory = some (env.zone.summer (Calendar.toTime t.sec))) :
    ∃ b m, toBind env.zone (some (.timestamp t)) = .ok b ∧ sent b = some (.time m)
      ∧ (Stmt.fetchRow env { flds := [7], rows := [[.time m]] }).1 = .ok (some [some (.timestamp t)]) := by
  obtain ⟨b, told, h1, h2, h3⟩ := argument_bound env.zone _ h
  cases h3 with
  | @timestamp _ m k hk hu hs =>
    refine ⟨b, m, h1, h2, ?_⟩
    obtain ⟨k₀, hk₀, y1, u1, u2⟩ := h
    have hf := Postgres.Lemmas.yearFits_of hk₀
    have huniq := Calendar.Props.shows_unique env.zone t hf k hk hu
    have hkk : k = k₀ := Option.some.inj (huniq.symm.trans hk₀)
    subst hkk
    obtain ⟨r1, r2⟩ := Postgres.Lemmas.shows_ranges hk
    obtain ⟨hr1, hr2⟩ := Calendar.Lemmas.toTime_range t.sec
    have hmk := Calendar.Props.make_partial env.zone env.mktime hm (Calendar.toTime t.sec) hr1 hr2 hf t.usec k
      (by rw [Calendar.Lemmas.ofTime_toTime]; exact huniq)
    obtain ⟨k₂, c', g1, g2, g3, g4⟩ := Calendar.Props.round_trip env.zone env.mktime hm t hf
    rw [huniq] at g1
    cases g1
    have hc := g4 ho
    subst hc
    have hy : k.year < 2147483648 := by
      have := Calendar.Lemmas.ofClock_eq hf
      rw [huniq] at this
      rw [Option.some.inj this]
      exact hf.2
    have e1 := hs.year
    have e2 := hs.month
    have e3 := hs.day
    have e4 := hs.hour
    have e5 := hs.minute
    have e6 := hs.second
    have e7 := hs.micro
    have a1 := hk.hour
    have a2 := hk.min
    have a3 := hk.sec
    have key : ∀ c : Col, c.null = false → c.type = 7 → c.time = m → fromBind env c = .ok (some (.timestamp c')) := by
      intro c n1 n2 n3
      unfold fromBind
      rw [n1, n2, n3, if_neg Bool.false_ne_true, if_neg (by decide), if_neg (by decide), if_neg (by decide), if_neg (by decide), if_neg (by decide), if_neg (by decide),
        if_pos (by decide), toInt_id (by omega), toInt_id (by omega), toInt_id (by omega), toInt_id (by omega), toInt_id (by omega), toInt_id (by omega),
        toInt_id (by omega), ← e1, ← e2, ← e3, ← e4, ← e5, ← e6, ← e7, hu, hmem, hmk, Option.bind_some, g2]
    exact fetch_one env 7 (.time m) [] _ (key (final false (newCol 7) (.time m)) rfl rfl rfl)

end Verif.Mysql.Props
