import Verif.Postgres.Lemmas
import Verif.Transact.Lemmas
/-!
# C70: statements, values and results of PostgreSQL
-/
namespace Verif.Postgres.Props
open Verif Verif.Sql Verif.Lexical.Spec Verif.Postgres Verif.Postgres.Spec Verif.Postgres.Lemmas

/-! ## Queries -/

/-- Every text is pieces without question marks, with question marks between them. -/
theorem pieces_exist (q : Str) : ∃ ps, joined ps = q ∧ ps ≠ [] ∧ ∀ p ∈ ps, 63 ∉ p := by
  induction q with
  | nil => exact ⟨[[]], rfl, by simp, by simp⟩
  | cons c q ih =>
    obtain ⟨ps, h1, h2, h3⟩ := ih
    cases ps with
    | nil => exact absurd rfl h2
    | cons p ps =>
      by_cases hc : c = 63
      · refine ⟨[] :: p :: ps, ?_, by simp, ?_⟩
        · rw [← h1, hc]; rfl
        · intro x hx
          rcases List.mem_cons.mp hx with rfl | hx
          · simp
          · exact h3 x hx
      · refine ⟨(c :: p) :: ps, ?_, by simp, ?_⟩
        · rw [← h1]; cases ps <;> rfl
        · intro x hx
          rcases List.mem_cons.mp hx with rfl | hx
          · rw [List.mem_cons, not_or]; exact ⟨fun e => hc e.symm, h3 p (by simp)⟩
          · exact h3 x (by simp [hx])

/-- **The question marks of a query become `$1`, `$2` and so on, in their order, and the rest stays as it is.** -/
theorem query_numbered (ps : List Str) (hne : ps ≠ []) (h : ∀ p ∈ ps, 63 ∉ p) : Numbered 1 ps (convertQuery (joined ps)) := by
  have : ∀ i, 1 ≤ i → Numbered i ps (convertFrom i (joined ps)) := by
    induction ps with
    | nil => exact absurd rfl hne
    | cons p ps ih =>
      intro i hi
      cases ps with
      | nil =>
        have := convertFrom_plain i p [] (h p (by simp))
        rw [List.append_nil] at this
        rw [joined, this, convertFrom, List.append_nil]
        exact .last i p
      | cons p' ps =>
        rw [show joined (p :: p' :: ps) = p ++ 63 :: joined (p' :: ps) from rfl, convertFrom_plain i p _ (h p (by simp)), convertFrom, if_pos rfl]
        have := Numbered.next (p := p) (digits_Digits i) (digits_head hi) (ih (by simp) (fun x hx => h x (by simp [hx])) (i + 1) (by omega))
        simpa using this
  exact this 1 (by omega)

/-- Also those in literals: `SELECT '?', ?` becomes `SELECT '$1', $2`, which wants two parameters. -/
theorem literal_changed : prepared "SELECT '?', ?".toUTF8.data.toList = "SELECT '$1', $2".toUTF8.data.toList := by decide +kernel

/-- `a=? AND b=?`: there are such pieces. -/
example : convertQuery (joined ["a=".toUTF8.data.toList, " AND b=".toUTF8.data.toList, []]) = "a=$1 AND b=$2".toUTF8.data.toList := by decide +kernel

/-! ## Arguments -/

/-- **An argument is told the server as the same value**, if there is a text for it. -/
theorem argument_told (z : Calendar.Zone) (v : Value) (h : Tellable z v) : ∃ s, param z (some v) = .ok (some s) ∧ Tells z v s := by
  unfold param sqlToStr
  cases v with
  | bool b =>
    cases b
    · refine ⟨_, congrArg (fun s => Except.ok (some s)) ?_, .no⟩
      decide +kernel
    · refine ⟨_, congrArg (fun s => Except.ok (some s)) ?_, .yes⟩
      decide +kernel
  | string s => exact ⟨s, by dsimp only; rw [cstr_id h], .string h⟩
  | unknown s => exact ⟨s, by dsimp only; rw [cstr_id h], .unknown h⟩
  | int32 n =>
    have := (Lexical.Props.text_canonical n).1
    exact ⟨_, by dsimp only; rw [cstr_id (numeral_no_zero this)], .int32 this⟩
  | int64 n =>
    have := (Lexical.Props.text_canonical n).1
    exact ⟨_, by dsimp only; rw [cstr_id (numeral_no_zero this)], .int64 this⟩
  | float d =>
    obtain ⟨neg, m, e, hd⟩ := h
    obtain ⟨h1, h2⟩ := fixed_spec hd
    exact ⟨_, by dsimp only; rw [cstr_id h2], .float hd h1⟩
  | timestamp t =>
    obtain ⟨k, hk, y1, y2, u1, u2⟩ := h
    dsimp only
    rw [hk]
    dsimp only
    have hf := yearFits_of hk
    obtain ⟨k', g1, g2, g3⟩ := Calendar.Props.calendar_of_clock z t hf
    rw [hk] at g1
    cases g1
    obtain ⟨r1, r2⟩ := shows_ranges g2
    have hs := stamp_spec k ⟨y1, y2⟩ r1 r2 g2.hour g2.min g2.sec (by rw [g3]; exact ⟨u1, u2⟩)
    exact ⟨_, by rw [cstr_id (stamp_no_zero hs)], .timestamp g2 g3 hs⟩

/-- **NULL and the values are told in their order.** -/
theorem arguments_told (z : Calendar.Zone) (args : List Ptr) (h : ∀ v, some v ∈ args → Tellable z v) :
    ∃ ps, params z args = .ok ps ∧ List.Forall₂ (fun a p => match a, p with | none, none => True | some v, some s => Tells z v s | _, _ => False) args ps := by
  induction args with
  | nil => exact ⟨[], rfl, .nil⟩
  | cons a args ih =>
    obtain ⟨ps, h1, h2⟩ := ih (fun v hv => h v (by simp [hv]))
    unfold params
    cases a with
    | none =>
      rw [show param z none = .ok none from rfl]
      dsimp only
      rw [h1]
      exact ⟨_, rfl, .cons trivial h2⟩
    | some v =>
      obtain ⟨s, g1, g2⟩ := argument_told z v (h v (by simp))
      rw [g1]
      dsimp only
      rw [h1]
      exact ⟨_, rfl, .cons g2 h2⟩

/-- A string with a 0 in it is cut there. -/
theorem zero_cut (z : Calendar.Zone) (a b : Str) (h : 0 ∉ a) : param z (some (.string (a ++ 0 :: b))) = .ok (some a) := by
  unfold param sqlToStr
  dsimp only
  have : cstr (a ++ 0 :: b) = a := by
    unfold cstr
    rw [List.takeWhile_append_of_pos (fun c hc => by
      have : c ≠ 0 := fun e => h (e ▸ hc)
      simpa using this)]
    simp
  rw [this]

/-- Small numbers are told as 0: all below half of ten to the minus tenth, such as 10 to the minus eleventh (here the nearest `double` to it). -/
theorem small_lost (z : Calendar.Zone) : param z (some (.float 4442235333156365461)) = .ok (some "0.0000000000".toUTF8.data.toList)
    ∧ Decodes 4442235333156365461 false 6189700196426901 (-89) := by
  refine ⟨congrArg (fun s => Except.ok (some s)) (by decide +kernel), 0, 986, 1686100569056405, ?_, by decide, by decide, by decide, rfl, .inr ⟨by decide, by decide, by decide⟩⟩
  decide

/-! ## Rows -/

/-- **A text of the server is read as the value that it shows.** -/
theorem value_read (env : Env) (t : Nat) (v : Value) (s : Str) (h : Shown t v s) : strToSql env t (some s) = .ok (some v) := by
  have int : ∀ (ty : Lexical.IntType) (n : Int), ty.signed = true → Numeral s n → Fits ty n → Lexical.intOfString ty (cstr s) = some n := by
    intro ty n ht hn hf
    rw [cstr_id (numeral_no_zero hn)]
    have hd : Decidable (Fits ty n) := Classical.propDecidable _
    rw [Lexical.Props.signed_cast ty ht s n ⟨[], s, [], by simp, by simp, hn, by simp⟩, if_pos hf]
  unfold strToSql
  cases h with
  | yes => rfl
  | no => rfl
  | text => rfl
  | varchar => rfl
  | small h1 h2 hn =>
    rw [show kindOf 21 = .int32 from rfl]
    simp only [makeValue]
    rw [int Lexical.int32 _ rfl hn (by simp [Fits, Lexical.int32]; omega)]
  | int h1 h2 hn =>
    rw [show kindOf 23 = .int32 from rfl]
    simp only [makeValue]
    rw [int Lexical.int32 _ rfl hn (by simp [Fits, Lexical.int32]; omega)]
  | big h1 h2 hn =>
    rw [show kindOf 20 = .int64 from rfl]
    simp only [makeValue]
    rw [int Lexical.int64 _ rfl hn (by simp [Fits, Lexical.int64]; omega)]

theorem row_read (env : Env) (ts : List Nat) (vs : List Ptr) (cs : List (Option Str)) (h : ShownRow ts vs cs) : readRow env ts cs = .ok vs := by
  induction h with
  | nil => rfl
  | null h ih => unfold readRow; rw [show ∀ t, strToSql env t none = .ok none from fun _ => rfl, ih]
  | value hs h ih => unfold readRow; rw [value_read env _ _ _ hs, ih]

/-- **The rows of a result are fetched each once, in their order, with the values that the server has shown, and then there are no more.** -/
theorem rows_fetched (env : Env) (t : Table) (vals : List (List Ptr)) (h : List.Forall₂ (ShownRow t.types) vals t.rows) (n : Nat) :
    Statement.fetchMany env n ⟨some ⟨some t, 0⟩⟩ = (vals.map (fun v => Except.ok (some v)) ++ List.replicate n (Except.ok none)).take n := by
  have len : vals.length = t.rows.length := forall₂_length h
  have get : ∀ i (hi : i < vals.length), readRow env t.types ((t.rows[i]?).getD []) = .ok vals[i] := by
    intro i hi
    have hi' : i < t.rows.length := len ▸ hi
    rw [List.getElem?_eq_getElem hi', Option.getD_some]
    refine row_read env _ _ _ ?_
    clear len
    revert i
    generalize t.rows = rows at h
    induction h with
    | nil => intro i hi; exact absurd hi (Nat.not_lt_zero _)
    | cons hr _ ih =>
      intro i hi hi'
      cases i with
      | zero => exact hr
      | succ i => exact ih i (by simpa using hi) (by simpa using hi')
  have : ∀ n c, c ≤ vals.length → Statement.fetchMany env n ⟨some ⟨some t, c⟩⟩ = ((vals.drop c).map (fun v => Except.ok (some v)) ++ List.replicate n (Except.ok none)).take n := by
    intro n
    induction n with
    | zero => intro c _; rfl
    | succ n ih =>
      intro c hc
      unfold Statement.fetchMany Statement.fetchRow Result.fetchRow Result.rowNum
      dsimp only
      by_cases hlt : c < vals.length
      · rw [if_neg (by omega), get c hlt]
        dsimp only
        rw [ih (c + 1) (by omega), List.drop_eq_getElem_cons hlt, List.map_cons, List.cons_append, List.take_succ_cons]
        congr 1
        rw [List.replicate_succ', ← List.append_assoc]
        exact (List.take_append_of_le_length (by simp)).symm
      · have : c = vals.length := by omega
        subst this
        rw [if_pos (by omega)]
        have := ih vals.length (by omega)
        rw [this]
        simp [List.replicate_succ]
  exact this n 0 (by omega)

/-- Two rows with a NULL: there are such results. -/
example : ShownRow [23, 25] [some (.int32 (-7)), some (.string [97])] [some [45, 55], some [97]] ∧ ShownRow [23, 25] [none, some (.string [])] [none, some []] :=
  ⟨.value (.int (by decide) (by decide) (.minus (.one 55 (by decide) (by decide)))) (.value .text .nil), .null (.value .text .nil)⟩

/-- Before any execution, and after a command without rows, there are no rows. -/
theorem no_rows (env : Env) : (Statement.fetchRow env {}).1 = .ok none ∧ (Statement.fetchRow env ⟨some ⟨none, 0⟩⟩).1 = .ok none := ⟨rfl, rfl⟩

/-- A column of another type than those, such as `char(n)` (1042), `numeric` (1700) or `timestamp with time zone` (1184), is of unknown type: read into a
string it is the empty string, although the server has sent a text. -/
theorem unknown_column_empty (env : Env) (s : Str) :
    strToSql env 1042 (some s) = .ok (some (.unknown s)) ∧ Sql.fromSql env.zone .string (some (.unknown s)) = .ok (.string []) := ⟨rfl, rfl⟩

/-! ## Times -/

/-- Reading a time is undefined, whatever the server has sent, because the constructor of `calendar_time` is. -/
theorem time_undefined (env : Env) (h : env.memory = none) (s : Str) : strToSql env 1114 (some s) = .error .ub := by
  have : makeTime env (cstr s) = none := by
    unfold makeTime
    cases strptime (cstr s) with
    | none => rfl
    | some p =>
      obtain ⟨⟨y, m, d, h', i, c⟩, q⟩ := p
      simp only [Option.bind_eq_bind, Option.bind_some]
      cases atoi q with
      | none => rfl
      | some u =>
        have := Calendar.Props.make_undefined env.zone env.mktime y m d h' i c u
        unfold Calendar.make at this
        rw [h, Option.bind_some, this]
        rfl
  unfold strToSql
  rw [show kindOf 1114 = .timestamp from rfl]
  simp only [makeValue]
  rw [this]

/-- **If the memory happens to hold whether there is summer time, a time with six digits of microseconds is read as it was written**, where the clocks
show it only once. Missing: the memory, and other texts. -/
theorem time_round_trip_partial (env : Env) (hm : Calendar.Spec.Inverts env.zone env.mktime) (t : Clock.T) (h : Tellable env.zone (.timestamp t))
    (ho : Calendar.Spec.Once env.zone (Calendar.toTime t.sec)) (hmem : env.memory = some (env.zone.summer (Calendar.toTime t.sec))) :
    ∃ s, param env.zone (some (.timestamp t)) = .ok (some s) ∧ strToSql env 1114 (some s) = .ok (some (.timestamp t)) := by
  obtain ⟨s, h1, h2⟩ := argument_told env.zone _ h
  refine ⟨s, h1, ?_⟩
  cases h2 with
  | @timestamp _ k _ hk hu hs =>
    obtain ⟨k', hk', y1, y2, u1, u2⟩ := h
    have hf := yearFits_of hk'
    have huniq := Calendar.Props.shows_unique env.zone t hf k hk hu
    obtain ⟨r1, r2⟩ := shows_ranges hk
    obtain ⟨y, m, d, hh, i, c, u, q, p1, p2, e1, e2, e3, e4, e5, e6, e7⟩ := strptime_spec hs r1 r2 hk.hour.2 hk.min.2 hk.sec.2
    obtain ⟨hr1, hr2⟩ := Calendar.Lemmas.toTime_range t.sec
    have hmk := Calendar.Props.make_partial env.zone env.mktime hm (Calendar.toTime t.sec) hr1 hr2 hf t.usec k
      (by rw [Calendar.Lemmas.ofTime_toTime]; exact huniq)
    obtain ⟨k₂, c', g1, g2, g3, g4⟩ := Calendar.Props.round_trip env.zone env.mktime hm t hf
    rw [huniq] at g1
    cases g1
    have hc := g4 ho
    subst hc
    have : makeTime env (cstr s) = some c' := by
      rw [cstr_id (stamp_no_zero hs)]
      unfold makeTime
      rw [p1]
      simp only [Option.bind_eq_bind, Option.bind_some]
      rw [p2, Option.bind_some, hmem, ← e1, ← e2, ← e3, ← e4, ← e5, ← e6, hu, hmk, Option.bind_some, g2]
    unfold strToSql
    rw [show kindOf 1114 = .timestamp from rfl]
    simp only [makeValue]
    rw [this]

/-- The server leaves out zeros at the end: half a second is read as five microseconds; and without a fraction `strptime` gives the null pointer, which
`atoi` reads. -/
theorem time_misread : (strptime "2000-01-01 00:00:00.5".toUTF8.data.toList).bind (fun p => atoi p.2) = some 5
    ∧ strptime "2000-01-01 00:00:00".toUTF8.data.toList = none := by
  refine ⟨by decide +kernel, by decide +kernel⟩

/-- New year 2000 in Greenwich: there are such times. -/
example : Tellable Calendar.Props.utc (.timestamp ⟨946684800, 500000⟩) :=
  ⟨⟨0, 6, 2000, 1, 1, 0, 0, 0, 500000, some false⟩, by decide +kernel, by decide, by decide, by decide, by decide⟩

/-! ## Executions -/

variable {δ : Type}

/-- **An execution replaces the rows by those of the server's answer; one that fails leaves them as they are.** -/
theorem execute_result (st : Statement) (e : Transact.Engine δ (List (Option Str)) Table) (net : Nat → Transact.Fate) (z : Calendar.Zone) (args : List Ptr)
    (ps : List (Option Str)) (hp : params z args = .ok ps) (s : Transact.Pg.Conn δ) :
    match Transact.Pg.executeStatement e net ps s with
    | (some t, s') => st.execute e net z args s = (.ok true, ⟨some ⟨t, 0⟩⟩, s')
    | (none, s') => st.execute e net z args s = (.ok false, st, s') := by
  unfold Statement.execute
  rw [hp]
  dsimp only
  cases Transact.Pg.executeStatement e net ps s with
  | mk r s' => cases r <;> rfl

/-- **A statement that is executed runs its own query, if nothing has been prepared or run on the connection since.** Missing: it should do so in any
case. -/
theorem own_query_partial (e : Transact.Engine δ (List (Option Str)) Table) (net : Nat → Transact.Fate) (q : String) (s s' : Transact.Pg.Conn δ)
    (h : Transact.Pg.prepareStatement e net q s = (true, s')) (ps : List (Option Str)) (hn : net s'.calls = .fine) :
    Transact.Pg.executeStatement e net ps s' = Transact.Pg.serverExec e q ps { s' with calls := s'.calls + 1 } := by
  unfold Transact.Pg.prepareStatement at h
  cases hg : Transact.Pg.get net s with
  | mk b s₀ =>
    rw [hg] at h
    cases b with
    | false => cases h
    | true =>
      dsimp only at h
      have := Transact.Lemmas.prepare_good (e := e) (net := net) q s₀ (by rw [h])
      rw [h] at this
      have h1 : s'.good = true := this.1
      have h3 : s'.prepared = some q := this.2.2.1
      unfold Transact.Pg.executeStatement
      rw [Transact.Lemmas.get_good s' h1]
      dsimp only
      unfold Transact.Pg.exec
      rw [if_neg (by rw [h1]; decide)]
      simp only [hn, h3]

/-- A server for the examples: "INSERT" adds a row. -/
def demo : Transact.Engine Nat (List (Option Str)) Table where
  parses q := q = "INSERT" || q = "DELETE"
  run d q _ := if q = "INSERT" then some (d + 1, none) else some (0, none)
  noArgs := []

/-- All prepared statements share the one without a name. A statement that was prepared before a transaction began runs `BEGIN` again when it is
executed in it, which the server accepts: the execution reports success, and nothing is inserted. -/
theorem prepared_before_transaction :
    let s := (Transact.Pg.prepareStatement demo (fun _ => .fine) "INSERT" ⟨0, .idle, none, true, 0⟩).2
    let s := (Transact.Pg.begin_ demo (fun _ => .fine) s).2
    let r := Statement.execute {} demo (fun _ => .fine) Calendar.Props.utc [] s
    let s := (Transact.Pg.commit demo (fun _ => .fine) r.2.2).2
    r.1 = .ok true ∧ s.db = 0 := ⟨rfl, rfl⟩

/-- And if another statement is prepared meanwhile, the first one does what the second one should: here it deletes. -/
theorem prepared_two :
    let s := (Transact.Pg.prepareStatement demo (fun _ => .fine) "INSERT" ⟨7, .idle, none, true, 0⟩).2
    let s := (Transact.Pg.prepareStatement demo (fun _ => .fine) "DELETE" s).2
    let r := Statement.execute {} demo (fun _ => .fine) Calendar.Props.utc [] s
    r.1 = .ok true ∧ r.2.2.db = 0 := ⟨rfl, rfl⟩

end Verif.Postgres.Props
