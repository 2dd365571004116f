import Verif.Sql.Spec
import Verif.Calendar.Props
import Verif.Sql.Lemmas
/-! C68: values of the program and values of the database. -/

namespace Verif.Sql.Props
open Verif Verif.Sql Verif.Sql.Spec Verif.Sql.Lemmas

/-- C68: a value of the program that goes into an argument comes out of a column of the same type. -/
theorem from_to (z : Calendar.Zone) (mktime : Calendar.Tm → Int) (v : CVal) (h : ∀ c, v ≠ .calendar c) (h' : ∀ s, v ≠ .cstr s) :
    ∃ w, toSql mktime v = .ok w ∧ fromSql z (typeOf v) (some w) = .ok v := by
  cases v with
  | calendar c => exact absurd rfl (h c)
  | cstr s => exact absurd rfl (h' s)
  | _ => exact ⟨_, rfl, rfl⟩

/-- C68: a calendar time comes out as it went in, if it is one of the zone. -/
theorem from_to_calendar (z : Calendar.Zone) (mktime : Calendar.Tm → Int) (hm : Calendar.Spec.Inverts z mktime) (t : Clock.T)
    (hy : Calendar.Spec.YearFits z (Calendar.toTime t.sec)) (c : Calendar.Cal) (hc : Calendar.ofClock z t = some c) :
    ∃ w, toSql mktime (.calendar c) = .ok w ∧ fromSql z .calendar (some w) = .ok (.calendar c) := by
  obtain ⟨k, t', h1, h2, h3, _⟩ := Calendar.Props.round_trip z mktime hm t hy
  rw [hc] at h1
  cases h1
  refine ⟨.timestamp t', ?_, ?_⟩
  · simp only [toSql, h2]
  · simp only [fromSql, h3]

/-- C68, part: a value that a column gives for a type other than `string` is that of the column: no integer is cut, and nothing is taken for something
else. For `string`, see `string_swallows`. -/
theorem from_same_partial (z : Calendar.Zone) (t : Ty) (p : Ptr) (v : CVal) (ht : t ≠ .string)
    (hy : ∀ c, p = some (.timestamp c) → Calendar.Spec.YearFits z (Calendar.toTime c.sec)) (h : fromSql z t p = .ok v) :
    typeOf v = t ∧ ∃ w, p = some w ∧ Same z w v := by
  unfold fromSql at h
  split at h
  all_goals first | (cases h; exact ⟨rfl, _, rfl, by constructor⟩) | (exact absurd rfl ht) | (cases h; done) | skip
  · rename_i n
    split at h
    · rename_i hn
      cases h
      exact ⟨rfl, _, rfl, .narrow n (by omega) (by omega)⟩
    · cases h
  · rename_i c
    obtain ⟨k, h1, h2, h3⟩ := Calendar.Props.calendar_of_clock z c (hy c rfl)
    rw [h1] at h
    cases h
    exact ⟨rfl, _, rfl, .calendar c k (hy c rfl) h2 h3⟩

/-- C68: and every value that a type can hold is given. -/
theorem from_complete (z : Calendar.Zone) (w : Value) (v : CVal) (h : Same z w v) : fromSql z (typeOf v) (some w) = .ok v := from_same z w v h

/-- Finding: for the type `string`, NULL and anything that is no string, also a text of unknown type, is the empty string. -/
theorem string_swallows (z : Calendar.Zone) (p : Ptr) (h : ∀ s, p ≠ some (.string s)) : fromSql z .string p = .ok (.string []) := by
  unfold fromSql
  split
  all_goals first | rfl | (exact absurd rfl (h _)) | skip
  all_goals simp_all

/-- C68, part: up to nine arguments of `execute` are handed on, in their order. -/
theorem execute_partial (mktime : Calendar.Tm → Int) (as : List CVal) (vs : List Value) (h : List.Forall₂ (fun a v => toSql mktime a = .ok v) as vs)
    (hn : as.length ≤ 9) : executeArgs mktime as = .ok (vs.map some) := by
  unfold executeArgs
  rw [if_neg (by omega)]
  exact assignAll_ok mktime as vs h []

/-- C68: the arguments of `run` are handed on, in their order. -/
theorem run_args (mktime : Calendar.Tm → Int) (as : List CVal) (vs : List Value) (h : List.Forall₂ (fun a v => toSql mktime a = .ok v) as vs) :
    runArgs mktime as = .ok (vs.map some) := assignAll_ok mktime as vs h []

/-- Finding: ten arguments of `execute` are written to a vector for nine. -/
theorem execute_ten (mktime : Calendar.Tm → Int) (as : List CVal) (hn : as.length = 10) : executeArgs mktime as = .error .ub := by
  exact assignAll_short mktime as 0 _ (by rw [if_pos hn, List.length_replicate]; omega)

/-- C68, part: up to seven variables get the values of a row of as many columns, if each of them can hold its value. -/
theorem fetch_partial (z : Calendar.Zone) (ret : List Ptr) (ts : List Ty) (vs : List CVal) (hn : ts.length ≤ 7) (h : Holds z ret ts vs) :
    fetchRow z (.ok (some ret)) ts = (vs, .ok true) := by
  have hl := holds_length h
  unfold fetchRow wantedColumns
  dsimp only
  rw [if_pos hn, if_neg (by omega), if_neg (by omega)]
  have := fetchAll_ok z [] [] h
  simpa using this

/-- C68, part: if a variable cannot hold its value there is an exception, and the variables before it have their values already. -/
theorem fetch_stops_partial (z : Calendar.Zone) (ret ret' : List Ptr) (p : Ptr) (ts ts' : List Ty) (t : Ty) (vs : List CVal) (e : Err)
    (hn : (ts ++ t :: ts').length ≤ 7) (hl : (ret ++ p :: ret').length = (ts ++ t :: ts').length) (h : Holds z ret ts vs) (he : fromSql z t p = .error e) :
    fetchRow z (.ok (some (ret ++ p :: ret'))) (ts ++ t :: ts') = (vs, .error e) := by
  unfold fetchRow wantedColumns
  dsimp only
  rw [if_pos hn, if_neg (by omega), if_neg (by omega)]
  have := fetchAll_append z [] (p :: ret') (t :: ts') h
  simp only [List.nil_append, List.length_nil] at this
  rw [this]
  have hl2 := holds_length h
  have hg : (ret ++ p :: ret')[ts.length]? = some p := by rw [← hl2]; simp
  simp [fetchAll, he, hg]

/-- C68: with another number of columns there is an exception, and no variable is changed, up to seven variables. -/
theorem fetch_mismatch_partial (z : Calendar.Zone) (ret : List Ptr) (ts : List Ty) (hn : ts.length ≤ 7) (hl : ret.length ≠ ts.length) :
    fetchRow z (.ok (some ret)) ts = ([], .error .database) := by
  unfold fetchRow wantedColumns
  dsimp only
  rw [if_pos hn, if_pos hl]

/-- Finding: with eight to ten variables, a row of as many columns is refused; -/
theorem fetch_many_refused (z : Calendar.Zone) (ret : List Ptr) (ts : List Ty) (hn : 8 ≤ ts.length) (hl : ret.length = ts.length) :
    fetchRow z (.ok (some ret)) ts = ([], .error .database) := by
  unfold fetchRow wantedColumns
  dsimp only
  rw [if_neg (by omega : ¬ ts.length ≤ 7), if_pos (by omega)]

/-- and of a row of one column less, as it is taken, a column behind the end is read: this is never done well. -/
theorem fetch_many_undefined (z : Calendar.Zone) (ret : List Ptr) (ts : List Ty) (t : Ty) (vs : List CVal) (hn : 7 ≤ ts.length) (h : Holds z ret ts vs) :
    fetchRow z (.ok (some ret)) (ts ++ [t]) = (vs, .error .ub) := by
  have hl := holds_length h
  unfold fetchRow wantedColumns
  dsimp only
  rw [if_neg (by simp; omega : ¬ (ts ++ [t]).length ≤ 7), if_neg (by simp; omega)]
  have key : ∀ t', fetchAll z ret (ts ++ [t']) 0 = (vs, .error .ub) := by
    intro t'
    have := fetchAll_append z [] [] [t'] h
    simp only [List.nil_append, List.length_nil, List.append_nil] at this
    rw [this]
    have hg : ret[ts.length]? = none := by rw [← hl]; simp
    simp [fetchAll, hg]
  split
  · rename_i h9
    have : (ts ++ [t]).set 8 ((ts ++ [t]).getD 7 .bool) = ts ++ [(ts ++ [t]).getD 7 .bool] := by
      have h8 : ts.length = 8 := by simpa using h9
      rw [List.set_append_right _ _ (by omega), h8]
      rfl
    rw [this]
    exact key _
  · exact key _

/-! ### Concrete cases -/

def utc : Calendar.Zone := ⟨fun _ => 0, fun _ => false⟩

example : executeArgs (fun _ => 0) [.int32 5, .string [97], .bool true] = .ok [some (.int32 5), some (.string [97]), some (.bool true)] := by decide

example : List.Forall₂ (fun a v => toSql (fun _ => 0) a = .ok v) [.int32 5, .string [97], .bool true] [.int32 5, .string [97], .bool true] :=
  .cons rfl (.cons rfl (.cons rfl .nil))

example : Holds utc [some (.int64 5), some (.string [97]), some (.int32 6)] [.int32, .string, .int64] [.int32 5, .string [97], .int64 6] :=
  .cons (.narrow 5 (by decide) (by decide)) rfl (.cons (.string _) rfl (.cons (.widen 6) rfl .nil))

example : fetchRow utc (.ok (some [some (.int64 5), some (.string [97]), none])) [.int32, .string, .int64] = ([.int32 5, .string [97]], .error .database) := by
  decide

example : fromSql utc .int32 (some (.int64 2147483648)) = .error .database ∧ fromSql utc .int32 (some (.int64 (-2147483648))) = .ok (.int32 (-2147483648)) := by
  decide

example : (executeArgs (fun _ => 0) (List.replicate 10 (.int32 1))) = .error .ub ∧ runArgs (fun _ => 0) (List.replicate 10 (.int32 1))
    = .ok (List.replicate 10 (some (.int32 1))) := by decide

example : fetchRow utc (.ok (some (List.replicate 8 (some (.int32 1))))) (List.replicate 8 .int32) = ([], .error .database) := by decide

end Verif.Sql.Props
