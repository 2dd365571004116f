import Verif.Sql.Spec
import Verif.Calendar.Props
import Batteries.Data.List.Basic
/-! Lemmas for SQL values. -/

namespace Verif.Sql.Lemmas
open Verif Verif.Sql Verif.Sql.Spec

theorem assignAll_ok (mktime : Calendar.Tm → Int) (as : List CVal) (vs : List Value) (h : List.Forall₂ (fun a v => toSql mktime a = .ok v) as vs) :
    ∀ (pre : List Ptr), assignAll mktime as pre.length (pre ++ List.replicate as.length none) = .ok (pre ++ vs.map some) := by
  induction h with
  | nil => intro pre; simp [assignAll]
  | @cons a v as vs h _ ih =>
    intro pre
    unfold assignAll
    rw [h]
    show (if _ then _ else _) = _
    rw [if_pos (by simp)]
    have : (pre ++ List.replicate (a :: as).length none).set pre.length (some v) = (pre ++ [some v]) ++ List.replicate as.length none := by
      rw [List.set_append_right _ _ (Nat.le_refl _), Nat.sub_self]
      simp [List.replicate_succ]
    have h2 := ih (pre ++ [some v])
    rw [List.length_append] at h2
    rw [this]
    simpa using h2

theorem toSql_error (mktime : Calendar.Tm → Int) (v : CVal) (e : Err) (h : toSql mktime v = .error e) : e = .ub := by
  unfold toSql at h
  split at h <;> try (cases h; done)
  · cases h; rfl
  · split at h
    · cases h
    · cases h; rfl

theorem assignAll_short (mktime : Calendar.Tm → Int) (as : List CVal) : ∀ (i : Nat) (args : List Ptr), i ≤ args.length ∧ args.length < i + as.length →
    assignAll mktime as i args = .error .ub := by
  induction as with
  | nil => intro i args h; simp at h; omega
  | cons a as ih =>
    intro i args h
    unfold assignAll
    cases ha : toSql mktime a with
    | error e => rw [toSql_error mktime a e ha]; rfl
    | ok v =>
      show (if _ then _ else _) = _
      split
      · exact ih _ _ (by simp only [List.length_set, List.length_cons] at *; omega)
      · rfl

theorem from_same (z : Calendar.Zone) (w : Value) (v : CVal) (h : Same z w v) : fromSql z (typeOf v) (some w) = .ok v := by
  cases h with
  | narrow n h1 h2 =>
    show (if n ≥ -2147483648 ∧ n ≤ 2147483647 then _ else _) = _
    rw [if_pos ⟨by omega, by omega⟩]
  | calendar t c h1 h2 h3 =>
    show (match Calendar.ofClock z t with | some c => Except.ok (CVal.calendar c) | none => .error Err.ub) = _
    rw [Calendar.Props.shows_unique z t h1 c h2 h3]
  | _ => rfl

theorem holds_length {z : Calendar.Zone} {ret : List Ptr} {ts : List Ty} {vs : List CVal} (h : Holds z ret ts vs) : ret.length = ts.length := by
  induction h with
  | nil => rfl
  | cons _ _ _ ih => simp [ih]

theorem fetchAll_cons {z : Calendar.Zone} {ret : List Ptr} {t : Ty} {ts : List Ty} {i : Nat} {p : Ptr} {v : CVal} (h : ret[i]? = some p)
    (hv : fromSql z t p = .ok v) : fetchAll z ret (t :: ts) i = (v :: (fetchAll z ret ts (i + 1)).1, (fetchAll z ret ts (i + 1)).2) := by
  conv => lhs; unfold fetchAll
  simp only [h, hv]

theorem fetchAll_append (z : Calendar.Zone) (pre post : List Ptr) (ts' : List Ty) {ret : List Ptr} {ts : List Ty} {vs : List CVal} (h : Holds z ret ts vs) :
    fetchAll z (pre ++ (ret ++ post)) (ts ++ ts') pre.length = (vs ++ (fetchAll z (pre ++ (ret ++ post)) ts' (pre.length + ts.length)).1,
      (fetchAll z (pre ++ (ret ++ post)) ts' (pre.length + ts.length)).2) := by
  induction h generalizing pre with
  | nil => simp
  | @cons p ret t ts v vs h ht _ ih =>
    have e : pre ++ (some p :: ret ++ post) = (pre ++ [some p]) ++ (ret ++ post) := by simp
    have i := ih (pre ++ [some p])
    rw [← e, List.length_append] at i
    show fetchAll z _ (t :: (ts ++ ts')) _ = _
    rw [fetchAll_cons (p := some p) (by simp) (ht ▸ from_same z p v h)]
    simp only [List.cons_append, List.length_cons, List.length_nil, Nat.zero_add] at i ⊢
    rw [i]
    have : pre.length + 1 + ts.length = pre.length + (ts.length + 1) := by omega
    rw [this]

theorem fetchAll_ok (z : Calendar.Zone) (pre post : List Ptr) {ret : List Ptr} {ts : List Ty} {vs : List CVal} (h : Holds z ret ts vs) :
    fetchAll z (pre ++ (ret ++ post)) ts pre.length = (vs, .ok true) := by
  have := fetchAll_append z pre post [] h
  simpa [fetchAll] using this

end Verif.Sql.Lemmas
