import Verif.LruRef.Lemmas
/-! C106: the references that `get` and `operator[]` of the cache return. -/

namespace Verif.LruRef.Props
open Verif.LruRef Verif.LruRef.Lemmas
open Verif.Lru.Spec (lookup)

variable {K V : Type} [DecidableEq K]

/-- Programs that keep references see the abstract cache with names: same answers, and undefined at the same operation. -/
theorem refs_refine (klt : K → K → Bool) (dflt : V) (cap : Nat) (hc : 1 ≤ cap) (ops : List (Op K V)) :
    run klt dflt (new (cap : Int)) ops = Spec.run cap dflt Spec.empty ops :=
  run_R klt dflt ops (new_R cap hc)

example : run (fun a b : Nat => decide (a < b)) (0 : Nat) (new 2)
    [.set 1 (.lit 10), .index 0 1, .write 0 11, .get 1 1, .read 1, .set 2 (.ref 0), .get 2 2, .read 2, .set 3 (.lit 30), .read 0] =
    [.unit, .unit, .unit, .unit, .val 11, .unit, .unit, .val 11, .unit, .ub] := by decide

/-- A reference to the value of `k` is good, and shows what `get` shows, as long as `k` has not left the cache since: whatever else the program does, with keys that go
in and out and other references that are written to. -/
theorem reference_good (klt : K → K → Bool) (dflt : V) (cap : Nat) (hc : 1 ≤ cap) (pre ops : List (Op K V)) (x y : Nat) (k : K) (hxy : x ≠ y)
    (hu : Lru.Out.ub ∉ run klt dflt (new (cap : Int)) (pre ++ [.get x k] ++ ops)) (hb : ∀ op ∈ ops, Spec.binds x op = false)
    (hs : ∀ p, p <+: ops → run klt dflt (new (cap : Int)) (pre ++ [.get x k] ++ p ++ [.has k]) = run klt dflt (new (cap : Int)) (pre ++ [.get x k] ++ p) ++ [.bool true]) :
    ∃ v, run klt dflt (new (cap : Int)) (pre ++ [.get x k] ++ ops ++ [.read x, .get y k, .read y, .read x]) =
      run klt dflt (new (cap : Int)) (pre ++ [.get x k] ++ ops) ++ [.val v, .unit, .val v, .val v] := by
  have hu1 : Lru.Out.ub ∉ run klt dflt (new (cap : Int)) pre := fun h => hu (by rw [List.append_assoc]; exact run_ub klt dflt _ _ _ h)
  have hup : ∀ p, p <+: ops → Lru.Out.ub ∉ run klt dflt (new (cap : Int)) (pre ++ [.get x k] ++ p) := by
    rintro p ⟨q, rfl⟩ h
    exact hu (by rw [← List.append_assoc]; exact run_ub klt dflt _ _ _ h)
  have hha := fun p hp => has_after hc klt dflt _ (hup p hp) (hs p hp)
  obtain ⟨s0, t0, r0, ht0, -⟩ := follow hc klt dflt pre hu1
  have hk : (lookup t0.items k).isSome := by
    have h := hha [] (List.nil_prefix)
    rw [List.append_nil, after_append, ← ht0] at h
    cases hl : lookup t0.items k with
    | some v => rfl
    | none => rw [after_get_none dflt x k hl, hl] at h; exact h
  obtain ⟨s1, r1⟩ := after_R klt dflt [.get x k] r0
  have hn : (after cap dflt t0 [.get x k]).names x = some k := by rw [after_get dflt x k hk]; simp [Spec.named]
  have hn2 := names_after r1 klt dflt hn ops hb fun p hp => by
    have h := hha p hp
    rwa [after_append, after_append, ← ht0] at h
  obtain ⟨s2, t2, r2, ht2, hf⟩ := follow hc klt dflt _ hu
  rw [after_append, after_append, ← ht0] at ht2
  rw [← ht2] at hn2
  obtain ⟨v, hv⟩ := Option.isSome_iff_exists.1 (names_good r2 hn2)
  refine ⟨v, ?_⟩
  rw [hf]
  simp only [Spec.run, Spec.step, hn2, hv, Option.bind_some, Spec.named, hxy, if_true, if_false, lookup_use]

example : (∀ p, p <+: [Op.set 2 (.lit 20), .set 3 (.lit 30), .index 7 3] → run (fun a b : Nat => decide (a < b)) (0 : Nat) (new ((2 : Nat) : Int)) ([.set 2 (.lit 5), .set 1 (.lit 10)] ++ [.get 0 1] ++ p ++ [.has 1]) =
      run (fun a b : Nat => decide (a < b)) (0 : Nat) (new ((2 : Nat) : Int)) ([.set 2 (.lit 5), .set 1 (.lit 10)] ++ [.get 0 1] ++ p) ++ [.bool true]) ∧
    run (fun a b : Nat => decide (a < b)) (0 : Nat) (new ((2 : Nat) : Int)) ([.set 2 (.lit 5), .set 1 (.lit 10)] ++ [.get 0 1] ++ [.set 2 (.lit 20), .set 3 (.lit 30), .index 7 3]) =
      [.unit, .unit, .unit, .unit, .unit, .unit] := by
  refine ⟨fun p hp => ?_, by decide⟩
  simp only [List.prefix_cons_iff, List.prefix_nil] at hp
  rcases hp with rfl | ⟨_, rfl, rfl | ⟨_, rfl, rfl | ⟨_, rfl, rfl⟩⟩⟩ <;> decide

/-- When `k` has left the cache the reference is lost for ever, also after `k` has come back: to read it is undefined. -/
theorem reference_lost (klt : K → K → Bool) (dflt : V) (cap : Nat) (hc : 1 ≤ cap) (pre p ops : List (Op K V)) (x : Nat) (k : K)
    (hu : Lru.Out.ub ∉ run klt dflt (new (cap : Int)) (pre ++ [.get x k] ++ p ++ ops)) (hb : ∀ op ∈ p ++ ops, Spec.binds x op = false)
    (hg : run klt dflt (new (cap : Int)) (pre ++ [.get x k]) = run klt dflt (new (cap : Int)) pre ++ [.unit])
    (hs : run klt dflt (new (cap : Int)) (pre ++ [.get x k] ++ p ++ [.has k]) = run klt dflt (new (cap : Int)) (pre ++ [.get x k] ++ p) ++ [.bool false]) :
    run klt dflt (new (cap : Int)) (pre ++ [.get x k] ++ p ++ ops ++ [.read x]) = run klt dflt (new (cap : Int)) (pre ++ [.get x k] ++ p ++ ops) ++ [.ub] := by
  have hu2 : Lru.Out.ub ∉ run klt dflt (new (cap : Int)) (pre ++ [.get x k] ++ p) := fun h => hu (run_ub klt dflt _ _ _ h)
  have hu1 : Lru.Out.ub ∉ run klt dflt (new (cap : Int)) pre := fun h => hu2 (by rw [List.append_assoc]; exact run_ub klt dflt _ _ _ h)
  have hha := has_after hc klt dflt _ hu2 hs
  obtain ⟨s0, t0, r0, ht0, hf0⟩ := follow hc klt dflt pre hu1
  have hk : (lookup t0.items k).isSome := by
    rw [hf0, List.append_cancel_left_eq] at hg
    cases hl : lookup t0.items k with
    | some v => rfl
    | none => simp [Spec.run, Spec.step, hl] at hg
  obtain ⟨s1, r1⟩ := after_R klt dflt [.get x k] r0
  have hn : (after cap dflt t0 [.get x k]).names x = some k := by rw [after_get dflt x k hk]; simp [Spec.named]
  have hn2 := lost_after r1 klt dflt hn (p ++ ops) hb (p := p) (List.prefix_append _ _) (by
    rwa [after_append, after_append, ← ht0, Option.isSome_eq_false_iff, Option.isNone_iff_eq_none] at hha)
  obtain ⟨s2, t2, r2, ht2, hf⟩ := follow hc klt dflt _ hu
  rw [after_append, after_append, after_append, ← ht0] at ht2
  rw [after_append, ← ht2] at hn2
  rw [hf]
  simp only [Spec.run, Spec.step, hn2, Option.bind_none]

example : run (fun a b : Nat => decide (a < b)) (0 : Nat) (new ((1 : Nat) : Int)) ([.set 1 (.lit 10)] ++ [.get 0 1]) = [.unit, .unit] ∧
    run (fun a b : Nat => decide (a < b)) (0 : Nat) (new ((1 : Nat) : Int)) ([.set 1 (.lit 10)] ++ [.get 0 1] ++ [.set 2 (.lit 20)] ++ [.has 1]) = [.unit, .unit, .unit, .bool false] ∧
    run (fun a b : Nat => decide (a < b)) (0 : Nat) (new ((1 : Nat) : Int)) ([.set 1 (.lit 10)] ++ [.get 0 1] ++ [.set 2 (.lit 20)] ++ [.set 1 (.lit 11), .has 1]) =
      [.unit, .unit, .unit, .unit, .bool true] := by decide

/-- C106 as stated: `c.set(k, c.get(j))` copies the value of `j` to the new key `k`. -/
def Copies (K V : Type) [DecidableEq K] (cap : Nat) : Prop :=
  ∀ (klt : K → K → Bool) (dflt : V) (ops : List (Op K V)) (x y : Nat) (j k : K), Lru.Out.ub ∉ run klt dflt (new (cap : Int)) ops →
    run klt dflt (new (cap : Int)) (ops ++ [.has j, .has k]) = run klt dflt (new (cap : Int)) ops ++ [.bool true, .bool false] →
    ∃ v, run klt dflt (new (cap : Int)) (ops ++ [.get x j, .read x, .set k (.ref x), .get y k, .read y]) =
      run klt dflt (new (cap : Int)) ops ++ [.unit, .val v, .unit, .unit, .val v]

/-- With room for two entries or more it does, after every program. Missing from the full statement: capacity 1. -/
theorem copy_partial (cap : Nat) (hc : 2 ≤ cap) : Copies K V cap := by
  intro klt dflt ops x y j k hu hh
  obtain ⟨s, t, r, -, hf⟩ := follow (by omega) klt dflt ops hu
  rw [hf, List.append_cancel_left_eq] at hh
  simp only [Spec.run, Spec.step, List.cons.injEq, Lru.Out.bool.injEq, and_true] at hh
  obtain ⟨v, hv⟩ := Option.isSome_iff_exists.1 hh.1
  have hk : lookup t.items k = none := by simpa using hh.2
  refine ⟨v, ?_⟩
  rw [hf, List.append_cancel_left_eq]
  have h1 := lookup_use_ne (j := j) hk
  have h2 := room_use hc hv
  have h3 : lookup (Spec.room cap (Lru.Spec.use t.items j)) k = none := by
    rw [lookup_find, AssocMap.find_eq_none_iff] at h1 ⊢
    exact fun hm => h1 (((room_sublist cap _).map (·.1)).subset hm)
  simp only [Spec.run, Spec.step, hv, lookup_use, h1, Spec.argument, Spec.named, if_true, Option.bind_some, h2, lookup_add_self v h3]

example : run (fun a b : Nat => decide (a < b)) (0 : Nat) (new ((2 : Nat) : Int)) ([.set 1 (.lit 10), .set 2 (.lit 20)] ++ [.has 1, .has 3]) = [.unit, .unit, .bool true, .bool false] ∧
    run (fun a b : Nat => decide (a < b)) (0 : Nat) (new ((2 : Nat) : Int)) ([.set 1 (.lit 10), .set 2 (.lit 20)] ++ [.get 0 1, .read 0, .set 3 (.ref 0), .get 1 3, .read 1]) =
      [.unit, .unit, .unit, .val 10, .unit, .unit, .val 10] := by decide

/-- With room for one entry it never does: the entry of `j` is destroyed to make room, and then its value is read. -/
theorem copy_capacity_one (klt : K → K → Bool) (dflt : V) (ops : List (Op K V)) (x : Nat) (j k : K) (hu : Lru.Out.ub ∉ run klt dflt (new 1) ops)
    (hh : run klt dflt (new 1) (ops ++ [.has j, .has k]) = run klt dflt (new 1) ops ++ [.bool true, .bool false]) :
    ∃ v, run klt dflt (new 1) (ops ++ [.get x j, .read x, .set k (.ref x)]) = run klt dflt (new 1) ops ++ [.unit, .val v, .ub] := by
  obtain ⟨s, t, r, -, hf⟩ := follow (cap := 1) (by decide) klt dflt ops hu
  have hf : ∀ ops', run klt dflt (new 1) (ops ++ ops') = run klt dflt (new 1) ops ++ Spec.run 1 dflt t ops' := hf
  rw [hf, List.append_cancel_left_eq] at hh
  simp only [Spec.run, Spec.step, List.cons.injEq, Lru.Out.bool.injEq, and_true] at hh
  obtain ⟨v, hv⟩ := Option.isSome_iff_exists.1 hh.1
  have hk : lookup t.items k = none := by simpa using hh.2
  refine ⟨v, ?_⟩
  rw [hf, List.append_cancel_left_eq]
  have h1 := lookup_use_ne (j := j) hk
  have h2 := room_one (use_length j (length_R r))
  simp only [Spec.run, Spec.step, hv, lookup_use, h1, Spec.argument, Spec.named, if_true, Option.bind_some, h2]
  rfl

example : run (fun a b : Nat => decide (a < b)) (0 : Nat) (new 1) ([.set 1 (.lit 10)] ++ [.has 1, .has 3]) = run (fun a b : Nat => decide (a < b)) (0 : Nat) (new 1) [.set 1 (.lit 10)] ++ [.bool true, .bool false] := by decide

/-- C106 fails for capacity 1. -/
theorem copy_fails : ¬ Copies Nat Nat 1 := by
  intro h
  obtain ⟨v, hv⟩ := h (fun a b => decide (a < b)) 0 [.set 1 (.lit 10)] 0 1 1 2 (by decide) (by decide)
  have : (run (fun a b : Nat => decide (a < b)) 0 (new ((1 : Nat) : Int)) [.set 1 (.lit 10), .get 0 1, .read 0, .set 2 (.ref 0), .get 1 2, .read 1]) =
      [.unit, .unit, .val 10, .ub] := by decide
  rw [show ([.set 1 (.lit 10)] ++ [.get 0 1, .read 0, .set 2 (.ref 0), .get 1 2, .read 1] : List (Op Nat Nat)) =
      [.set 1 (.lit 10), .get 0 1, .read 0, .set 2 (.ref 0), .get 1 2, .read 1] from rfl, this] at hv
  have := congrArg List.length hv
  revert this
  simp [run]

end Verif.LruRef.Props
