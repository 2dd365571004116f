import Verif.Dns.Lemmas
/-! Claims on `cached_dns_resolver` (C48). -/

namespace Verif.Dns.Props
open Verif Verif.Dns Verif.Dns.Spec Verif.AssocMap Verif.Dns.Lemmas

/-- C48: for a positive size, whatever the calls of any number of threads and however they interleave, nothing undefined happens and the
cache never holds more than `max` entries, at most one for each key. (With assertions compiled in, the assertion can fail, see
`assertion_fails`.) -/
theorem bounded (c : Cfg) (hm : 0 < c.max) (es : List Ev) :
    (∃ as s, run c {} es = .ok (as, s) ∧ (s.cache.length : Int) ≤ c.max ∧ (s.cache.map (·.1)).Nodup) ∨
      (c.checked = true ∧ run c {} es = .error .assertion) := by
  rcases run_inv c hm es {} [] ⟨by simp, by simp⟩ (by simp; omega) (by intro x hx; simp at hx) with ⟨as, s, e, h1, h2, _⟩ | h
  · left; exact ⟨as, s, e, h2, h1.nodup⟩
  · right; exact h

/-- C48: every answer from the cache is one that the resolver gave before for the same host and port, in every interleaving. -/
theorem answers_genuine (c : Cfg) (hm : 0 < c.max) (es : List Ev) (as : List (Key × List Addr)) (s : St) (h : run c {} es = .ok (as, s)) :
    ∀ x ∈ as, x ∈ answers es := by
  rcases run_inv c hm es {} [] ⟨by simp, by simp⟩ (by simp; omega) (by intro x hx; simp at hx) with ⟨as', s', e, _, _, _, h4⟩ | ⟨_, e⟩
  · rw [h] at e
    simp only [Except.ok.injEq, Prod.mk.injEq] at e
    rw [e.1]
    simpa using h4
  · rw [h] at e; cases e

/-- C48, partly: if calls do not overlap, the assertion holds, the cache is bounded, and index and table agree: the index consists of the
time of last access and the key of each entry, in order of time. -/
theorem consistent_partial (c : Cfg) (hm : 0 < c.max) (xs : List Call) :
    ∃ s, calls c {} xs = .ok s ∧ (s.cache.length : Int) ≤ c.max ∧ (s.cache.map (·.1)).Nodup ∧
      s.index.Perm (s.cache.map fun e => (e.2.2, e.1)) ∧ s.index.Pairwise (fun x y => x.1 ≤ y.1) := by
  obtain ⟨s, e, h1, h2, h3⟩ := calls_good c hm xs {} ⟨⟨by simp, by simp⟩, by simp [Sorted], by simp; omega⟩
  exact ⟨s, e, h3, h1.nodup, h1.perm, h2⟩

/-- C48, partly: and a call that finds the cache full removes one entry, none of the others having been accessed before it; a call that finds
it not full removes none. -/
theorem lru_partial (c : Cfg) (hm : 0 < c.max) (xs : List Call) (s : St) (hs : calls c {} xs = .ok s) (cur : Int) (key : Key)
    (ret : List Addr) (hk : find s.cache key = none) (s' : St) (r : List Addr) (h : resolve c cur key ret s = .ok (r, s')) :
    r = ret ∧ find s'.cache key = some (ret, cur) ∧
    (∀ k x, k ≠ key → find s'.cache k = some x → find s.cache k = some x) ∧
    (∀ k x, k ≠ key → find s.cache k = some x → find s'.cache k = none →
      (s.cache.length : Int) = c.max ∧ ∀ k' y, k' ≠ key → find s'.cache k' = some y → x.2 ≤ y.2) ∧
    ((s.cache.length : Int) < c.max → ∀ k, k ≠ key → find s'.cache k = find s.cache k) ∧
    s.cache.length ≤ s'.cache.length := by
  obtain ⟨t, e, g1, g2, g3⟩ := calls_good c hm xs {} ⟨⟨by simp, by simp⟩, by simp [Sorted], by simp; omega⟩
  rw [hs] at e
  simp only [Except.ok.injEq] at e
  subst e
  unfold resolve at h
  have hl : lookup c.expire cur key s = (none, s) := by unfold lookup; rw [hk]
  rw [hl] at h
  simp only at h
  obtain ⟨t, e, k1, k2, k3, k4, k5, k6, k7⟩ := strong_evict c.checked c.max s.cache s.index g1 g2 hm
  unfold store at h
  rw [e] at h
  simp only [Except.bind, Except.map, Except.ok.injEq, Prod.mk.injEq] at h
  obtain ⟨rfl, rfl⟩ := h
  have hkt : key ∉ t.cache.map (·.1) := by
    intro hh
    obtain ⟨f, hf, rfl⟩ := List.mem_map.mp hh
    exact find_eq_none_iff.mp hk (List.mem_map_of_mem (k4 f hf))
  have hfind : ∀ k, k ≠ key → find (upsert t.cache key (ret, cur)) k = find t.cache k := fun k hne => by rw [find_upsert, if_neg hne]
  refine ⟨rfl, by rw [find_upsert, if_pos rfl], ?_, ?_, ?_, ?_⟩
  · intro k x hne hx
    rw [hfind k hne, find_eq_some_iff k1.nodup] at hx
    exact (find_eq_some_iff g1.nodup).mpr (k4 _ hx)
  · intro k x hne hx hno
    rw [hfind k hne, find_eq_none_iff] at hno
    have hx' := (find_eq_some_iff g1.nodup).mp hx
    obtain ⟨h1, h2⟩ := k5 (k, x) hx' (fun hm => hno (List.mem_map_of_mem hm))
    refine ⟨by omega, ?_⟩
    intro k' y hne' hy
    rw [hfind k' hne', find_eq_some_iff k1.nodup] at hy
    exact h2 _ hy
  · intro hlt k hne
    rw [hfind k hne, k6 hlt]
  · simp only [length_upsert_new hkt]
    exact k7 g3

/-- C48: an answer is found exactly if the key is in the cache and the expiry time is positive. Its age does not matter: the code updates
the time of access before it compares it with the clock. -/
theorem hit_any_age (expire cur : Int) (key : Key) (s : St) :
    (lookup expire cur key s).1 = if 0 < expire then (find s.cache key).map (·.1) else none := by
  unfold lookup
  cases find s.cache key with
  | none => simp
  | some x =>
    obtain ⟨r, t⟩ := x
    simp only [Int.sub_self]
    split <;> rfl

/-- Finding: so the answers never expire. With an expiry time of one second, an answer obtained at time 0 is still given at time 1000000. -/
theorem never_expires (a b : Addr) (key : Key) :
    ∃ s, calls ⟨true, 10, 1⟩ {} [.resolve 0 key [a]] = .ok s ∧ (resolve ⟨true, 10, 1⟩ 1000000 key [b] s).map (·.1) = .ok [a] := by
  refine ⟨_, rfl, ?_⟩
  simp only [resolve, lookup, AssocMap.find, AssocMap.upsert]
  rw [List.find?_cons_of_pos (by simp)]
  rfl

/-- C48: after `delete_cache` and after `clear_cache` the resolver is asked again; other keys are not affected. -/
theorem delete_correct (key k : Key) (s : St) : find (delete key s).cache k = if k = key then none else find s.cache k := by
  unfold delete; exact find_erase _ _ _

theorem clear_correct (k : Key) (s : St) : find (clear s).cache k = none := rfl

/-- Finding: two threads that miss the same key at the same time leave two elements in the index, and the assertion fails as soon as the
cache is full. -/
theorem assertion_fails : run ⟨true, 2, 60⟩ {} [.lookup 0 ([97], 80), .lookup 1 ([97], 80), .store 0 ([97], 80) [], .store 1 ([97], 80) [],
    .lookup 2 ([98], 80), .store 2 ([98], 80) [], .lookup 3 ([99], 80), .store 3 ([99], 80) []] =
    .error .assertion := by rfl

/-- Finding: without the assertion the wrong entry is removed: `a`, accessed at time 5, instead of `b`, accessed at time 2. -/
theorem wrong_victim : (run ⟨false, 2, 60⟩ {} [.lookup 0 ([97], 80), .lookup 1 ([97], 80), .store 0 ([97], 80) [], .store 1 ([97], 80) [],
    .lookup 2 ([98], 80), .store 2 ([98], 80) [], .lookup 5 ([97], 80), .lookup 6 ([99], 80), .store 6 ([99], 80) []]).map
      (fun x => x.2.cache.map (·.1.1)) = .ok [[99], [98]] := by rfl

/-- One turn of the next theorem: two threads ask for a host at the same time, at the times `2 n` and `2 n + 1`, and then it is deleted. -/
def turn (key : Key) (n : Nat) : List Ev :=
  [.lookup (2 * n) key, .lookup (2 * n + 1) key, .store (2 * n) key [], .store (2 * n + 1) key [], .delete key]

/-- Finding: the memory is not bounded by the size of the cache: after `n` such turns the cache is empty, and the index, which no call can
clean up but `clear_cache` and a full cache, has `n` elements. -/
theorem index_leaks (c : Cfg) (hm : 2 ≤ c.max) (key : Key) (n : Nat) :
    ∃ s, run c {} ((List.range n).flatMap (turn key)) = .ok ([], s) ∧ s.cache = [] ∧ s.index.length = n := by
  have app : ∀ (es fs : List Ev) (s t : St), run c s es = .ok ([], t) → run c s (es ++ fs) = run c t fs := by
    intro es
    induction es with
    | nil => intro fs s t h; simp only [run, Except.ok.injEq, Prod.mk.injEq, true_and] at h; rw [h]; rfl
    | cons e es ih =>
      intro fs s t h
      simp only [List.cons_append, run] at h ⊢
      cases hs : step c s e with
      | error x => rw [hs] at h; simp [Except.bind] at h
      | ok p =>
        obtain ⟨a, s1⟩ := p
        rw [hs] at h
        simp only [Except.bind] at h ⊢
        cases hr : run c s1 es with
        | error x => rw [hr] at h; simp [Except.map] at h
        | ok q =>
          obtain ⟨as, s2⟩ := q
          rw [hr] at h
          simp only [Except.map, Except.ok.injEq, Prod.mk.injEq] at h
          have ha : a.toList = [] := (List.append_eq_nil_iff.mp h.1).1
          have has : as = [] := (List.append_eq_nil_iff.mp h.1).2
          rw [has, h.2] at hr
          rw [ih fs s1 t hr, ha]
          cases run c t fs <;> rfl
  have notfull : ∀ (cache : List (Key × (List Addr × Int))) (index : List (Int × Key)), (cache.length : Int) < c.max →
      evict c.checked c.max cache index = .ok ⟨cache, index⟩ := by
    intro cache index h
    cases index with
    | nil => rw [evict, if_neg (by omega)]
    | cons e l => rw [evict, if_neg (by omega)]
  suffices h : ∃ s, run c {} ((List.range n).flatMap (turn key)) = .ok ([], s) ∧ s.cache = [] ∧ s.index.length = n ∧
      ∀ e ∈ s.index, e.1 < 2 * n by
    obtain ⟨s, h1, h2, h3, _⟩ := h; exact ⟨s, h1, h2, h3⟩
  induction n with
  | zero => exact ⟨{}, rfl, rfl, rfl, by simp⟩
  | succ n ih =>
    obtain ⟨⟨cache, index⟩, h1, h2, h3, h4⟩ := ih
    simp only at h2 h3 h4
    subst h2
    rw [List.range_succ, List.flatMap_append, app _ _ _ _ h1]
    have e1 : eraseAll (2 * (n : Int) + 1, key) (Dns.insert (2 * (n : Int) + 1, key) (Dns.insert (2 * (n : Int), key) index)) |>.Perm
        ((2 * (n : Int), key) :: index) := by
      have p : (Dns.insert (2 * (n : Int) + 1, key) (Dns.insert (2 * (n : Int), key) index)).Perm
          ((2 * (n : Int) + 1, key) :: (2 * (n : Int), key) :: index) := (insert_perm _ _).trans (.cons _ (insert_perm _ _))
      have q := p.filter (fun e => decide (e ≠ ((2 * (n : Int) + 1, key) : Int × Key)))
      refine q.trans ?_
      rw [List.filter_cons_of_neg (by simp), List.filter_cons_of_pos (by simp; omega)]
      rw [List.filter_eq_self.mpr (fun e he => by
        have := h4 e he
        simp only [decide_eq_true_eq]
        rintro rfl
        simp only at this; omega)]
    refine ⟨⟨[], eraseAll (2 * (n : Int) + 1, key) (Dns.insert (2 * (n : Int) + 1, key) (Dns.insert (2 * (n : Int), key) index))⟩, ?_, rfl, ?_, ?_⟩
    · have s1 := notfull [] index (by simp; omega)
      have s2 := notfull [(key, ([], 2 * (n : Int)))] (Dns.insert (2 * (n : Int), key) index) (by simp; omega)
      simp [turn, run, step, lookup, store, delete, AssocMap.find, AssocMap.upsert, AssocMap.erase, Except.bind, Except.map, s1, s2]
    · rw [e1.length_eq, List.length_cons, h3]
    · intro e he
      rcases List.mem_cons.mp (e1.mem_iff.mp he) with rfl | he
      · simp only; omega
      · have := h4 e he; omega

/-- Finding: a size of zero or less makes the first answer undefined behaviour. -/
theorem no_size (checked : Bool) (max expire cur : Int) (key : Key) (ret : List Addr) (h : max ≤ 0) :
    resolve ⟨checked, max, expire⟩ cur key ret {} = .error .ub := by
  have : evict checked max [] [] = .error .ub := by
    rw [evict, if_pos (by simpa using h)]
    simp
  simp only [resolve, lookup, AssocMap.find, List.find?_nil, Option.map_none]
  unfold store
  rw [this]; rfl

example : (calls ⟨true, 2, 60⟩ {} [.resolve 0 ([97], 80) [], .resolve 1 ([98], 80) [], .resolve 2 ([97], 80) [], .resolve 3 ([99], 80) []]).map
    (fun s => s.cache.map (·.1.1)) = .ok [[99], [97]] := by rfl

end Verif.Dns.Props
