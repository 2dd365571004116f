import Verif.Locks.Lemmas
/-! Property C76: lock objects hold their locks exactly as long as they live, and there is one instance of a singleton. -/

namespace Verif.Locks.Props
open Verif.Locks Verif.Locks.Spec Verif.Locks.Lemmas

/-- A lock is held by exactly the threads that have lock objects on it that are locked, once for each of them; nothing undefined happens. -/
theorem held_iff_locked_partial {kind : Nat → Kind} {valid : Nat → Bool} {s : St} (h : Reach (fun how => ¬ tinyRead how) kind valid s) :
    s.ub = false ∧ ∀ l, (s.locks l).holders.Perm (held s.objs l) :=
  ⟨(inv_reach h).ub, (inv_reach h).held⟩

/-- When all lock objects of a thread have been destroyed, it holds no lock. -/
theorem nothing_left_partial {kind : Nat → Kind} {valid : Nat → Bool} {s : St} (h : Reach (fun how => ¬ tinyRead how) kind valid s) {t : Nat}
    (hn : ∀ o ∈ s.objs, o.tid ≠ t) (l : Nat) (m : Mode) : (t, m) ∉ (s.locks l).holders := by
  intro hm
  have := ((inv_reach h).held l).mem_iff.1 hm
  obtain ⟨o, ho, e⟩ := List.mem_map.1 this
  exact hn o ((List.mem_filter.1 ho).1) (Prod.mk.inj e).1

/-- Mutual exclusion: two different objects that are locked on the same lock belong to one thread if it is a recursive mutex, are both readers if it is a read-write lock,
and cannot be on a plain mutex. So no two threads run the bodies of `synchronized` on the same mutex at the same time. -/
theorem exclusive_partial {kind : Nat → Kind} {valid : Nat → Bool} {s : St} (h : Reach (fun how => ¬ tinyRead how) kind valid s) {a b : Obj}
    (ha : s.find a.name = some a) (hb : s.find b.name = some b) (hne : a.name ≠ b.name) (hl : a.lock = b.lock) (h1 : a.need = true) (h2 : b.need = true) :
    match kind a.lock with
    | .plain => False
    | .recursive => a.tid = b.tid
    | .rw => a.mode = .read ∧ b.mode = .read := by
  have hi := inv_reach h
  have ma := (find_some ha).1
  have mb := (find_some hb).1
  have p1 : s.objs.Perm (a :: s.objs.erase a) := List.perm_cons_erase ma
  have mb' : b ∈ s.objs.erase a := by
    rcases List.mem_cons.1 (p1.mem_iff.1 mb) with e | e
    · exact absurd (by rw [e]) hne
    · exact e
  have p2 : (s.objs.erase a).Perm (b :: (s.objs.erase a).erase b) := List.perm_cons_erase mb'
  have p3 := ((hi.held a.lock).trans (held_perm p1 a.lock)).trans (held_perm (p2.cons a) a.lock)
  rw [held_cons, if_pos ⟨h1, rfl⟩, held_cons, if_pos ⟨h2, hl.symm⟩] at p3
  have he := (excl_perm p3 (hi.excl a.lock)).1
  have := (List.pairwise_cons.1 he).1 _ List.mem_cons_self
  rw [(hi.kind a.lock).1] at this
  unfold Compatible at this
  cases hk : kind a.lock <;> rw [hk] at this <;> exact this

/-- A constructor succeeds when nobody else holds the lock in a way that excludes it: then it is not blocked, and the object is locked. -/
theorem can_lock_partial {kind : Nat → Kind} {valid : Nat → Bool} {s : St} (h : Reach (fun how => ¬ tinyRead how) kind valid s) {t x l : Nat} {how : How}
    (hv : valid l = true) (hf : how.fits (kind l) = true) (hx : s.find x = none) (hn : ¬ tinyRead how)
    (hfree : ∀ o ∈ s.objs, o.lock = l → o.need = true → Compatible (kind l) (o.tid, o.mode) (t, how.mode)) :
    ∃ s', step s t (.make x l how 0) = some s' ∧ s'.locked x = some true := by
  have hi := inv_reach h
  have hholders : ∀ a ∈ (s.locks l).holders, Compatible (kind l) a (t, how.mode) := by
    intro a ha
    obtain ⟨o, ho, e⟩ := List.mem_map.1 (((hi.held l).mem_iff).1 ha)
    obtain ⟨ho1, ho2⟩ := List.mem_filter.1 ho
    rw [Bool.and_eq_true] at ho2
    rw [← e]
    exact hfree o ho1 (eq_of_beq ho2.2) ho2.1
  have hg : (s.locks l).grantable t how.mode = true := by
    unfold Lock.grantable
    rw [(hi.kind l).1]
    cases hk : kind l with
    | plain =>
      rw [hk] at hholders
      show (s.locks l).holders.isEmpty = true
      cases e : (s.locks l).holders with
      | nil => rfl
      | cons a r =>
        rw [e] at hholders
        exact (hholders a List.mem_cons_self).elim
    | recursive =>
      rw [hk] at hholders
      show (s.locks l).holders.all _ = true
      rw [List.all_eq_true]
      intro a ha
      exact beq_iff_eq.2 (hholders a ha)
    | rw =>
      rw [hk] at hholders
      cases hm : how.mode with
      | read =>
        show (s.locks l).holders.all _ = true
        rw [List.all_eq_true]
        intro a ha
        exact beq_iff_eq.2 (hholders a ha).1
      | write =>
        show (s.locks l).holders.isEmpty = true
        cases e : (s.locks l).holders with
        | nil => rfl
        | cons a r =>
          rw [e, hm] at hholders
          have := (hholders a List.mem_cons_self).2
          cases this
  have hnat : ∀ m, m = how.mode → (s.locks l).native t m 0 = some ({ s.locks l with holders := (t, m) :: (s.locks l).holders }, 0) := by
    intro m e
    unfold Lock.native
    rw [if_pos rfl, e, if_pos hg]
  have hval : (s.locks l).valid = true := (hi.kind l).2.trans hv
  have hcall : ∃ l', how.call (s.locks l) t 0 = some (l', true) := by
    cases how with
    | mutex =>
      unfold How.call Lock.lock
      simp only
      split
      · exact ⟨_, rfl⟩
      · rw [hnat .write rfl]
        exact ⟨_, rfl⟩
    | locker m sec =>
      cases sec with
      | none =>
        unfold How.call Lock.rwLock
        simp only
        rw [if_pos hval, hnat m rfl]
        exact ⟨_, rfl⟩
      | some sec =>
        have hs : ¬ (sec < 1 / 1000000000 ∧ m = .read) := fun hs => hn (by rw [hs.2]; exact hs.1)
        unfold How.call Lock.rwLockFor
        simp only [if_neg hs]
        rw [if_pos hval, hnat m rfl]
        exact ⟨_, rfl⟩
    | direct m sec =>
      unfold How.call
      simp only
      split
      · rename_i h0
        have hs : ¬ (sec < 1 / 1000000000 ∧ m = .read) := fun hs => hn (by rw [hs.2]; exact ⟨h0, hs.1⟩)
        unfold Lock.rwLockFor
        simp only [if_neg hs]
        rw [if_pos hval, hnat m rfl]
        exact ⟨_, rfl⟩
      · unfold Lock.rwLock
        rw [if_pos hval, hnat m rfl]
        exact ⟨_, rfl⟩
  obtain ⟨l', hcall⟩ := hcall
  unfold step
  simp only
  rw [if_pos ⟨by rw [hx]; rfl, by rw [(hi.kind l).1]; exact hf⟩, hcall]
  refine ⟨_, rfl, ?_⟩
  unfold St.locked St.find
  rw [List.find?_cons_of_pos (by exact beq_self_eq_true x)]
  rfl

/-- A copy of a `scoped_rlock` or `scoped_wlock` takes the lock over: the copy is locked if the original was, the original is not any more, and the lock itself is not touched. -/
theorem copy_takes_over {kind : Nat → Kind} {valid : Nat → Bool} {s s' : St} (h : Reach (fun how => ¬ tinyRead how) kind valid s) {t y x : Nat} (hs : step s t (.copy y x) = some s') :
    s'.locked y = s.locked x ∧ s'.locked x = some false ∧ s'.locks = s.locks := by
  have hi := inv_reach h
  unfold step at hs
  simp only at hs
  split at hs
  · rename_i o ho
    obtain ⟨hm, hx⟩ := find_some ho
    split at hs
    · rename_i hc
      cases hs
      have hyx : y ≠ x := by
        intro e
        exact find_none hc.2.2 o hm (hx.trans e.symm)
      refine ⟨?_, ?_, rfl⟩
      · unfold St.locked St.find
        rw [List.find?_cons_of_pos (by exact beq_self_eq_true y)]
        unfold St.find at ho
        rw [ho]
        rfl
      · unfold St.locked St.find
        rw [List.find?_cons_of_neg (by exact fun e => hyx (eq_of_beq e))]
        unfold St.release
        rw [List.find?_map]
        have : ((fun o : Obj => o.name == x) ∘ fun o => if o.name = x then { o with need := false } else o) = fun o : Obj => o.name == x := by
          funext p
          show ((if p.name = x then { p with need := false } else p : Obj).name == x) = (p.name == x)
          by_cases e : p.name = x
          · rw [if_pos e]
          · rw [if_neg e]
        unfold St.find at ho
        rw [this, ho]
        show some (if o.name = x then { o with need := false } else o).need = some false
        rw [if_pos hx]
    · cases hs
  · cases hs

/-- Several steps. -/
def run (s : St) : List (Nat × Op) → Option St
  | [] => some s
  | (t, op) :: ops => (step s t op).bind (fun s' => run s' ops)

theorem reach_run {kind : Nat → Kind} {valid : Nat → Bool} : ∀ (ops : List (Nat × Op)) {s s' : St}, Reach (fun _ => True) kind valid s → run s ops = some s' →
    Reach (fun _ => True) kind valid s'
  | [], s, s', h, e => by cases e; exact h
  | (t, op) :: ops, s, s', h, e => by
    unfold run at e
    cases hs : step s t op with
    | none => rw [hs] at e; cases e
    | some s1 =>
      rw [hs] at e
      exact reach_run ops (.step h (fun _ _ _ _ _ => trivial) hs) e

/-- A time limit of zero turns the answer of a read lock round: the object says that it is not locked, while the thread holds the lock and never gives it back; after the
object is gone no writer can get the lock, although nobody uses it. -/
theorem tiny_read_leaks : ∃ s s' : St, Reach (fun _ => True) (fun _ => .rw) (fun _ => true) s ∧ s.locked 0 = some false ∧ step s 1 (.drop 0) = some s' ∧ s'.objs = [] ∧
    (s'.locks 0).holders = [(1, .read)] ∧ (step s' 2 (.make 1 0 (.direct .write (-1)) 0)).isNone = true := by
  refine ⟨(run (init (fun _ => .rw) (fun _ => true)) [(1, .make 0 0 (.direct .read 0) 0)]).get (by decide +kernel),
    (step ((run (init (fun _ => .rw) (fun _ => true)) [(1, .make 0 0 (.direct .read 0) 0)]).get (by decide +kernel)) 1 (.drop 0)).get (by decide +kernel), reach_run _ .init (Option.some_get _).symm, ?_, ?_, ?_, ?_, ?_⟩
  · decide +kernel
  · exact (Option.some_get _).symm
  · decide +kernel
  · decide +kernel
  · decide +kernel

/-- And when a writer has the lock, the object says that it is locked, beside the writer, and its destructor gives back a lock that the thread does not have. -/
theorem tiny_read_not_exclusive : ∃ s s' : St, Reach (fun _ => True) (fun _ => .rw) (fun _ => true) s ∧ s.locked 0 = some true ∧ s.locked 1 = some true ∧
    s.find 0 = some ⟨0, 1, 0, .write, true, true⟩ ∧ s.find 1 = some ⟨1, 2, 0, .read, true, true⟩ ∧ step s 2 (.drop 1) = some s' ∧ s'.ub = true := by
  refine ⟨(run (init (fun _ => .rw) (fun _ => true)) [(1, .make 0 0 (.direct .write (-1)) 0), (2, .make 1 0 (.direct .read 0) 16)]).get (by decide +kernel),
    (step ((run (init (fun _ => .rw) (fun _ => true)) [(1, .make 0 0 (.direct .write (-1)) 0), (2, .make 1 0 (.direct .read 0) 16)]).get (by decide +kernel)) 2 (.drop 1)).get (by decide +kernel),
    reach_run _ .init (Option.some_get _).symm, ?_, ?_, ?_, ?_, ?_, ?_⟩
  · decide +kernel
  · decide +kernel
  · decide +kernel
  · decide +kernel
  · exact (Option.some_get _).symm
  · decide +kernel

/-- Negative times: `scoped_rwlock` takes them for no limit, but `wlock(m, sec)` tries only once (the two ways agree for other times). -/
theorem negative_times (l : Lock) (t : Nat) (m : Mode) (sec : Rat) (err : Int) :
    (sec < 0 → (How.direct m sec).call l t err = (How.locker m none).call l t err) ∧ (0 ≤ sec → (How.direct m sec).call l t err = (How.locker m (some sec)).call l t err) ∧
    (sec < 0 → (How.locker m (some sec)).call l t err = l.rwLockFor t m 0 err) := by
  refine ⟨fun h => if_neg (Rat.not_le.2 h), fun h => if_pos h, fun h => ?_⟩
  have h1 : sec < 1 / 1000000000 := by grind
  show l.rwLockFor t m sec err = _
  unfold Lock.rwLockFor
  simp only [h1, true_and, show (0 : Rat) < 1 / 1000000000 by decide +kernel]

/-- At most one object is ever made; every call that returns, returns that object, and never follows a null pointer. -/
theorem one_instance {s : Single} (h : SReach s) : s.made ≤ 1 ∧ ∀ t q, (t, Result.deref q) ∈ s.returned → q = some 0 ∧ s.made = 1 := by
  have hi := sinv_reach h
  refine ⟨?_, fun t q hq => ?_⟩
  · rcases hi.made with ⟨_, e⟩ | ⟨_, e⟩ <;> omega
  · have := hi.returned t q hq
    refine ⟨this.1, ?_⟩
    rcases hi.made with ⟨e, _⟩ | ⟨_, e⟩
    · rw [this.2] at e
      cases e
    · exact e

/-- At most one thread at a time runs the constructor, and only while there is no object yet. -/
theorem one_maker {s : Single} (h : SReach s) {t u : Nat} (ht : s.pc t = .making) (hu : s.pc u = .making) : t = u ∧ s.made = 0 := by
  have hi := sinv_reach h
  have e1 := (hi.owner t).1 (by rw [ht]; rfl)
  have e2 := (hi.owner u).1 (by rw [hu]; rfl)
  rw [e1] at e2
  refine ⟨Option.some.inj e2, ?_⟩
  rcases hi.made with ⟨_, e⟩ | ⟨e, _⟩
  · exact e
  · rw [hi.making t ht] at e
    cases e

/-- No deadlock: a thread that cannot go on waits for the mutex, and the thread that has it can go on. -/
theorem instance_progress {s : Single} (h : SReach s) (t : Nat) (b : Bool) (hb : sstep s t b = none) : s.pc t = .locking ∧ ∃ u, s.owner = some u ∧ u ≠ t ∧ ∀ b, (sstep s u b).isSome = true := by
  have hi := sinv_reach h
  unfold sstep at hb
  cases hp : s.pc t with
  | idle => rw [hp] at hb; cases hb
  | testing => rw [hp] at hb; cases hb
  | making => rw [hp] at hb; simp only at hb; split at hb <;> cases hb
  | returning => rw [hp] at hb; cases hb
  | unlocking r => rw [hp] at hb; cases hb
  | locking =>
    rw [hp] at hb
    refine ⟨rfl, ?_⟩
    cases ho : s.owner with
    | none =>
      simp only [ho] at hb
      cases hb
    | some u =>
      have hin := (hi.owner u).2 ho
      refine ⟨u, rfl, ?_, fun b => ?_⟩
      · intro e
        rw [e, hp] at hin
        cases hin
      · unfold sstep
        cases hpu : s.pc u with
        | idle => rw [hpu] at hin; cases hin
        | locking => rw [hpu] at hin; cases hin
        | testing => rfl
        | making => cases b <;> rfl
        | returning => rfl
        | unlocking r => rfl

/-- After a constructor that throws, the next call tries again: two threads, the first of which fails. -/
example : ∃ s, SReach s ∧ s.returned = [(2, .deref (some 0)), (1, .threw)] ∧ s.made = 1 ∧ s.owner = none := by
  refine ⟨_, .step (t := 2) (b := false) (.step (t := 2) (b := false) (.step (t := 2) (b := false) (.step (t := 2) (b := false) (.step (t := 2) (b := false) (.step (t := 1) (b := false) (.step (t := 1) (b := true) (.step (t := 1) (b := false) (.step (t := 1) (b := false)
    (.step (t := 2) (b := false) (.step (t := 1) (b := false) .init rfl) rfl) rfl) rfl) rfl) rfl) rfl) rfl) rfl) rfl) rfl, rfl, rfl, rfl⟩

/-- Times: for a time that is not negative, the result is the number of whole nanoseconds, split at the second as the system calls want it; negative times give zero. -/
theorem timespec (sec : Rat) : 0 ≤ (toTimespec sec).1 ∧ 0 ≤ (toTimespec sec).2 ∧ (toTimespec sec).2 < 1000000000 ∧
    (0 ≤ sec → (toTimespec sec).1 * 1000000000 + (toTimespec sec).2 = (sec * 1000000000).floor) ∧ (sec < 0 → toTimespec sec = (0, 0)) := by
  unfold toTimespec
  refine ⟨by simp only; omega, by simp only; omega, by simp only; omega, fun h0 => ?_, fun h0 => ?_⟩
  · have h1 : trunc sec = sec.floor := if_pos h0
    have h2 : 0 ≤ sec.floor := Rat.le_floor_iff.2 (by simpa using h0)
    have h3 : max 0 (trunc sec) = sec.floor := by omega
    simp only [h3]
    have hle := Rat.floor_le sec
    have hlt := Rat.lt_floor_add_one sec
    have h4 : trunc ((sec - (sec.floor : Int)) * 1000000000) = ((sec - (sec.floor : Int)) * 1000000000).floor := if_pos (by grind)
    have h5 : ((sec - (sec.floor : Int)) * 1000000000) = sec * 1000000000 + ((-(sec.floor * 1000000000) : Int) : Rat) := by
      push_cast
      grind
    rw [h4, h5, Rat.floor_add_intCast]
    have h6 : sec.floor * 1000000000 ≤ (sec * 1000000000).floor := Rat.le_floor_iff.2 (by push_cast; grind)
    have h7 : (sec * 1000000000).floor < (sec.floor + 1) * 1000000000 := Rat.floor_lt_iff.2 (by push_cast at hlt ⊢; grind)
    omega
  · have h1 : trunc sec = sec.ceil := if_neg (Rat.not_le.2 h0)
    have h2 : sec.ceil ≤ 0 := Rat.ceil_le_iff.2 (by simpa using Rat.le_of_lt h0)
    have h3 : max 0 (trunc sec) = 0 := by omega
    simp only [h3]
    have h4 : trunc ((sec - ((0 : Int) : Rat)) * 1000000000) ≤ 0 := by
      have e : (sec - ((0 : Int) : Rat)) * 1000000000 < 0 := by grind
      unfold trunc
      rw [if_neg (Rat.not_le.2 e)]
      exact Rat.ceil_le_iff.2 (by simpa using Rat.le_of_lt e)
    exact Prod.ext rfl (by simp only; omega)

example : toTimespec (7 / 2) = (3, 500000000) ∧ toTimespec (-1 / 2) = (0, 0) := by decide +kernel

/-- A reachable state with readers, a recursive mutex that is locked twice, and a copy. -/
example : ∃ s, Reach (fun how => ¬ tinyRead how) (fun l => if l = 0 then .rw else .recursive) (fun _ => true) s ∧
    (s.locks 0).holders = [(2, .read), (1, .read)] ∧ (s.locks 1).holders = [(3, .write), (3, .write)] ∧ s.objs.length = 5 ∧ s.locked 10 = some true ∧ s.locked 0 = some false := by
  refine ⟨_, .step (t := 1) (op := .copy 10 0) (.step (t := 3) (op := .make 3 1 .mutex 0) (.step (t := 3) (op := .make 2 1 .mutex 0)
    (.step (t := 2) (op := .make 1 0 (.locker .read none) 0) (.step (t := 1) (op := .make 0 0 (.direct .read (-1)) 0) .init ?_ rfl) ?_ rfl) ?_ rfl) ?_ rfl) ?_ rfl, rfl, rfl, rfl, rfl, rfl⟩
  all_goals intro x l how err e; cases e
  · intro h; exact absurd h.1 (by decide +kernel)
  · exact id
  · exact id
  · exact id

end Verif.Locks.Props
