import Verif.TmpStream.Spec
import Verif.Serial.Props
/-!
# Lemmas about `serialization::stream` (C96)
-/
namespace Verif.TmpStream.Lemmas
open Verif.TmpStream Verif.TmpStream.Spec

theorem mem_of_find {l : List (Nat × Obj)} {x : Nat} {o : Obj} (h : AssocMap.find l x = some o) : (x, o) ∈ l := by
  simp only [AssocMap.find, Option.map_eq_some_iff] at h
  obtain ⟨e, he, rfl⟩ := h
  have h1 := List.mem_of_find?_eq_some he
  have h2 := List.find?_some he
  simp only [decide_eq_true_eq] at h2
  subst h2
  exact h1

theorem mem_upsert {l : List (Nat × Obj)} {x : Nat} {o : Obj} {e : Nat × Obj} :
    e ∈ AssocMap.upsert l x o ↔ e = (x, o) ∨ (e ∈ l ∧ e.1 ≠ x) := by
  simp [AssocMap.upsert, AssocMap.erase]

theorem mem_erase {l : List (Nat × Obj)} {x : Nat} {e : Nat × Obj} : e ∈ AssocMap.erase l x ↔ e ∈ l ∧ e.1 ≠ x := by
  simp [AssocMap.erase]

theorem not_mem_of_none {l : List (Nat × Obj)} {x : Nat} (h : AssocMap.find l x = none) : ∀ e ∈ l, e.1 ≠ x := by
  intro e he hx
  exact AssocMap.find_eq_none_iff.1 h (List.mem_map.2 ⟨e, he, hx⟩)

theorem held_iff {l : List (Nat × Obj)} {h : Nat} : held l h = true ↔ ∃ e ∈ l, e.2.spios = some h := by
  simp [held]

/-- What holds in each reachable state. -/
structure Inv (w : World) : Prop where
  keys : (w.objs.map (·.1)).Nodup
  shape : ∀ e ∈ w.objs, ∀ h, e.2.pios = .own h ↔ e.2.spios = some h
  alive : ∀ e ∈ w.objs, ∀ h, e.2.spios = some h → (w.files h).isSome ∧ h < w.next ∧ e.2.fname ≠ []
  used : ∀ h, (w.files h).isSome → ∃ e ∈ w.objs, e.2.spios = some h
  fresh : ∀ n h, w.dir n = some (.tmp h) → h < w.next

theorem inv_start (names : Name → Bool) (clients : Nat → S) : Inv (start names clients) := by
  refine ⟨List.nodup_nil, by simp [start], by simp [start], by simp [start], ?_⟩
  intro n h hd
  simp only [start] at hd
  split at hd <;> simp at hd

theorem release_objs (w : World) (q : Option Nat) : (release w q).objs = w.objs ∧ (release w q).dir = w.dir ∧
    (release w q).next = w.next ∧ (release w q).clients = w.clients := by
  cases q with
  | none => exact ⟨rfl, rfl, rfl, rfl⟩
  | some h =>
    simp only [release]
    split <;> exact ⟨rfl, rfl, rfl, rfl⟩

theorem release_files (w : World) (q : Option Nat) (h : Nat) :
    (release w q).files h = if q = some h ∧ held w.objs h = false then none else w.files h := by
  cases q with
  | none => simp [release]
  | some k =>
    simp only [release, Option.some.injEq]
    by_cases hk : held w.objs k = true
    · rw [if_pos hk]
      split
      · rename_i hc
        obtain ⟨rfl, h2⟩ := hc
        rw [hk] at h2
        cases h2
      · rfl
    · rw [if_neg hk]
      simp only [upd]
      by_cases he : h = k
      · subst he
        simp [hk]
      · rw [if_neg he, if_neg (fun hc => he hc.1.symm)]

theorem unlink_objs (w : World) (n : Name) : (unlink w n).objs = w.objs ∧ (unlink w n).files = w.files ∧
    (unlink w n).next = w.next ∧ (unlink w n).clients = w.clients := by
  simp only [unlink]
  split <;> exact ⟨rfl, rfl, rfl, rfl⟩

theorem unlink_dir (w : World) (n m : Name) : (unlink w n).dir m = if m = n ∧ n ≠ [] then none else w.dir m := by
  simp only [unlink]
  by_cases h : n = []
  · simp [h]
  · rw [if_neg h]
    simp only [upd, ne_eq, h, not_false_eq_true, and_true]

/-- Objects after a `shared_ptr` went away. -/
theorem inv_release {w : World} {objs : List (Nat × Obj)} {a : Obj} (hi : Inv w) (hk : (objs.map (·.1)).Nodup)
    (hs : ∀ e ∈ objs, ∃ e' ∈ w.objs, e.2 = e'.2) (hu : ∀ e ∈ w.objs, e.2.spios = a.spios ∨ e ∈ objs) :
    Inv (release { w with objs := objs } a.spios) := by
  obtain ⟨h1, h2, h3, -⟩ := release_objs { w with objs := objs } a.spios
  refine ⟨by rw [h1]; exact hk, ?_, ?_, ?_, ?_⟩
  · rw [h1]
    intro e he
    obtain ⟨e', he', heq⟩ := hs e he
    rw [heq]
    exact hi.shape e' he'
  · rw [h1, h3]
    intro e he h hh
    obtain ⟨e', he', heq⟩ := hs e he
    have := hi.alive e' he' h (by rw [← heq]; exact hh)
    refine ⟨?_, this.2.1, by rw [heq]; exact this.2.2⟩
    rw [release_files, if_neg]
    · exact this.1
    · rintro ⟨-, hf⟩
      have : held objs h = true := held_iff.2 ⟨e, he, hh⟩
      rw [this] at hf
      cases hf
  · rw [h1]
    intro h hh
    rw [release_files] at hh
    split at hh
    · simp at hh
    · rename_i hc
      obtain ⟨e, he, heq⟩ := hi.used h hh
      rcases hu e he with h' | h'
      · have : held objs h = true := by
          cases hb : held objs h with
          | true => rfl
          | false => exact (hc ⟨by rw [← h', heq], hb⟩).elim
        exact held_iff.1 this
      · exact ⟨e, h', heq⟩
  · rw [h2, h3]
    exact hi.fresh

theorem inv_step {w w' : World} {op : Op} (hi : Inv w) (h : step w op = .ok w') : Inv w' := by
  cases op with
  | create x r =>
    simp only [step] at h
    split at h
    · cases h
    rename_i hx
    have hx : AssocMap.find w.objs x = none := by simpa using hx
    cases r with
    | ok n =>
      simp only at h
      split at h
      · cases h
      rename_i hn
      injection h with h
      subst h
      rw [not_or] at hn
      refine ⟨AssocMap.nodup_upsert hi.keys _ _, ?_, ?_, ?_, ?_⟩
      · intro e he
        rcases mem_upsert.1 he with rfl | ⟨he, -⟩
        · intro h; simp
        · exact hi.shape e he
      · intro e he h hh
        rcases mem_upsert.1 he with rfl | ⟨he, -⟩
        · simp only [Option.some.injEq] at hh
          subst hh
          exact ⟨by simp [upd], Nat.lt_succ_self _, hn.2⟩
        · obtain ⟨h1, h2, h3⟩ := hi.alive e he h hh
          refine ⟨?_, by simp only; omega, h3⟩
          simp only [upd]
          rw [if_neg (by omega)]
          exact h1
      · intro h hh
        simp only [upd] at hh
        split at hh
        · rename_i hn; subst hn
          exact ⟨_, mem_upsert.2 (.inl rfl), rfl⟩
        · obtain ⟨e, he, heq⟩ := hi.used h hh
          exact ⟨e, mem_upsert.2 (.inr ⟨he, not_mem_of_none hx e he⟩), heq⟩
      · intro m h hd
        simp only [upd] at hd
        split at hd
        · simp only [Option.some.injEq, File.tmp.injEq] at hd
          subst hd; exact Nat.lt_succ_self _
        · have := hi.fresh m h hd
          simp only; omega
    | failed n =>
      simp only at h
      injection h with h
      subst h
      refine ⟨AssocMap.nodup_upsert hi.keys _ _, ?_, ?_, ?_, hi.fresh⟩
      · intro e he
        rcases mem_upsert.1 he with rfl | ⟨he, -⟩
        · intro h; simp
        · exact hi.shape e he
      · intro e he h hh
        rcases mem_upsert.1 he with rfl | ⟨he, -⟩
        · cases hh
        · exact hi.alive e he h hh
      · intro h hh
        obtain ⟨e, he, heq⟩ := hi.used h hh
        exact ⟨e, mem_upsert.2 (.inr ⟨he, not_mem_of_none hx e he⟩), heq⟩
  | wrap x u =>
    simp only [step] at h
    split at h
    · cases h
    rename_i hx
    have hx : AssocMap.find w.objs x = none := by simpa using hx
    injection h with h
    subst h
    refine ⟨AssocMap.nodup_upsert hi.keys _ _, ?_, ?_, ?_, hi.fresh⟩
    · intro e he
      rcases mem_upsert.1 he with rfl | ⟨he, -⟩
      · intro h; simp
      · exact hi.shape e he
    · intro e he h hh
      rcases mem_upsert.1 he with rfl | ⟨he, -⟩
      · cases hh
      · exact hi.alive e he h hh
    · intro h hh
      obtain ⟨e, he, heq⟩ := hi.used h hh
      exact ⟨e, mem_upsert.2 (.inr ⟨he, not_mem_of_none hx e he⟩), heq⟩
  | copy x y =>
    simp only [step] at h
    split at h
    · rename_i o hx hy
      injection h with h
      subst h
      refine ⟨AssocMap.nodup_upsert hi.keys _ _, ?_, ?_, ?_, hi.fresh⟩
      · intro e he
        rcases mem_upsert.1 he with rfl | ⟨he, -⟩
        · exact hi.shape (y, o) (mem_of_find hy)
        · exact hi.shape e he
      · intro e he h hh
        rcases mem_upsert.1 he with rfl | ⟨he, -⟩
        · exact hi.alive (y, o) (mem_of_find hy) h hh
        · exact hi.alive e he h hh
      · intro h hh
        obtain ⟨e, he, heq⟩ := hi.used h hh
        exact ⟨e, mem_upsert.2 (.inr ⟨he, not_mem_of_none hx e he⟩), heq⟩
    · cases h
  | assign x y =>
    simp only [step] at h
    split at h
    · rename_i a o hx hy
      injection h with h
      subst h
      refine inv_release hi (AssocMap.nodup_upsert hi.keys _ _) ?_ ?_
      · intro e he
        rcases mem_upsert.1 he with rfl | ⟨he, -⟩
        · exact ⟨_, mem_of_find hy, rfl⟩
        · exact ⟨e, he, rfl⟩
      · intro e he
        by_cases hex : e.1 = x
        · have : AssocMap.find w.objs e.1 = some e.2 := (AssocMap.find_eq_some_iff hi.keys).2 he
          rw [hex, hx] at this
          exact .inl (by rw [Option.some.inj this])
        · exact .inr (mem_upsert.2 (.inr ⟨he, hex⟩))
    · cases h
  | destroy x =>
    simp only [step] at h
    split at h
    · rename_i o hx
      injection h with h
      have hr : Inv (release { w with objs := AssocMap.erase w.objs x } o.spios) := by
        refine inv_release hi (AssocMap.nodup_erase hi.keys _) ?_ ?_
        · intro e he
          exact ⟨e, (mem_erase.1 he).1, rfl⟩
        · intro e he
          by_cases hex : e.1 = x
          · have : AssocMap.find w.objs e.1 = some e.2 := (AssocMap.find_eq_some_iff hi.keys).2 he
            rw [hex, hx] at this
            exact .inl (by rw [Option.some.inj this])
          · exact .inr (mem_erase.2 ⟨he, hex⟩)
      generalize release { w with objs := AssocMap.erase w.objs x } o.spios = v at h hr
      subst h
      obtain ⟨h1, h2, h3, -⟩ := unlink_objs v o.fname
      refine ⟨by rw [h1]; exact hr.keys, by rw [h1]; exact hr.shape, by rw [h1, h2, h3]; exact hr.alive,
        by rw [h1, h2]; exact hr.used, ?_⟩
      intro n h hd
      rw [unlink_dir] at hd
      split at hd
      · cases hd
      · rw [h3]; exact hr.fresh n h hd
    · cases h
  | foreign n =>
    simp only [step] at h
    split at h
    · cases h
    injection h with h
    subst h
    refine ⟨hi.keys, hi.shape, hi.alive, hi.used, ?_⟩
    intro m h hd
    simp only [upd] at hd
    split at hd
    · simp at hd
    · exact hi.fresh m h hd
  | use x f =>
    simp only [step] at h
    split at h
    · cases h
    · rename_i o hx
      split at h
      · cases h
      · injection h with h
        subst h
        exact ⟨hi.keys, hi.shape, hi.alive, hi.used, hi.fresh⟩
      · split at h
        · cases h
        · rename_i k _ _ s hs
          injection h with h
          subst h
          have key : ∀ h, ((upd w.files k (some (f s))) h).isSome = (w.files h).isSome := by
            intro h
            simp only [upd]
            split
            · rename_i e; subst e; simp [hs]
            · rfl
          refine ⟨hi.keys, hi.shape, ?_, ?_, hi.fresh⟩
          · intro e he h hh
            simp only [key]
            exact hi.alive e he h hh
          · intro h hh
            simp only [key] at hh
            exact hi.used h hh

theorem run_append (w : World) (a b : List Op) : run w (a ++ b) = match run w a with
    | .error e => .error e
    | .ok w => run w b := by
  induction a generalizing w with
  | nil => rfl
  | cons op a ih =>
    simp only [List.cons_append, run]
    cases step w op with
    | error e => rfl
    | ok w => exact ih w

/-- Properties that steps keep hold after histories. -/
theorem run_keeps {P : World → Prop} {Q : Op → Prop} (hs : ∀ w op w', P w → Q op → step w op = .ok w' → P w') :
    ∀ (ops : List Op) (w w' : World), P w → (∀ op ∈ ops, Q op) → run w ops = .ok w' → P w'
  | [], w, w', hp, _, h => by
    simp only [run, Except.ok.injEq] at h
    exact h ▸ hp
  | op :: ops, w, w', hp, hq, h => by
    simp only [run] at h
    split at h
    · cases h
    · rename_i v hv
      exact run_keeps hs ops v w' (hs w op v hp (hq op (List.mem_cons_self ..)) hv) (fun o ho => hq o (List.mem_cons_of_mem _ ho)) h

theorem inv_run {ops : List Op} {w w' : World} (hi : Inv w) (h : run w ops = .ok w') : Inv w' :=
  run_keeps (P := Inv) (Q := fun _ => True) (fun _ _ _ hi _ h => inv_step hi h) ops w w' hi (fun _ _ => trivial) h

/-! ### Names -/

/-- Without assignments each name of a temporary file is that of an object. -/
def Named (w : World) : Prop := ∀ n h, w.dir n = some (.tmp h) → ∃ e ∈ w.objs, e.2.fname = n ∧ e.2.spios = some h

theorem named_start (names : Name → Bool) (clients : Nat → S) : Named (start names clients) := by
  intro n h hd
  simp only [start] at hd
  split at hd <;> simp at hd

theorem named_step {w w' : World} {op : Op} (hi : Inv w) (hn : Named w) (hq : NoAssign op) (h : step w op = .ok w') : Named w' := by
  cases op with
  | create x r =>
    simp only [step] at h
    split at h
    · cases h
    rename_i hx
    have hx : AssocMap.find w.objs x = none := by simpa using hx
    cases r with
    | ok n =>
      simp only at h
      split at h
      · cases h
      injection h with h
      subst h
      intro m h hd
      simp only [upd] at hd
      split at hd
      · rename_i hm
        simp only [Option.some.injEq, File.tmp.injEq] at hd
        subst hd
        exact ⟨_, mem_upsert.2 (.inl rfl), hm.symm, rfl⟩
      · obtain ⟨e, he, heq⟩ := hn m h hd
        exact ⟨e, mem_upsert.2 (.inr ⟨he, not_mem_of_none hx e he⟩), heq⟩
    | failed n =>
      simp only at h
      injection h with h
      subst h
      intro m h hd
      obtain ⟨e, he, heq⟩ := hn m h hd
      exact ⟨e, mem_upsert.2 (.inr ⟨he, not_mem_of_none hx e he⟩), heq⟩
  | wrap x u =>
    simp only [step] at h
    split at h
    · cases h
    rename_i hx
    have hx : AssocMap.find w.objs x = none := by simpa using hx
    injection h with h
    subst h
    intro m h hd
    obtain ⟨e, he, heq⟩ := hn m h hd
    exact ⟨e, mem_upsert.2 (.inr ⟨he, not_mem_of_none hx e he⟩), heq⟩
  | copy x y =>
    simp only [step] at h
    split at h
    · rename_i o hx hy
      injection h with h
      subst h
      intro m h hd
      obtain ⟨e, he, heq⟩ := hn m h hd
      exact ⟨e, mem_upsert.2 (.inr ⟨he, not_mem_of_none hx e he⟩), heq⟩
    · cases h
  | assign x y => exact hq.elim
  | destroy x =>
    simp only [step] at h
    split at h
    · rename_i o hx
      injection h with h
      subst h
      intro m h hd
      rw [unlink_dir, (release_objs _ _).2.1] at hd
      rw [(unlink_objs _ _).1, (release_objs _ _).1]
      split at hd
      · cases hd
      · rename_i hc
        obtain ⟨e, he, h1, h2⟩ := hn m h hd
        refine ⟨e, mem_erase.2 ⟨he, fun hex => ?_⟩, h1, h2⟩
        have : AssocMap.find w.objs e.1 = some e.2 := (AssocMap.find_eq_some_iff hi.keys).2 he
        rw [hex, hx] at this
        have := Option.some.inj this
        subst this
        exact hc ⟨h1.symm, (hi.alive e he h h2).2.2⟩
    · cases h
  | foreign n =>
    simp only [step] at h
    split at h
    · cases h
    injection h with h
    subst h
    intro m h hd
    simp only [upd] at hd
    split at hd
    · simp at hd
    · exact hn m h hd
  | use x f =>
    simp only [step] at h
    split at h
    · cases h
    · split at h
      · cases h
      · injection h with h
        subst h
        exact hn
      · split at h
        · cases h
        · injection h with h
          subst h
          exact hn

/-- Without copies, assignments and failures each object has its own file under its name. -/
structure Own (w : World) : Prop where
  name : ∀ e ∈ w.objs, ∀ h, e.2.spios = some h → w.dir e.2.fname = some (.tmp h)
  one : ∀ e ∈ w.objs, ∀ e' ∈ w.objs, ∀ h, e.2.spios = some h → e'.2.spios = some h → e = e'
  none : ∀ e ∈ w.objs, e.2.spios = none → e.2.fname = []

theorem own_start (names : Name → Bool) (clients : Nat → S) : Own (start names clients) :=
  ⟨by simp [start], by simp [start], by simp [start]⟩

theorem own_step {w w' : World} {op : Op} (hi : Inv w) (ho : Own w) (hq : Plain op) (h : step w op = .ok w') : Own w' := by
  cases op with
  | create x r =>
    cases r with
    | failed n => exact hq.elim
    | ok n =>
      simp only [step] at h
      split at h
      · cases h
      split at h
      · cases h
      rename_i hn
      rw [not_or] at hn
      injection h with h
      subst h
      refine ⟨?_, ?_, ?_⟩
      · intro e he h hh
        simp only [upd]
        rcases mem_upsert.1 he with rfl | ⟨he, -⟩
        · simp only [Option.some.injEq] at hh
          subst hh
          simp
        · rw [if_neg]
          · exact ho.name e he h hh
          · intro e1
            have := ho.name e he h hh
            rw [e1] at this
            exact hn.1 (by rw [this]; rfl)
      · intro e he e' he' h hh hh'
        rcases mem_upsert.1 he with rfl | ⟨he, -⟩
        · rcases mem_upsert.1 he' with rfl | ⟨he', -⟩
          · rfl
          · simp only [Option.some.injEq] at hh
            have := (hi.alive e' he' h hh').2.1
            omega
        · rcases mem_upsert.1 he' with rfl | ⟨he', -⟩
          · simp only [Option.some.injEq] at hh'
            have := (hi.alive e he h hh).2.1
            omega
          · exact ho.one e he e' he' h hh hh'
      · intro e he hh
        rcases mem_upsert.1 he with rfl | ⟨he, -⟩
        · cases hh
        · exact ho.none e he hh
  | wrap x u =>
    simp only [step] at h
    split at h
    · cases h
    injection h with h
    subst h
    refine ⟨?_, ?_, ?_⟩
    · intro e he h hh
      rcases mem_upsert.1 he with rfl | ⟨he, -⟩
      · cases hh
      · exact ho.name e he h hh
    · intro e he e' he' h hh hh'
      rcases mem_upsert.1 he with rfl | ⟨he, -⟩
      · cases hh
      · rcases mem_upsert.1 he' with rfl | ⟨he', -⟩
        · cases hh'
        · exact ho.one e he e' he' h hh hh'
    · intro e he hh
      rcases mem_upsert.1 he with rfl | ⟨he, -⟩
      · rfl
      · exact ho.none e he hh
  | copy x y => exact hq.elim
  | assign x y => exact hq.elim
  | destroy x =>
    simp only [step] at h
    split at h
    · rename_i o hx
      injection h with h
      subst h
      have hm := mem_of_find hx
      refine ⟨?_, ?_, ?_⟩
      · rw [(unlink_objs _ _).1, (release_objs _ _).1]
        intro e he h hh
        obtain ⟨he, hex⟩ := mem_erase.1 he
        rw [unlink_dir, (release_objs _ _).2.1, if_neg]
        · exact ho.name e he h hh
        · rintro ⟨h1, h2⟩
          cases hs : o.spios with
          | none => exact h2 (ho.none _ hm hs)
          | some k =>
            have a := ho.name _ hm k hs
            have b := ho.name e he h hh
            rw [h1, a] at b
            simp only [Option.some.injEq, File.tmp.injEq] at b
            subst b
            have := ho.one e he _ hm k hh hs
            exact hex (by rw [this])
      · rw [(unlink_objs _ _).1, (release_objs _ _).1]
        intro e he e' he' h hh hh'
        exact ho.one e (mem_erase.1 he).1 e' (mem_erase.1 he').1 h hh hh'
      · rw [(unlink_objs _ _).1, (release_objs _ _).1]
        intro e he hh
        exact ho.none e (mem_erase.1 he).1 hh
    · cases h
  | foreign n =>
    simp only [step] at h
    split at h
    · cases h
    rename_i hn
    injection h with h
    subst h
    refine ⟨?_, ho.one, ho.none⟩
    intro e he h hh
    have := ho.name e he h hh
    simp only [upd]
    rw [if_neg]
    · exact this
    · intro e1
      rw [e1] at this
      exact hn (by rw [this]; rfl)
  | use x f =>
    simp only [step] at h
    split at h
    · cases h
    · split at h
      · cases h
      · injection h with h
        subst h
        exact ⟨ho.name, ho.one, ho.none⟩
      · split at h
        · cases h
        · injection h with h
          subst h
          exact ⟨ho.name, ho.one, ho.none⟩

/-- Files of others stay. -/
theorem other_step {w w' : World} {op : Op} {n : Name} (ho : Own w) (hq : Plain op) (h : step w op = .ok w')
    (hn : w.dir n = some .other) : w'.dir n = some .other := by
  cases op with
  | create x r =>
    cases r with
    | failed n => exact hq.elim
    | ok m =>
      simp only [step] at h
      split at h
      · cases h
      split at h
      · cases h
      rename_i hm
      rw [not_or] at hm
      injection h with h
      subst h
      simp only [upd]
      rw [if_neg]
      · exact hn
      · intro e; subst e; exact hm.1 (by rw [hn]; rfl)
  | wrap x u =>
    simp only [step] at h
    split at h
    · cases h
    injection h with h
    subst h
    exact hn
  | copy x y => exact hq.elim
  | assign x y => exact hq.elim
  | destroy x =>
    simp only [step] at h
    split at h
    · rename_i o hx
      injection h with h
      subst h
      have hm := mem_of_find hx
      rw [unlink_dir, (release_objs _ _).2.1, if_neg]
      · exact hn
      · rintro ⟨rfl, h2⟩
        cases hs : o.spios with
        | none => exact h2 (ho.none _ hm hs)
        | some k =>
          have a := ho.name _ hm k hs
          simp only at a
          rw [hn] at a
          simp at a
    · cases h
  | foreign m =>
    simp only [step] at h
    split at h
    · cases h
    injection h with h
    subst h
    simp only [upd]
    split
    · rfl
    · exact hn
  | use x f =>
    simp only [step] at h
    split at h
    · cases h
    · split at h
      · cases h
      · injection h with h
        subst h
        exact hn
      · split at h
        · cases h
        · injection h with h
          subst h
          exact hn

theorem plain_noAssign {op : Op} (h : Plain op) : NoAssign op := by
  cases op with
  | assign x y => exact h
  | _ => trivial

theorem named_run {names : Name → Bool} {clients : Nat → S} {ops : List Op} {w : World} (hq : ∀ op ∈ ops, NoAssign op)
    (h : run (start names clients) ops = .ok w) : Named w :=
  (run_keeps (P := fun w => Inv w ∧ Named w) (fun _ _ _ hp hq h => ⟨inv_step hp.1 h, named_step hp.1 hp.2 hq h⟩) ops _ w
    ⟨inv_start _ _, named_start _ _⟩ hq h).2

theorem own_run {names : Name → Bool} {clients : Nat → S} {ops : List Op} {w : World} (hq : ∀ op ∈ ops, Plain op)
    (h : run (start names clients) ops = .ok w) : Inv w ∧ Own w :=
  run_keeps (P := fun w => Inv w ∧ Own w) (fun _ _ _ hp hq h => ⟨inv_step hp.1 h, own_step hp.1 hp.2 hq h⟩) ops _ w
    ⟨inv_start _ _, own_start _ _⟩ hq h

end Verif.TmpStream.Lemmas
