import Verif.JsonDoc.Effects
/-! C86: what programs see of JSON documents that share values. -/

namespace Verif.JsonDoc.Props
open Verif.Json (Str Value)
open Verif.JsonDoc Verif.JsonDoc.Spec Verif.JsonDoc.Lemmas

variable {F : Type}

/-! ### programs -/

/-- C86: whatever a program does, memory stays as it should. -/
theorem sound_kept (d : Nat) (ops : List (Op F)) : ∀ (s s' : St F), Sound s → run d s ops = some s' → Sound s' := by
  induction ops with
  | nil => intro s s' hs h; cases h; exact hs
  | cons o os ih =>
    intro s s' hs h
    have h1 := exec_sound d hs o
    simp only [run] at h
    revert h h1
    rcases exec d s o with ⟨t, r | v⟩
    · cases r <;> intro h h1 <;> first | exact ih _ _ h1 h | cases h
    · intro h h1; exact ih _ _ h1 h

/-- A program starts with no values and no variables. -/
theorem start_sound : Sound (⟨[], []⟩ : St F) :=
  ⟨fun a b e => absurd (Edge.lt e) (by simp), by simp, by simp⟩

/-- Memory after `json x(new json_object); json y(new json_integer(7)); x.add("a", y); json z = x;`. -/
def demo : St Unit := ⟨[.obj [([97], 1)], .int 7], [0, 1, 0]⟩

example : run 9 ⟨[], []⟩ [.make .emptyObj, .make (.int 7), .addAs ⟨0, false, []⟩ [97] 1, .copy ⟨0, true, []⟩] = some demo := by rfl

theorem demo_sound : Sound demo :=
  sound_kept 9 [.make .emptyObj, .make (.int 7), .addAs ⟨0, false, []⟩ [97] 1, .copy ⟨0, true, []⟩] _ _ start_sound rfl

/-- C86: a statement that compiles, about variables that exist, is never stuck: the model covers all that can happen. -/
theorem never_stuck (d : Nat) (s : St F) (o : Op F) (hs : Sound s) (hv : ∀ x ∈ mentions o, x < s.vars.length) (hc : compiles o) :
    (exec d s o).2 ≠ .error .stuck := by
  have hvar : ∀ y, y < s.vars.length → ∃ b, var s y = .ok b := by
    intro y hy
    exact ⟨s.vars[y], by simp [var, List.getElem?_eq_getElem hy]⟩
  -- after the expression
  have key : ∀ (e : Lv), e.root < s.vars.length → (∃ r, eval s e = ((eval s e).1, .error r) ∧ r ≠ .stuck) ∨
      ∃ p a, eval s e = ((eval s e).1, .ok (p, a)) ∧ a < (eval s e).1.heap.length ∧ load (eval s e).1 p = some a := by
    intro e he
    have h1 := eval_not_stuck hs he
    rcases h2 : eval s e with ⟨t, r | ⟨p, a⟩⟩
    · rw [h2] at h1; exact .inl ⟨r, rfl, fun e => h1 (by rw [e])⟩
    · exact .inr ⟨p, a, rfl, eval_lt hs h2, (eval_ok h2).2⟩
  cases o with
  | make l => simp [exec]
  | copy e =>
    rcases key e (hv _ (by simp [mentions])) with ⟨r, h1, h2⟩ | ⟨p, a, h1, h2, h3⟩
    · simp only [exec]; rw [h1]; simpa using h2
    · simp only [exec]; rw [h1]; simp
  | assign e y =>
    obtain ⟨b, hb⟩ := hvar y (hv _ (by simp [mentions]))
    rcases key e (hv _ (by simp [mentions])) with ⟨r, h1, h2⟩ | ⟨p, a, h1, h2, h3⟩
    · simp only [exec, hb]; rw [h1]; simpa using h2
    · simp only [exec, hb]; rw [h1]
      have hc' : e.con = false := hc
      rw [hc']
      cases p with
      | var x => simp [store]
      | elem c i =>
        simp only [load] at h3
        simp only [store]
        split at h3
        · simp
        · cases h3
      | member c k =>
        simp only [load] at h3
        simp only [store]
        split at h3
        · simp
        · cases h3
  | add e y =>
    obtain ⟨b, hb⟩ := hvar y (hv _ (by simp [mentions]))
    rcases key e (hv _ (by simp [mentions])) with ⟨r, h1, h2⟩ | ⟨p, a, h1, h2, h3⟩
    · simp only [exec, hb]; rw [h1]; simpa using h2
    · simp only [exec, hb]; rw [h1]
      have hc' : e.con = false := hc
      simp only [hc', addElem]
      rw [List.getElem?_eq_getElem h2]
      cases (eval s e).1.heap[a] <;> simp [acted, answer]
  | addAs e k y =>
    obtain ⟨b, hb⟩ := hvar y (hv _ (by simp [mentions]))
    rcases key e (hv _ (by simp [mentions])) with ⟨r, h1, h2⟩ | ⟨p, a, h1, h2, h3⟩
    · simp only [exec, hb]; rw [h1]; simpa using h2
    · simp only [exec, hb]; rw [h1]
      have hc' : e.con = false := hc
      simp only [hc', addMember]
      rw [List.getElem?_eq_getElem h2]
      cases (eval s e).1.heap[a] <;> simp [acted, answer]
  | clone e =>
    rcases key e (hv _ (by simp [mentions])) with ⟨r, h1, h2⟩ | ⟨p, a, h1, h2, h3⟩
    · simp only [exec]; rw [h1]; simpa using h2
    · simp only [exec]; rw [h1]
      dsimp only
      have hs' := eval_sound hs e
      have h4 := clone_spec d (eval s e).1.heap a hs'.edges h2 hs'.names
      have h5 := read_not_stuck hs'.edges d a h2
      cases h6 : read (eval s e).1.heap d a with
      | ok v =>
        obtain ⟨h', b, h7, _⟩ := h4.1 v h6
        rw [h7]; simp
      | error r => rw [h4.2 r h6]; rw [h6] at h5; simpa using h5
  | merge y z =>
    obtain ⟨a, ha⟩ := hvar y (hv _ (by simp [mentions]))
    obtain ⟨b, hb⟩ := hvar z (hv _ (by simp [mentions]))
    have la := var_lt hs (var_ok ha)
    have lb := var_lt hs (var_ok hb)
    simp only [exec, ha, hb, merge]
    rw [List.getElem?_eq_getElem la, List.getElem?_eq_getElem lb]
    cases s.heap[a] <;> cases s.heap[b] <;> simp
  | size e =>
    rcases key e (hv _ (by simp [mentions])) with ⟨r, h1, h2⟩ | ⟨p, a, h1, h2, h3⟩
    · simp only [exec]; rw [h1]; simpa using h2
    · simp only [exec]; rw [h1]
      simp only [size]
      rw [List.getElem?_eq_getElem h2]
      cases (eval s e).1.heap[a] <;> simp [answer]
  | count e k =>
    rcases key e (hv _ (by simp [mentions])) with ⟨r, h1, h2⟩ | ⟨p, a, h1, h2, h3⟩
    · simp only [exec]; rw [h1]; simpa using h2
    · simp only [exec]; rw [h1]
      simp only [count]
      rw [List.getElem?_eq_getElem h2]
      cases (eval s e).1.heap[a] <;> simp [answer]
  | type e =>
    rcases key e (hv _ (by simp [mentions])) with ⟨r, h1, h2⟩ | ⟨p, a, h1, h2, h3⟩
    · simp only [exec]; rw [h1]; simpa using h2
    · simp only [exec]; rw [h1]
      simp only [type]
      rw [List.getElem?_eq_getElem h2]
      cases (eval s e).1.heap[a] <;> simp [answer]
  | print e =>
    rcases key e (hv _ (by simp [mentions])) with ⟨r, h1, h2⟩ | ⟨p, a, h1, h2, h3⟩
    · simp only [exec]; rw [h1]; simpa using h2
    · simp only [exec]; rw [h1]
      dsimp only
      have h5 := read_not_stuck (eval_sound hs e).edges d a h2
      revert h5
      cases read (eval s e).1.heap d a with
      | ok v => simp [answer]
      | error r => simp [answer]

example : (∀ x ∈ mentions (.print ⟨2, true, [.name [97]]⟩ : Op Unit), x < demo.vars.length) ∧
    compiles (.print ⟨2, true, [.name [97]]⟩ : Op Unit) ∧ exec 9 demo (.print ⟨2, true, [.name [97]]⟩) = (demo, .ok (.shown (.int 7))) :=
  ⟨by decide, trivial, by simp [exec, eval, walk, sub, subName, get, load, read, answer, demo]⟩

/-! ### looking -/

/-- C86: reading through a `const` handle changes nothing, whatever it asks and however it ends. -/
theorem const_reads (d : Nat) (s : St F) (e : Lv) (h : e.con = true) (k : Str) : (exec d s (.print e)).1 = s ∧
    (exec d s (.size e)).1 = s ∧ (exec d s (.count e k)).1 = s ∧ (exec d s (.type e)).1 = s := by
  have h1 := eval_const (s := s) h
  simp only [exec]
  rcases h2 : eval s e with ⟨t, r | ⟨p, a⟩⟩
  · rw [h2] at h1; exact ⟨h1, h1, h1, h1⟩
  · rw [h2] at h1; dsimp only at h1 ⊢; subst h1
    refine ⟨?_, ?_, ?_, ?_⟩
    · cases JsonDoc.read t.heap d a <;> rfl
    · cases JsonDoc.size t.heap a <;> rfl
    · cases JsonDoc.count t.heap a k <;> rfl
    · cases JsonDoc.type t.heap a <;> rfl

example : exec 9 demo (.print ⟨0, true, [.name [98]]⟩) = (demo, .error .outOfRange) := by rfl

/-- C86: a `const` lookup succeeds exactly if the members and elements are there, and then gives the part itself, not a copy. -/
theorem const_lookup (d : Nat) (s : St F) (e : Lv) (a b : Nat) (hs : Sound s) (hc : e.con = true) (hx : s.vars[e.root]? = some a) :
    exec d s (.copy e) = (⟨s.heap, s.vars ++ [b]⟩, .ok .done) ↔ Leads s.heap a e.steps b := by
  constructor
  · intro h
    simp only [exec] at h
    have h1 := eval_const (s := s) hc
    rcases h2 : eval s e with ⟨t, r | ⟨p, c⟩⟩
    · rw [h2] at h; cases h
    · rw [h2] at h h1
      dsimp only at h h1
      subst h1
      simp only [Prod.mk.injEq, St.mk.injEq, List.append_cancel_left_eq, List.cons.injEq, and_true, true_and] at h
      subst h
      have h3 := eval_ok h2
      rw [hc] at h3
      exact leads_walk e.steps (p := .var e.root) hx h3.1 h3.2
  · intro h
    obtain ⟨p, h1⟩ := eval_leads hs (e := e) hx h
    simp only [exec]; rw [h1]

example : Leads demo.heap 0 [.name [97]] 1 ∧ demo.vars[2]? = some 0 := ⟨.name rfl (by simp) (.here 1), rfl⟩

/-- C86: a lookup through any handle gives the part that is there, and then changes nothing. -/
theorem lookup_there (d : Nat) (s : St F) (e : Lv) (a b : Nat) (hs : Sound s) (hx : s.vars[e.root]? = some a) (hl : Leads s.heap a e.steps b) :
    exec d s (.copy e) = (⟨s.heap, s.vars ++ [b]⟩, .ok .done) := by
  obtain ⟨p, h1⟩ := eval_leads hs (e := e) hx hl
  simp only [exec]; rw [h1]

/-- C86: the ways a lookup fails: a name in what is no object and a number in what is no array throw `json_bad_cast`; a name that a
`const` object has not throws `out_of_range`; a number beyond the end of an array is undefined behaviour. Nothing has changed. -/
theorem lookup_fails (d : Nat) (s : St F) (x a : Nat) (con : Bool) (n : Node F) (hx : s.vars[x]? = some a) (hn : s.heap[a]? = some n) :
    (∀ k, (∀ ms, n ≠ .obj ms) → exec d s (.copy ⟨x, con, [.name k]⟩) = (s, .error .badCast)) ∧
    (∀ i, (∀ es, n ≠ .arr es) → exec d s (.copy ⟨x, con, [.idx i]⟩) = (s, .error .badCast)) ∧
    (∀ k ms, n = .obj ms → (∀ b, (k, b) ∉ ms) → con = true → exec d s (.copy ⟨x, con, [.name k]⟩) = (s, .error .outOfRange)) ∧
    (∀ i es, n = .arr es → es.length ≤ i → exec d s (.copy ⟨x, con, [.idx i]⟩) = (s, .error .undef)) := by
  refine ⟨fun k h => ?_, fun i h => ?_, ?_, ?_⟩
  · cases n with
    | obj ms => exact absurd rfl (h ms)
    | _ => simp [exec, eval, walk, sub, subName, load, hx, hn]
  · cases n with
    | arr es => exact absurd rfl (h es)
    | _ => simp [exec, eval, walk, sub, subIdx, load, hx, hn]
  · rintro k ms rfl h rfl
    have hg : get ms k = none := by
      cases e : get ms k with
      | none => rfl
      | some b => exact absurd (get_some e) (h b)
    simp [exec, eval, walk, sub, subName, load, hx, hn, hg]
  · rintro i es rfl h
    simp [exec, eval, walk, sub, subIdx, load, hx, hn, Nat.not_lt.mpr h]

example : demo.vars[1]? = some 1 ∧ demo.heap[1]? = some (.int 7) ∧ ∀ ms, (.int 7 : Node Unit) ≠ .obj ms := ⟨rfl, rfl, by simp⟩

/-- C86: a lookup by name through a handle that is not `const` makes a missing member: the object has it from then on, as null,
although the program has only read. The other members stay. -/
theorem lookup_creates (d : Nat) (s : St F) (x a : Nat) (k : Str) (vs : List (Str × Value F)) (hs : Sound s) (hx : s.vars[x]? = some a)
    (hv : Has s x (.obj vs)) (hk : k ∉ vs.map (·.1)) :
    ∃ s', exec d s (.print ⟨x, false, [.name k]⟩) = (s', if d = 0 then .error .overflow else .ok (.shown .null)) ∧
      Has s' x (.obj (vs ++ [(k, .null)])) := by
  obtain ⟨a', hx', hv⟩ := hv
  rw [hx] at hx'; cases hx'
  obtain ⟨ms, h1, hm⟩ := obj_members hv
  have hkeys : ms.map (·.1) = vs.map (·.1) := by
    clear h1 hv hk
    induction hm with
    | nil => rfl
    | cons h _ ih => simp [h.1, ih]
  have hg : get ms k = none := by
    cases e : get ms k with
    | none => rfl
    | some b => exact absurd (List.mem_map_of_mem (f := (·.1)) (get_some e)) (by rw [hkeys]; exact hk)
  have ha := (List.getElem?_eq_some_iff.mp h1).1
  have hset : s.heap.set a (.obj (put ms k s.heap.length)) ++ [Node.null] = (s.heap ++ [Node.null]).set a (.obj (put ms k s.heap.length)) := by
    rw [List.set_append_left _ _ ha]
  let h' := s.heap.set a (.obj (put ms k s.heap.length)) ++ [Node.null]
  have hnull : h'[s.heap.length]? = some .null := by simp [h']
  have hobj : h'[a]? = some (.obj (put ms k s.heap.length)) := by
    simp only [h']; rw [hset, List.getElem?_set_self (by simp; omega)]
  have hget : get (put ms k s.heap.length) k = some s.heap.length := by rw [get_put, if_pos rfl]
  refine ⟨⟨h', s.vars⟩, ?_, ?_⟩
  · simp only [exec, eval, walk, sub, subName, load, hx, h1, hg, Bool.false_eq_true, if_false]
    rw [show s.heap.set a (.obj (put ms k s.heap.length)) ++ [Node.null] = h' from rfl]
    simp only [hobj, hget]
    cases d with
    | zero => simp [read, answer]
    | succ d => simp only [read, hnull, answer]; simp
  · refine ⟨a, hx, shows_obj hobj ?_⟩
    have hnew : Shows h' s.heap.length .null := .null hnull
    have hold : Members h' ms vs := by
      refine hm.mono (fun m hm' v hv' => ?_)
      have e : Edge s.heap a m.2 := .inr ⟨ms, h1, m.1, hm'⟩
      simp only [h']; rw [hset]
      refine shows_set _ (shows_ext _ hv') (fun hr => acc_no_loop (shows_acc hv) _ e ?_)
      refine Reach.same hr (fun c hc => ?_)
      have hlt : c < s.heap.length := by
        have hcl : ∀ a b, a < s.heap.length → Edge (s.heap ++ [Node.null]) a b → b < s.heap.length := by
          intro a b ha e
          exact hs.edges a b ((edge_congr (List.getElem?_append_left ha)).mp e)
        exact Reach.closed (P := fun c => c < s.heap.length) hcl hc (hs.edges a m.2 e)
      rw [List.getElem?_append_left hlt]
    have := hold.put (k := k) hnew
    unfold Verif.Json.addMember at this
    rw [List.filter_eq_self.mpr] at this
    · exact this
    · intro m hm'
      simp only [ne_eq, decide_not, Bool.not_eq_true', decide_eq_false_iff_not]
      rintro rfl
      exact hk (List.mem_map_of_mem hm')

theorem demo_has : Has demo 0 (.obj [([97], .int 7)]) :=
  ⟨0, rfl, shows_obj (ms := [([97], 1)]) rfl (.cons ⟨rfl, .int rfl⟩ .nil)⟩

example : demo.vars[0]? = some 0 ∧ Has demo 0 (.obj [([97], .int 7)]) ∧ [98] ∉ [(([97] : Str), (.int 7 : Value Unit))].map (·.1) :=
  ⟨rfl, demo_has, by decide⟩

/-- A lookup may even fail and leave such a member behind: `x["new"]["b"]` throws, as null is no object, and `x` has a member `new`. -/
theorem failed_lookup_writes : exec 9 demo (.print ⟨0, false, [.name [98], .name [99]]⟩) =
    (⟨[.obj [([97], 1), ([98], 2)], .int 7, .null], [0, 1, 0]⟩, .error .badCast) := by rfl

/-! ### changing -/

/-- C86: `x.add(y)` appends what `y` shows, as long as `x` is not part of `y`; documents that `x` is no part of are as before. -/
theorem add_shows (d : Nat) (s : St F) (x y a b : Nat) (vs : List (Value F)) (w : Value F) (hx : s.vars[x]? = some a) (hy : s.vars[y]? = some b)
    (hv : Has s x (.arr vs)) (hw : Has s y w) (hn : ¬ Part s y a) :
    ∃ s', exec d s (.add ⟨x, false, []⟩ y) = (s', .ok .done) ∧ Has s' x (.arr (vs ++ [w])) ∧
      ∀ z v, ¬ Part s z a → Has s z v → Has s' z v := by
  obtain ⟨a', hx', hv⟩ := hv
  rw [hx] at hx'; cases hx'
  obtain ⟨b', hy', hw⟩ := hw
  rw [hy] at hy'; cases hy'
  have hn' : ¬ Reach s.heap b a := fun h => hn ⟨b, hy, h⟩
  cases hv' : hv with
  | @arr _ es _ e hl H =>
    have ha := (List.getElem?_eq_some_iff.mp e).1
    refine ⟨⟨s.heap.set a (.arr (es ++ [b])), s.vars⟩, ?_, ⟨a, hx, ?_⟩, ?_⟩
    · simp [exec, eval, walk, load, hx, var, hy, addElem, e, acted, answer]
    · refine .arr (es := es ++ [b]) (List.getElem?_set_self ha) (by simp [hl]) (fun i c u hc hu => ?_)
      dsimp only
      rw [List.getElem?_append] at hc hu
      split at hc
      · rw [if_pos (by omega)] at hu
        refine shows_set _ (H i c u hc hu) (acc_no_loop (shows_acc hv) c (.inl ⟨es, e, List.mem_of_getElem? hc⟩))
      · rw [if_neg (by omega)] at hu
        have h1 := List.mem_singleton.mp (List.mem_of_getElem? hc)
        have h2 := List.mem_singleton.mp (List.mem_of_getElem? hu)
        subst h1 h2
        exact shows_set _ hw hn'
    · rintro z v hz ⟨c, hc, hv⟩
      exact ⟨c, hc, shows_set _ hv (fun h => hz ⟨c, hc, h⟩)⟩

example : ∃ s : St Unit, s.vars[0]? = some 0 ∧ s.vars[1]? = some 1 ∧ Has s 0 (.arr []) ∧ Has s 1 (.int 7) ∧ ¬ Part s 1 0 := by
  refine ⟨⟨[.arr [], .int 7], [0, 1]⟩, rfl, rfl, ⟨0, rfl, .arr rfl rfl (by simp)⟩, ⟨1, rfl, .int rfl⟩, ?_⟩
  rintro ⟨c, hc, hr⟩
  cases hc
  cases hr with
  | step e _ => rcases e with ⟨_, e, _⟩ | ⟨_, e, _⟩ <;> simp at e

/-- C86: `x.add(k, y)` gives `x` the member `k` showing what `y` shows, in place of one of that name; likewise documents that `x` is no
part of are as before. -/
theorem addAs_shows (d : Nat) (s : St F) (x y a b : Nat) (k : Str) (vs : List (Str × Value F)) (w : Value F) (hx : s.vars[x]? = some a)
    (hy : s.vars[y]? = some b) (hv : Has s x (.obj vs)) (hw : Has s y w) (hn : ¬ Part s y a) :
    ∃ s', exec d s (.addAs ⟨x, false, []⟩ k y) = (s', .ok .done) ∧ Has s' x (.obj (vs.filter (fun m => m.1 ≠ k) ++ [(k, w)])) ∧
      ∀ z v, ¬ Part s z a → Has s z v → Has s' z v := by
  obtain ⟨a', hx', hv⟩ := hv
  rw [hx] at hx'; cases hx'
  obtain ⟨b', hy', hw⟩ := hw
  rw [hy] at hy'; cases hy'
  have hn' : ¬ Reach s.heap b a := fun h => hn ⟨b, hy, h⟩
  obtain ⟨ms, e, hm⟩ := obj_members hv
  have ha := (List.getElem?_eq_some_iff.mp e).1
  refine ⟨⟨s.heap.set a (.obj (put ms k b)), s.vars⟩, ?_, ⟨a, hx, ?_⟩, ?_⟩
  · simp [exec, eval, walk, load, hx, var, hy, addMember, e, acted, answer]
  · refine shows_obj (List.getElem?_set_self ha) (Members.put ?_ (shows_set _ hw hn'))
    refine hm.mono (fun m hm' v hv' => shows_set _ hv' (acc_no_loop (shows_acc hv) m.2 (.inr ⟨ms, e, m.1, hm'⟩)))
  · rintro z v hz ⟨c, hc, hv⟩
    exact ⟨c, hc, shows_set _ hv (fun h => hz ⟨c, hc, h⟩)⟩

example : demo.vars[0]? = some 0 ∧ demo.vars[1]? = some 1 ∧ Has demo 0 (.obj [([97], .int 7)]) ∧ Has demo 1 (.int 7) ∧ ¬ Part demo 1 0 := by
  refine ⟨rfl, rfl, demo_has, ⟨1, rfl, .int rfl⟩, ?_⟩
  rintro ⟨c, hc, hr⟩
  cases hc
  cases hr with
  | step e _ => rcases e with ⟨_, e, _⟩ | ⟨_, e, _⟩ <;> simp [demo] at e

/-- C86: `x[k] = y` does the same, whether or not there is such a member. -/
theorem assign_member_shows (d : Nat) (s : St F) (x y a b : Nat) (k : Str) (vs : List (Str × Value F)) (w : Value F) (hx : s.vars[x]? = some a)
    (hy : s.vars[y]? = some b) (hv : Has s x (.obj vs)) (hw : Has s y w) (hn : ¬ Part s y a) :
    ∃ s', exec d s (.assign ⟨x, false, [.name k]⟩ y) = (s', .ok .done) ∧ Has s' x (.obj (vs.filter (fun m => m.1 ≠ k) ++ [(k, w)])) ∧
      ∀ z v, ¬ Part s z a → Has s z v → Has s' z v := by
  obtain ⟨s1, h1, ⟨a1, ha1, h2⟩, h3⟩ := addAs_shows d s x y a b k vs w hx hy hv hw hn
  obtain ⟨a', hx', hv⟩ := hv
  rw [hx] at hx'; cases hx'
  obtain ⟨ms, e, hm⟩ := obj_members hv
  have ha := (List.getElem?_eq_some_iff.mp e).1
  simp only [exec, eval, walk, load, hx, var, hy, addMember, e, acted, answer, Option.elim, Bool.false_eq_true, if_false, Prod.mk.injEq] at h1
  obtain ⟨rfl, -⟩ := h1
  dsimp only at ha1 h2
  cases hg : get ms k with
  | some c =>
    refine ⟨⟨s.heap.set a (.obj (put ms k b)), s.vars⟩, ?_, ⟨a1, ha1, h2⟩, h3⟩
    simp [exec, eval, walk, sub, subName, load, hx, var, hy, e, hg, store]
  | none =>
    refine ⟨⟨s.heap.set a (.obj (put ms k b)) ++ [Node.null], s.vars⟩, ?_, ⟨a1, ha1, shows_ext _ h2⟩, ?_⟩
    · have h4 : (s.heap.set a (.obj (put ms k s.heap.length)) ++ [Node.null])[a]? = some (.obj (put ms k s.heap.length)) := by
        rw [List.getElem?_append_left (by simpa using ha), List.getElem?_set_self ha]
      have h5 : get (put ms k s.heap.length) k = some s.heap.length := by rw [get_put, if_pos rfl]
      simp only [exec, eval, walk, sub, subName, load, hx, var, hy, e, hg, store, h4, h5, Option.elim, Bool.false_eq_true, if_false, put_put]
      rw [List.set_append_left _ _ (by simpa using ha), List.set_set]
    · intro z v hz hzv
      obtain ⟨c, hc, hs⟩ := h3 z v hz hzv
      exact ⟨c, hc, shows_ext _ hs⟩

/-- C86: `x[i] = y` puts what `y` shows in place of the element `i`. -/
theorem assign_elem_shows (d : Nat) (s : St F) (x y a b i : Nat) (vs : List (Value F)) (w : Value F) (hx : s.vars[x]? = some a)
    (hy : s.vars[y]? = some b) (hv : Has s x (.arr vs)) (hw : Has s y w) (hn : ¬ Part s y a) (hi : i < vs.length) :
    ∃ s', exec d s (.assign ⟨x, false, [.idx i]⟩ y) = (s', .ok .done) ∧ Has s' x (.arr (vs.set i w)) ∧
      ∀ z v, ¬ Part s z a → Has s z v → Has s' z v := by
  obtain ⟨a', hx', hv⟩ := hv
  rw [hx] at hx'; cases hx'
  obtain ⟨b', hy', hw⟩ := hw
  rw [hy] at hy'; cases hy'
  have hn' : ¬ Reach s.heap b a := fun h => hn ⟨b, hy, h⟩
  cases hv' : hv with
  | @arr _ es _ e hl H =>
    have ha := (List.getElem?_eq_some_iff.mp e).1
    have hi' : i < es.length := by omega
    refine ⟨⟨s.heap.set a (.arr (es.set i b)), s.vars⟩, ?_, ⟨a, hx, ?_⟩, ?_⟩
    · simp [exec, eval, walk, sub, subIdx, load, hx, var, hy, e, hi', store]
    · refine .arr (es := es.set i b) (List.getElem?_set_self ha) (by simp [hl]) (fun j c u hc hu => ?_)
      by_cases hj : i = j
      · subst hj
        rw [List.getElem?_set_self hi'] at hc
        rw [List.getElem?_set_self hi] at hu
        cases hc; cases hu
        exact shows_set _ hw hn'
      · rw [List.getElem?_set_ne hj] at hc hu
        exact shows_set _ (H j c u hc hu) (acc_no_loop (shows_acc hv) c (.inl ⟨es, e, List.mem_of_getElem? hc⟩))
    · rintro z v hz ⟨c, hc, hv⟩
      exact ⟨c, hc, shows_set _ hv (fun h => hz ⟨c, hc, h⟩)⟩

example : ∃ s : St Unit, s.vars[0]? = some 0 ∧ s.vars[1]? = some 1 ∧ Has s 0 (.arr [.null]) ∧ Has s 1 (.int 7) ∧ ¬ Part s 1 0 := by
  refine ⟨⟨[.arr [2], .int 7, .null], [0, 1]⟩, rfl, rfl, ⟨0, rfl, .arr (es := [2]) rfl rfl ?_⟩, ⟨1, rfl, .int rfl⟩, ?_⟩
  · intro i b v hb hv
    have h1 := List.mem_singleton.mp (List.mem_of_getElem? hb)
    have h2 := List.mem_singleton.mp (List.mem_of_getElem? hv)
    subst h1 h2
    exact .null rfl
  · rintro ⟨c, hc, hr⟩
    cases hc
    cases hr with
    | step e _ => rcases e with ⟨_, e, _⟩ | ⟨_, e, _⟩ <;> simp at e

/-- C86: assigning a variable changes what that variable holds, and nothing else: `x = y` makes `x` share what `y` holds. -/
theorem assign_var (d : Nat) (s : St F) (x y : Nat) (hx : x < s.vars.length) (hy : y < s.vars.length) :
    ∃ s', exec d s (.assign ⟨x, false, []⟩ y) = (s', .ok .done) ∧ s'.vars[x]? = s.vars[y]? ∧
      (∀ v, Has s' x v ↔ Has s y v) ∧ ∀ z, z ≠ x → ∀ v, Has s' z v ↔ Has s z v := by
  have h1 : s.vars[x]? = some s.vars[x] := List.getElem?_eq_getElem hx
  have h2 : s.vars[y]? = some s.vars[y] := List.getElem?_eq_getElem hy
  have h3 : (s.vars.set x s.vars[y])[x]? = s.vars[y]? := by rw [List.getElem?_set_self hx, h2]
  refine ⟨⟨s.heap, s.vars.set x s.vars[y]⟩, ?_, h3, fun v => ?_, fun z hz v => ?_⟩
  · simp [exec, eval, walk, load, hx, var, hy, store]
  · unfold Has; dsimp only; rw [h3]
  · unfold Has; dsimp only; rw [List.getElem?_set_ne (fun e => hz e.symm)]

example : (0 : Nat) < demo.vars.length ∧ (1 : Nat) < demo.vars.length := by decide

/-- C86: `add` to what is no array, `add` with a name to what is no object, and `size` and `count` of what has none throw
`json_bad_cast`. Nothing has changed. -/
theorem wrong_type (d : Nat) (s : St F) (x y a b : Nat) (k : Str) (n : Node F) (hx : s.vars[x]? = some a) (hy : s.vars[y]? = some b)
    (hn : s.heap[a]? = some n) :
    ((∀ es, n ≠ .arr es) → exec d s (.add ⟨x, false, []⟩ y) = (s, .error .badCast)) ∧
    ((∀ ms, n ≠ .obj ms) → exec d s (.addAs ⟨x, false, []⟩ k y) = (s, .error .badCast)) ∧
    ((∀ ms, n ≠ .obj ms) → exec d s (.count ⟨x, false, []⟩ k) = (s, .error .badCast)) ∧
    ((∀ es, n ≠ .arr es) → (∀ ms, n ≠ .obj ms) → exec d s (.size ⟨x, false, []⟩) = (s, .error .badCast)) := by
  refine ⟨fun h => ?_, fun h => ?_, fun h => ?_, fun h h' => ?_⟩
  · cases n with
    | arr es => exact absurd rfl (h es)
    | _ => simp [exec, eval, walk, load, hx, var, hy, addElem, hn, acted, answer]
  · cases n with
    | obj ms => exact absurd rfl (h ms)
    | _ => simp [exec, eval, walk, load, hx, var, hy, addMember, hn, acted, answer]
  · cases n with
    | obj ms => exact absurd rfl (h ms)
    | _ => simp [exec, eval, walk, load, hx, count, hn, answer]
  · cases n with
    | arr es => exact absurd rfl (h es)
    | obj ms => exact absurd rfl (h' ms)
    | _ => simp [exec, eval, walk, load, hx, size, hn, answer]

/-- C86: `size`, `count` and `type` tell what is shown. -/
theorem tells (d : Nat) (s : St F) (x : Nat) (con : Bool) (v : Value F) (hv : Has s x v) :
    (∀ vs, v = .arr vs → exec d s (.size ⟨x, con, []⟩) = (s, .ok (.number vs.length))) ∧
    (∀ vs, v = .obj vs → exec d s (.size ⟨x, con, []⟩) = (s, .ok (.number vs.length))) ∧
    (∀ vs k, v = .obj vs → exec d s (.count ⟨x, con, []⟩ k) = (s, .ok (.number (if k ∈ vs.map (·.1) then 1 else 0)))) ∧
    exec d s (.type ⟨x, con, []⟩) = (s, .ok (.type (match v with
      | .null => .null
      | .int _ => .integer
      | .flt _ => .float
      | .bool _ => .bool
      | .str _ => .string
      | .arr _ => .array
      | .obj _ => .object))) := by
  obtain ⟨a, hx, hv⟩ := hv
  refine ⟨?_, ?_, ?_, ?_⟩
  · rintro vs rfl
    cases hv with
    | arr e hl _ => simp [exec, eval, walk, load, hx, size, e, answer, hl]
  · rintro vs rfl
    cases hv with
    | obj e hl _ => simp [exec, eval, walk, load, hx, size, e, answer, show _ = vs.length by simpa using congrArg List.length hl]
  · rintro vs k rfl
    cases hv with
    | @obj _ ms _ e hl _ =>
      simp only [exec, eval, walk, load, hx, count, e, answer]
      rw [← hl]
      have : (get ms k).isSome = true ↔ k ∈ ms.map (·.1) := by
        constructor
        · intro h
          obtain ⟨b, hb⟩ := Option.isSome_iff_exists.mp h
          exact List.mem_map_of_mem (f := (·.1)) (get_some hb)
        · intro h
          obtain ⟨m, hm, rfl⟩ := List.mem_map.mp h
          cases e : get ms m.1 with
          | some b => rfl
          | none => exact absurd hm (get_none e m.2)
      simp only [this]
  · cases hv with
    | null e => simp [exec, eval, walk, load, hx, type, e, answer]
    | int e => simp [exec, eval, walk, load, hx, type, e, answer]
    | flt e => simp [exec, eval, walk, load, hx, type, e, answer]
    | bool e => simp [exec, eval, walk, load, hx, type, e, answer]
    | str e => simp [exec, eval, walk, load, hx, type, e, answer]
    | arr e _ _ => simp [exec, eval, walk, load, hx, type, e, answer]
    | obj e _ _ => simp [exec, eval, walk, load, hx, type, e, answer]

example : Has demo 2 (.obj [([97], .int 7)]) := demo_has

/-! ### copies and clones -/

/-- C86: a copy of a handle shares the value: whatever a program then does through either, or through others, both show the same, until
one of them is itself assigned. -/
theorem copy_shares (d : Nat) (ops : List (Op F)) (x z : Nat) : ∀ (s s' : St F), x < s.vars.length → z < s.vars.length →
    s.vars[x]? = s.vars[z]? → (∀ o ∈ ops, ¬ rebinds x o ∧ ¬ rebinds z o) → run d s ops = some s' →
    s'.vars[x]? = s'.vars[z]? ∧ ∀ v, Has s' x v ↔ Has s' z v := by
  induction ops with
  | nil =>
    intro s s' _ _ h _ hr
    cases hr
    exact ⟨h, fun v => by unfold Has; rw [h]⟩
  | cons o os ih =>
    intro s s' hx hz h ho hr
    have h1 := exec_vars d s o
    have h2 := ho o List.mem_cons_self
    have h3 := h1.2 x h2.1 hx
    have h4 := h1.2 z h2.2 hz
    simp only [run] at hr
    have go : run d (exec d s o).1 os = some s' → s'.vars[x]? = s'.vars[z]? ∧ ∀ v, Has s' x v ↔ Has s' z v := fun hr =>
      ih _ _ (by omega) (by omega) (by rw [h3, h4, h]) (fun o' ho' => ho o' (List.mem_cons_of_mem _ ho')) hr
    revert hr go
    rcases exec d s o with ⟨t, r | v⟩
    · cases r <;> intro hr go <;> first | exact go hr | cases hr
    · intro hr go; exact go hr

example : demo.vars[0]? = demo.vars[2]? ∧ ∃ s', run 9 demo [.addAs ⟨0, false, []⟩ [98] 1] = some s' ∧
    exec 9 s' (.print ⟨2, true, []⟩) = (s', .ok (.shown (.obj [([97], .int 7), ([98], .int 7)]))) :=
  ⟨rfl, ⟨[.obj [([97], 1), ([98], 1)], .int 7], [0, 1, 0]⟩, rfl, by simp [exec, eval, walk, load, read, readM, answer]⟩

/-- C86: `clone` succeeds exactly if printing does, and then the new document shows the same, while all that was shown before is. -/
theorem clone_same (d : Nat) (s : St F) (e : Lv) (hs : Sound s) :
    (∀ s' v, exec d s (.print e) = (s', .ok (.shown v)) → ∃ s'', exec d s (.clone e) = (s'', .ok .done) ∧
      s''.vars.length = s.vars.length + 1 ∧ Has s'' s.vars.length v ∧
      ∀ z w, Has s' z w → Has s'' z w) ∧
    (∀ s' r, exec d s (.print e) = (s', .error r) → exec d s (.clone e) = (s', .error r)) := by
  simp only [exec]
  have hv := eval_vars s e
  have hs' := eval_sound hs e
  rcases he : eval s e with ⟨t, r | ⟨p, a⟩⟩
  · exact ⟨fun s' v h => by (cases h), fun s' r h => by cases h; rfl⟩
  · rw [he] at hv hs'
    dsimp only at hv hs' ⊢
    have h4 := clone_spec d t.heap a hs'.edges (eval_lt hs he) hs'.names
    cases hr : read t.heap d a with
    | error r =>
      rw [h4.2 r hr]
      exact ⟨fun s' v h => by (cases h), fun s' r h => by cases h; rfl⟩
    | ok v =>
      obtain ⟨h', b, h5, g, l1, l2, h6⟩ := h4.1 v hr
      rw [h5]
      refine ⟨fun s' w h => ?_, fun s' r h => by cases h⟩
      cases h
      refine ⟨_, rfl, by simp [hv], ⟨b, by simp [← hv], h6⟩, ?_⟩
      rintro z w ⟨c, hc, hw⟩
      refine ⟨c, ?_, ?_⟩
      · dsimp only
        rw [List.getElem?_append_left (List.getElem?_eq_some_iff.mp hc).1, hc]
      · obtain ⟨u, rfl⟩ := g.pre; exact shows_ext u hw

example : exec 9 demo (.print ⟨0, true, []⟩) = (demo, .ok (.shown (.obj [([97], .int 7)]))) := by
  simp [exec, eval, walk, load, read, readM, answer, demo]

/-- C86: a clone has no part in common with anything that was there before. -/
theorem clone_apart (d : Nat) (s s' : St F) (e : Lv) (hs : Sound s) (h : exec d s (.clone e) = (s', .ok .done)) :
    Apart s' (fun x => s.vars.length ≤ x) := by
  simp only [exec] at h
  have hv := eval_vars s e
  have hs' := eval_sound hs e
  rcases he : eval s e with ⟨t, r | ⟨p, a⟩⟩
  · rw [he] at h; cases h
  · rw [he] at h hv hs'
    dsimp only at h hv hs'
    cases hc : clone d t.heap a with
    | error r => rw [hc] at h; cases h
    | ok hb =>
      obtain ⟨h', b⟩ := hb
      rw [hc] at h; cases h
      obtain ⟨g, l1, l2⟩ := clone_grown hs'.edges (eval_lt hs he) hs'.names hc
      rintro x y c hx hy ⟨p, hp, rp⟩ ⟨q, hq, rq⟩
      dsimp only at hp hq rp rq
      have hx' : t.vars.length ≤ x := by rw [hv]; exact hx
      rw [List.getElem?_append_right hx'] at hp
      have hp' := List.mem_singleton.mp (List.mem_of_getElem? hp)
      subst hp'
      have h1 : t.heap.length ≤ c := Reach.closed (P := fun c => t.heap.length ≤ c) (fun a b ha e => (g.down a b ha e).1) rp l1
      have hy' : y < t.vars.length := by rw [hv]; exact Nat.lt_of_not_le hy
      rw [List.getElem?_append_left hy'] at hq
      have h2 : c < t.heap.length := by
        refine Reach.closed (P := fun c => c < t.heap.length) (fun a b ha e => ?_) rq (hs'.vars q (List.mem_of_getElem? hq))
        exact hs'.edges a b ((edge_congr (g.old ha)).mp e)
      omega

theorem demo_clone : exec 9 demo (.clone ⟨0, true, []⟩) = (⟨[.obj [([97], 1)], .int 7, .int 7, .obj [([97], 2)]], [0, 1, 0, 3]⟩, .ok .done) := by
  simp [exec, eval, walk, load, clone, cloneM, put, demo]

/-- C86: documents that have no part in common stay so, and what is done to the ones does not show in the others: a program that only
mentions variables in `A` leaves every other variable as it was. (Variables to come belong to `A`.) -/
theorem apart_untouched (d : Nat) (ops : List (Op F)) (A : Nat → Prop) : ∀ (s s' : St F), Sound s → (∀ x, s.vars.length ≤ x → A x) →
    Apart s A → (∀ o ∈ ops, ∀ x ∈ mentions o, A x) → run d s ops = some s' →
    Apart s' A ∧ ∀ y, ¬ A y → s'.vars[y]? = s.vars[y]? ∧ ∀ v, Has s' y v ↔ Has s y v := by
  -- one statement
  have one : ∀ (s : St F) (o : Op F), Sound s → (∀ x, s.vars.length ≤ x → A x) → Apart s A → (∀ x ∈ mentions o, A x) →
      Apart (exec d s o).1 A ∧ ∀ y, ¬ A y → (exec d s o).1.vars[y]? = s.vars[y]? ∧ ∀ v, Has (exec d s o).1 y v ↔ Has s y v := by
    intro s o hs hA hap hm
    let P : Nat → Prop := fun c => s.heap.length ≤ c ∨ ∃ x, A x ∧ Part s x c
    have ho : Own P A s := by
      refine ⟨fun a ha => .inl ha, ?_, fun x a hx ha => .inr ⟨x, hx, a, ha, .refl a⟩⟩
      rintro a b (ha | ⟨x, hx, c, hc, hr⟩) e
      · exact absurd (Edge.lt e) (by omega)
      · exact .inr ⟨x, hx, c, hc, Reach.trans hr (.step e (.refl b))⟩
    obtain ⟨h1, h2, h3⟩ := exec_own d hs ho o hm
    -- what the others reach is outside
    have out : ∀ y c, ¬ A y → Part s y c → ¬ P c := by
      rintro y c hy hp (hc | ⟨x, hx, hp'⟩)
      · obtain ⟨a, ha, hr⟩ := hp
        have : c < s.heap.length := Reach.closed (P := fun c => c < s.heap.length) (fun a b _ e => hs.edges a b e) hr (var_lt hs ha)
        omega
      · exact hap x y c hx hy hp' hp
    have hlt : ∀ y, ¬ A y → y < s.vars.length := fun y hy => Nat.lt_of_not_le (fun h => hy (hA y h))
    have same : ∀ y a, ¬ A y → s.vars[y]? = some a → ∀ c, Reach s.heap a c → (exec d s o).1.heap[c]? = s.heap[c]? :=
      fun y a hy ha c hc => h2 c (out y c hy ⟨a, ha, hc⟩)
    -- the other way round
    have back : ∀ y a, ¬ A y → s.vars[y]? = some a → ∀ c, Reach (exec d s o).1.heap a c → Reach s.heap a c := by
      intro y a hy ha c hc
      have key : ∀ b c, Reach (exec d s o).1.heap b c → Reach s.heap a b → Reach s.heap a c := by
        intro b c hbc
        induction hbc with
        | refl => exact id
        | step e _ ih =>
          intro hab
          exact ih (Reach.trans hab (.step ((edge_congr (same y a hy ha _ hab)).mp e) (.refl _)))
      exact key a c hc (.refl a)
    refine ⟨?_, fun y hy => ⟨h3 y hy (hlt y hy), fun v => ?_⟩⟩
    · rintro x y c hx hy ⟨a, ha, hr⟩ ⟨b, hb, hr'⟩
      rw [h3 y hy (hlt y hy)] at hb
      have hPc : P c := Reach.closed h1.closed hr (h1.vars x a hx ha)
      exact out y c hy ⟨b, hb, back y b hy hb c hr'⟩ hPc
    · unfold Has
      rw [h3 y hy (hlt y hy)]
      constructor
      · rintro ⟨a, ha, hv⟩
        refine ⟨a, ha, Shows.same hv (fun c hc => (same y a hy ha c (back y a hy ha c hc)).symm)⟩
      · rintro ⟨a, ha, hv⟩
        exact ⟨a, ha, Shows.same hv (same y a hy ha)⟩
  induction ops with
  | nil =>
    intro s s' _ _ hap _ hr
    cases hr
    exact ⟨hap, fun y _ => ⟨rfl, fun v => Iff.rfl⟩⟩
  | cons o os ih =>
    intro s s' hs hA hap ho hr
    have h1 := one s o hs hA hap (ho o List.mem_cons_self)
    have h2 := exec_sound d hs o
    have h3 := (exec_vars d s o).1
    have go : run d (exec d s o).1 os = some s' →
        Apart s' A ∧ ∀ y, ¬ A y → s'.vars[y]? = s.vars[y]? ∧ ∀ v, Has s' y v ↔ Has s y v := by
      intro hr
      have h4 := ih _ _ h2 (fun x hx => hA x (by omega)) h1.1 (fun o' ho' => ho o' (List.mem_cons_of_mem _ ho')) hr
      exact ⟨h4.1, fun y hy => ⟨(h4.2 y hy).1.trans (h1.2 y hy).1, fun v => ((h4.2 y hy).2 v).trans ((h1.2 y hy).2 v)⟩⟩
    simp only [run] at hr
    revert hr go
    rcases exec d s o with ⟨t, r | v⟩
    · cases r <;> intro hr go <;> first | exact go hr | cases hr
    · intro hr go; exact go hr

/-- So what is done to a clone does not show in the document it was made from. -/
example : ∃ s' s'', exec 9 demo (.clone ⟨0, true, []⟩) = (s', .ok .done) ∧ run 9 s' [.make .null, .addAs ⟨3, false, []⟩ [98] 4] = some s'' ∧
    ∀ v, Has s'' 0 v ↔ Has s' 0 v := by
  refine ⟨_, _, demo_clone, rfl, ?_⟩
  have hs := exec_sound 9 demo_sound (.clone ⟨0, true, []⟩)
  rw [demo_clone] at hs
  exact ((apart_untouched 9 [.make .null, .addAs ⟨3, false, []⟩ [98] 4] (fun x => 3 ≤ x) _ _ hs (fun x hx => by simp at hx; omega)
    (clone_apart 9 demo _ _ demo_sound demo_clone) (by simp [mentions]) rfl).2 0 (by omega)).2

/-! ### printing -/

/-- C86: as long as a program puts no value into itself or a part of it, no value is a part of itself. -/
theorem no_loop_kept (d : Nat) (ops : List (Op F)) : ∀ (s s' : St F), Sound s → NoLoop s.heap → TidyRun d s ops → run d s ops = some s' →
    NoLoop s'.heap := by
  suffices H : ∀ (s s' : St F), Sound s → Tame s.heap → TidyRun d s ops → run d s ops = some s' → Tame s'.heap by
    intro s s' hs hn ht hr
    exact tame_noLoop (H s s' hs (noLoop_tame hn hs.edges) ht hr)
  induction ops with
  | nil => intro s s' _ ht _ hr; cases hr; exact ht
  | cons o os ih =>
    intro s s' hs ht htidy hr
    have h1 := exec_sound d hs o
    have h2 := exec_tame d hs ht o htidy.1
    have go : run d (exec d s o).1 os = some s' → Tame s'.heap := ih _ _ h1 h2 htidy.2
    simp only [run] at hr
    revert hr go
    rcases exec d s o with ⟨t, r | v⟩
    · cases r <;> intro hr go <;> first | exact go hr | cases hr
    · intro hr go; exact go hr

example : NoLoop (⟨[], []⟩ : St Unit).heap ∧
    TidyRun 9 (⟨[], []⟩ : St Unit) [.make .emptyArr, .make .null, .add ⟨0, false, []⟩ 1] := by
  refine ⟨fun a b e => absurd (Edge.lt e) (by simp), trivial, trivial, ?_, trivial⟩
  intro s' p a b h hb hr
  cases h
  cases hb
  cases hr with
  | step e _ => rcases e with ⟨_, e, _⟩ | ⟨_, e, _⟩ <;> simp [exec, make, Lit.node] at e

/-- C86: such a document can be printed, given enough stack, and `print` shows the document, if it was made with no null pointers. -/
theorem prints (s : St F) (x a : Nat) (hs : Sound s) (hn : NoLoop s.heap) (hx : s.vars[x]? = some a)
    (hz : ∀ c, Part s x c → s.heap[c]? ≠ some .nothing) :
    ∃ v d₀, Has s x v ∧ ∀ d, d₀ ≤ d → exec d s (.print ⟨x, true, []⟩) = (s, .ok (.shown v)) := by
  obtain ⟨v, hv⟩ := tame_shows (noLoop_tame hn hs.edges) hs.edges a (var_lt hs hx) (fun c hc => hz c ⟨a, hx, hc⟩)
  obtain ⟨d₀, h⟩ := shows_read hv
  refine ⟨v, d₀, ⟨a, hx, hv⟩, fun d hd => ?_⟩
  simp [exec, eval, walk, load, hx, h d hd, answer]

/-- C86: what is printed is what the variable has. -/
theorem printed_shows (d : Nat) (s : St F) (x : Nat) (v : Value F) (h : exec d s (.print ⟨x, true, []⟩) = (s, .ok (.shown v))) : Has s x v := by
  simp only [exec, eval, walk, load] at h
  cases hx : s.vars[x]? with
  | none => rw [hx] at h; cases h
  | some a =>
    rw [hx] at h
    dsimp only at h
    cases hr : read s.heap d a with
    | error r => rw [hr] at h; cases h
    | ok w => rw [hr] at h; cases h; exact ⟨a, hx, read_shows hr⟩

/-- C86: a document with a value that is a part of itself cannot be printed or cloned however large the stack: the recursion never
ends. -/
theorem loop_never_prints (d : Nat) (s : St F) (x c b : Nat) (hs : Sound s) (hc : Part s x c) (he : Edge s.heap c b) (hr : Reach s.heap b c) :
    (∃ r, (exec d s (.print ⟨x, true, []⟩)).2 = .error r) ∧ ∃ r, (exec d s (.clone ⟨x, true, []⟩)).2 = .error r := by
  obtain ⟨a, hx, hac⟩ := hc
  have hbad : ∀ v, ¬ Shows s.heap a v := by
    intro v hv
    have key : ∀ c, Reach s.heap a c → Acc (fun b a => Edge s.heap a b) c := by
      intro c hc
      exact Reach.closed (P := Acc (fun b a => Edge s.heap a b)) (fun a b ha e => ha.inv e) hc (shows_acc hv)
    exact acc_no_loop (key c hac) b he hr
  have h4 := clone_spec d s.heap a hs.edges (var_lt hs hx) hs.names
  simp only [exec, eval, walk, load, hx]
  cases h : read s.heap d a with
  | ok v => exact absurd (read_shows h) (hbad v)
  | error r => rw [h4.2 r h]; exact ⟨⟨r, rfl⟩, ⟨r, rfl⟩⟩

/-- Such a document is easily made: `x.add(x)`. -/
theorem self_add : ∃ s : St Unit, run 9 ⟨[], []⟩ [.make .emptyArr, .add ⟨0, false, []⟩ 0] = some s ∧
    ∀ d, (exec d s (.print ⟨0, true, []⟩)).2 = .error .overflow := by
  refine ⟨_, rfl, fun d => ?_⟩
  have : ∀ d, read [(.arr [0] : Node Unit)] d 0 = .error .overflow := by
    intro d
    induction d with
    | zero => simp only [read]
    | succ d ih => simp only [read, List.getElem?_cons_zero, readL, ih]
  simp only [exec, eval, walk, load, make, Lit.node]
  exact congrArg (fun r => (answer (F := Unit) _ Reply.shown r).2) (this d)

example : Part (⟨[.arr [0]], [0]⟩ : St Unit) 0 0 ∧ Edge [(.arr [0] : Node Unit)] 0 0 := ⟨⟨0, rfl, .refl 0⟩, .inl ⟨[0], rfl, by simp⟩⟩

/-! ### merging -/

/-- C86: `merge` makes a new object showing what merging the two values shows, and leaves all that was shown. -/
theorem merge_shows (d : Nat) (s : St F) (y z : Nat) (vs ws r : List (Str × Value F)) (hy : Has s y (.obj vs)) (hz : Has s z (.obj ws))
    (hr : Verif.JsonEq.merge (.obj vs) (.obj ws) = some (.obj r)) :
    ∃ s', exec d s (.merge y z) = (s', .ok .done) ∧ Has s' s.vars.length (.obj r) ∧ ∀ x v, Has s x v → Has s' x v := by
  obtain ⟨a, ha, hy⟩ := hy
  obtain ⟨b, hb, hz⟩ := hz
  obtain ⟨ms, h1, hm⟩ := obj_members hy
  obtain ⟨ns, h2, hn⟩ := obj_members hz
  refine ⟨make s (.obj (mergeMembers ms ns)), ?_, ⟨s.heap.length, by simp [make], ?_⟩, ?_⟩
  · simp [exec, var, ha, hb, merge, h1, h2]
  · simp only [Verif.JsonEq.merge, Verif.JsonEq.mergeWith, Option.some.injEq, Value.obj.injEq, mergeObj_second] at hr
    subst hr
    refine shows_obj (ms := mergeMembers ms ns) (by simp [make]) ?_
    refine (hn.foldl (hm.foldl .nil)).mono (fun m _ v hv => ?_)
    exact shows_ext _ hv
  · rintro x v ⟨c, hc, hv⟩
    refine ⟨c, ?_, shows_ext _ hv⟩
    simp only [make]
    rw [List.getElem?_append_left (List.getElem?_eq_some_iff.mp hc).1, hc]

example : Has demo 0 (.obj [([97], .int 7)]) ∧ Has demo 2 (.obj [([97], .int 7)]) ∧
    ∃ r, Verif.JsonEq.merge (F := Unit) (.obj [([97], .int 7)]) (.obj [([97], .int 7)]) = some (.obj r) := ⟨demo_has, demo_has, _, rfl⟩

/-- C86: but the members of the merged object are those of the two, not copies: with `y = {"a": {}}`, `z = {}` and `m = y.merge(z)`, the
statement `m["a"].add("b", y)`, say, changes `y` too. -/
theorem merge_shares : ∃ s : St Unit,
    run 9 ⟨[], []⟩ [.make .emptyObj, .make .emptyObj, .make .emptyObj, .make (.int 1), .addAs ⟨0, false, []⟩ [97] 1, .merge 0 2,
      .addAs ⟨4, false, [.name [97]]⟩ [98] 3] = some s ∧
    Has s 0 (.obj [([97], .obj [([98], .int 1)])]) := by
  refine ⟨_, rfl, 0, rfl, shows_obj (ms := [([97], 1)]) rfl (.cons ⟨rfl, ?_⟩ .nil)⟩
  exact shows_obj (ms := [([98], 3)]) rfl (.cons ⟨rfl, .int rfl⟩ .nil)

/-! ### null pointers -/

/-- C86: `json x = 0;` makes a handle of which nothing may be asked: its type, printing and cloning it are undefined behaviour. -/
theorem zero_undefined (d : Nat) (s : St F) : (exec d (exec d s (.make .zero)).1 (.type ⟨s.vars.length, true, []⟩)).2 = .error .undef ∧
    (exec (d + 1) (exec d s (.make .zero)).1 (.print ⟨s.vars.length, true, []⟩)).2 = .error .undef ∧
    (exec (d + 1) (exec d s (.make .zero)).1 (.clone ⟨s.vars.length, true, []⟩)).2 = .error .undef := by
  refine ⟨?_, ?_, ?_⟩
  · simp [exec, make, Lit.node, eval, walk, load, type, answer]
  · simp [exec, make, Lit.node, eval, walk, load, read, answer]
  · simp [exec, make, Lit.node, eval, walk, load, clone]

/-- C86: in a program that makes no such handle and has no subscript by number, no statement is undefined behaviour. -/
theorem defined (d : Nat) (s : St F) (o : Op F) (hs : Sound s) (hz : ∀ a : Nat, s.heap[a]? ≠ some .nothing) (hm : o ≠ .make .zero) (ho : ByName o) :
    (exec d s o).2 ≠ .error .undef ∧ ∀ a : Nat, (exec d s o).1.heap[a]? ≠ some .nothing := by
  have hvar : ∀ y r, var s y = .error r → r = .stuck := by
    intro y r h
    unfold var at h
    cases e : s.vars[y]? with
    | none => rw [e] at h; cases h; rfl
    | some b => rw [e] at h; cases h
  -- a statement that only asks
  have ask : ∀ (e : Lv), (∀ q ∈ e.steps, ∃ k, q = .name k) → ∀ (t : St F) (r : Except Err (Place × Nat)), eval s e = (t, r) →
      r ≠ .error .undef ∧ NoZero t.heap := by
    intro e he t r h
    have h1 := eval_not_undef (s := s) he
    have h2 := eval_noZero hz e
    rw [h] at h1 h2
    exact ⟨h1, h2⟩
  cases o with
  | make l =>
    refine ⟨by simp [exec], noZero_push hz ?_⟩
    cases l <;> simp [Lit.node] at hm ⊢
  | copy e =>
    simp only [exec]
    rcases h : eval s e with ⟨t, r | ⟨p, a⟩⟩
    · have := ask e ho t _ h; exact ⟨fun e => this.1 (by cases e; rfl), this.2⟩
    · have := ask e ho t _ h; exact ⟨by simp, this.2⟩
  | assign e y =>
    simp only [exec]
    cases hv : var s y with
    | error r => have := hvar y r hv; subst this; exact ⟨by simp, hz⟩
    | ok b =>
      dsimp only
      rcases h : eval s e with ⟨t, r | ⟨p, a⟩⟩
      · have := ask e ho t _ h; exact ⟨fun e => this.1 (by cases e; rfl), this.2⟩
      · have := ask e ho t _ h
        dsimp only
        cases hc : e.con with
        | true => exact ⟨by simp, this.2⟩
        | false =>
          cases p with
          | var x => exact ⟨by simp [store], this.2⟩
          | elem c i =>
            simp only [store]
            cases hn : t.heap[c]? with
            | none => exact ⟨by simp, this.2⟩
            | some n =>
              cases n with
              | arr es => exact ⟨by simp, noZero_set this.2 (by simp)⟩
              | _ => exact ⟨by simp, this.2⟩
          | member c i =>
            simp only [store]
            cases hn : t.heap[c]? with
            | none => exact ⟨by simp, this.2⟩
            | some n =>
              cases n with
              | obj es => exact ⟨by simp, noZero_set this.2 (by simp)⟩
              | _ => exact ⟨by simp, this.2⟩
  | add e y =>
    simp only [exec]
    cases hv : var s y with
    | error r => have := hvar y r hv; subst this; exact ⟨by simp, hz⟩
    | ok b =>
      dsimp only
      rcases h : eval s e with ⟨t, r | ⟨p, a⟩⟩
      · have := ask e ho t _ h; exact ⟨fun e => this.1 (by cases e; rfl), this.2⟩
      · have := ask e ho t _ h
        dsimp only
        split
        · exact ⟨by simp, this.2⟩
        · simp only [addElem]
          cases hn : t.heap[a]? with
          | none => exact ⟨by simp [acted, answer], this.2⟩
          | some n =>
            cases n with
            | arr es => exact ⟨by simp [acted, answer], noZero_set this.2 (by simp)⟩
            | _ => exact ⟨by simp [acted, answer], this.2⟩
  | addAs e k y =>
    simp only [exec]
    cases hv : var s y with
    | error r => have := hvar y r hv; subst this; exact ⟨by simp, hz⟩
    | ok b =>
      dsimp only
      rcases h : eval s e with ⟨t, r | ⟨p, a⟩⟩
      · have := ask e ho t _ h; exact ⟨fun e => this.1 (by cases e; rfl), this.2⟩
      · have := ask e ho t _ h
        dsimp only
        split
        · exact ⟨by simp, this.2⟩
        · simp only [addMember]
          cases hn : t.heap[a]? with
          | none => exact ⟨by simp [acted, answer], this.2⟩
          | some n =>
            cases n with
            | obj es => exact ⟨by simp [acted, answer], noZero_set this.2 (by simp)⟩
            | _ => exact ⟨by simp [acted, answer], this.2⟩
  | clone e =>
    have hs' := eval_sound hs e
    simp only [exec]
    rcases h : eval s e with ⟨t, r | ⟨p, a⟩⟩
    · have := ask e ho t _ h; exact ⟨fun e => this.1 (by cases e; rfl), this.2⟩
    · have := ask e ho t _ h
      rw [h] at hs'
      dsimp only at hs' ⊢
      have h4 := clone_spec d t.heap a hs'.edges (eval_lt hs h) hs'.names
      have h5 := read_not_undef this.2 d a
      cases h6 : read t.heap d a with
      | error r => rw [h4.2 r h6]; rw [h6] at h5; exact ⟨by simpa using h5, this.2⟩
      | ok v =>
        obtain ⟨h', b, h7, -, -, -, -⟩ := h4.1 v h6
        rw [h7]
        exact ⟨by simp, clone_noZero this.2 h7⟩
  | merge y z =>
    simp only [exec]
    cases hy : var s y with
    | error r => have := hvar y r hy; subst this; exact ⟨by simp, hz⟩
    | ok a =>
      cases hz' : var s z with
      | error r => have := hvar z r hz'; subst this; exact ⟨by simp, hz⟩
      | ok b =>
        dsimp only
        cases hm : JsonDoc.merge s.heap a b with
        | error r =>
          refine ⟨?_, hz⟩
          unfold JsonDoc.merge at hm
          split at hm <;> cases hm <;> simp
        | ok n =>
          refine ⟨by simp, noZero_push hz ?_⟩
          unfold JsonDoc.merge at hm
          split at hm <;> cases hm
          simp
  | size e =>
    simp only [exec]
    rcases h : eval s e with ⟨t, r | ⟨p, a⟩⟩
    · have := ask e ho t _ h; exact ⟨fun e => this.1 (by cases e; rfl), this.2⟩
    · have := ask e ho t _ h
      simp only [size]
      cases hn : t.heap[a]? with
      | none => exact ⟨by simp [answer], this.2⟩
      | some n => cases n <;> exact ⟨by simp [answer], this.2⟩
  | count e k =>
    simp only [exec]
    rcases h : eval s e with ⟨t, r | ⟨p, a⟩⟩
    · have := ask e ho t _ h; exact ⟨fun e => this.1 (by cases e; rfl), this.2⟩
    · have := ask e ho t _ h
      simp only [count]
      cases hn : t.heap[a]? with
      | none => exact ⟨by simp [answer], this.2⟩
      | some n => cases n <;> exact ⟨by simp [answer], this.2⟩
  | type e =>
    simp only [exec]
    rcases h : eval s e with ⟨t, r | ⟨p, a⟩⟩
    · have := ask e ho t _ h; exact ⟨fun e => this.1 (by cases e; rfl), this.2⟩
    · have := ask e ho t _ h
      simp only [type]
      cases hn : t.heap[a]? with
      | none => exact ⟨by simp [answer], this.2⟩
      | some n =>
        cases n with
        | nothing => exact absurd hn (this.2 a)
        | _ => exact ⟨by simp [answer], this.2⟩
  | print e =>
    simp only [exec]
    rcases h : eval s e with ⟨t, r | ⟨p, a⟩⟩
    · have := ask e ho t _ h; exact ⟨fun e => this.1 (by cases e; rfl), this.2⟩
    · have := ask e ho t _ h
      have h5 := read_not_undef this.2 d a
      dsimp only
      revert h5
      cases read t.heap d a with
      | ok v => intro _; exact ⟨by simp [answer], this.2⟩
      | error r => intro h5; exact ⟨by simpa [answer] using h5, this.2⟩

example : (∀ a : Nat, demo.heap[a]? ≠ some .nothing) ∧ ByName (.print ⟨0, false, [.name [97]]⟩ : Op Unit) := by
  refine ⟨fun a h => ?_, by simp [ByName]⟩
  have := List.mem_of_getElem? h
  simp [demo] at this

end Verif.JsonDoc.Props
