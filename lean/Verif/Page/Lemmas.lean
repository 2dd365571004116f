import Verif.Page.Spec
import Verif.Xhtml.Lemmas
import Verif.Http.Lemmas
namespace Verif.Page.Lemmas
open Verif Verif.Xhtml Verif.Page Verif.Page.Spec

/-! ### Attributes -/

theorem lt_of_not {a b : Str} (h1 : ¬ a < b) (h2 : a ≠ b) : b < a := by
  rcases Std.lt_trichotomy a b with h | h | h
  · exact absurd h h1
  · exact absurd h h2
  · exact h

theorem assign_key (n : Str) (v : Option Str) : ∀ (l : Attrs) (p : Str × Str), p ∈ assign n v l → p.1 = n ∨ ∃ q ∈ l, q.1 = p.1
  | [], p, h => by
    simp only [assign, List.mem_singleton] at h
    exact .inl (by rw [h])
  | (m, w) :: l, p, h => by
    unfold assign at h
    split at h
    · rcases List.mem_cons.1 h with rfl | h
      · exact .inl rfl
      · exact .inr ⟨p, h, rfl⟩
    · split at h
      · rcases List.mem_cons.1 h with rfl | h
        · exact .inr ⟨(m, w), by simp, rfl⟩
        · exact .inr ⟨p, List.mem_cons_of_mem _ h, rfl⟩
      · rcases List.mem_cons.1 h with rfl | h
        · exact .inr ⟨(m, w), by simp, rfl⟩
        · rcases assign_key n v l p h with h | ⟨q, hq, e⟩
          · exact .inl h
          · exact .inr ⟨q, List.mem_cons_of_mem _ hq, e⟩

theorem assign_sorted (n : Str) (v : Option Str) : ∀ l : Attrs, (l.Pairwise fun p q => p.1 < q.1) →
    (assign n v l).Pairwise fun p q => p.1 < q.1
  | [], _ => by simp [assign]
  | (m, w) :: l, h => by
    have h' := List.pairwise_cons.1 h
    unfold assign
    split
    · rename_i hlt
      refine List.pairwise_cons.2 ⟨?_, h⟩
      intro q hq
      rcases List.mem_cons.1 hq with rfl | hq
      · exact hlt
      · exact Std.lt_trans hlt (h'.1 q hq)
    · split
      · exact List.pairwise_cons.2 ⟨h'.1, h'.2⟩
      · rename_i h1 h2
        refine List.pairwise_cons.2 ⟨?_, assign_sorted n v l h'.2⟩
        intro q hq
        rcases assign_key n v l q hq with e | ⟨r, hr, e⟩
        · show m < q.1
          rw [e]; exact lt_of_not h1 h2
        · show m < q.1
          rw [← e]; exact h'.1 r hr

theorem notin_of_lt {l : Attrs} {n : Str} (h : ∀ q ∈ l, n < q.1) (w : Str) : (n, w) ∉ l :=
  fun hm => Std.lt_irrefl (h _ hm)

theorem assign_mem (n : Str) (v : Option Str) (m w : Str) : ∀ l : Attrs, (l.Pairwise fun p q => p.1 < q.1) →
    ((m, w) ∈ assign n v l ↔ if m = n then ∃ o : Option Str, (∀ x, o = some x ↔ (n, x) ∈ l) ∧ w = v.getD (o.getD []) else (m, w) ∈ l)
  | [], _ => by
    simp only [assign, List.mem_singleton, Prod.mk.injEq, List.not_mem_nil, iff_false]
    by_cases h : m = n
    · simp only [h, true_and, if_true]
      constructor
      · rintro rfl; exact ⟨none, by simp, rfl⟩
      · rintro ⟨o, ho, rfl⟩
        cases o with
        | none => rfl
        | some x => exact absurd rfl (ho x)
    · simp [h]
  | (a, b) :: l, hl => by
    have h' := List.pairwise_cons.1 hl
    unfold assign
    split
    · rename_i hlt
      have hn : ∀ x, (n, x) ∉ (a, b) :: l := by
        intro x hx
        rcases List.mem_cons.1 hx with e | hx
        · rw [Prod.mk.injEq] at e; rw [e.1] at hlt; exact Std.lt_irrefl hlt
        · exact Std.lt_irrefl (Std.lt_trans hlt (h'.1 _ hx))
      by_cases h : m = n
      · subst h
        simp only [if_true]
        constructor
        · intro hm
          rcases List.mem_cons.1 hm with e | hm
          · exact ⟨none, fun x => ⟨fun h => (by cases h), fun h => absurd h (hn x)⟩, (Prod.mk.inj e).2⟩
          · exact absurd hm (hn w)
        · rintro ⟨o, ho, rfl⟩
          cases o with
          | none => exact List.mem_cons_self
          | some x => exact absurd ((ho x).1 rfl) (hn x)
      · rw [if_neg h, List.mem_cons]
        exact ⟨fun h1 => h1.resolve_left (fun e => h (Prod.mk.inj e).1), .inr⟩
    · split
      · rename_i _ hna
        subst hna
        have hn : ∀ x, (n, x) ∉ l := notin_of_lt h'.1
        by_cases h : m = n
        · subst h
          simp only [if_true]
          constructor
          · intro hm
            rcases List.mem_cons.1 hm with e | hm
            · refine ⟨some b, ?_, (Prod.mk.inj e).2⟩
              intro x
              rw [List.mem_cons, Option.some.injEq, Prod.mk.injEq]
              exact ⟨fun e => .inl ⟨rfl, e.symm⟩, fun h1 => (h1.resolve_right (hn x)).2.symm⟩
            · exact absurd hm (hn w)
          · rintro ⟨o, ho, rfl⟩
            have : o = some b := (ho b).2 List.mem_cons_self
            rw [this]; exact List.mem_cons_self
        · rw [if_neg h, List.mem_cons, List.mem_cons]
          exact ⟨fun h1 => .inr (h1.resolve_left (fun e => h (Prod.mk.inj e).1)), fun h1 => .inr (h1.resolve_left (fun e => h (Prod.mk.inj e).1))⟩
      · rename_i h1 h2
        rw [List.mem_cons, assign_mem n v m w l h'.2]
        by_cases h : m = n
        · subst h
          simp only [if_true]
          have e0 : ∀ x, (m, x) ∈ (a, b) :: l ↔ (m, x) ∈ l := by
            intro x
            rw [List.mem_cons]
            exact ⟨fun h3 => h3.resolve_left (fun e => h2 (Prod.mk.inj e).1), .inr⟩
          constructor
          · rintro (e | ⟨o, ho, e⟩)
            · exact absurd (Prod.mk.inj e).1 h2
            · exact ⟨o, fun x => (ho x).trans (e0 x).symm, e⟩
          · rintro ⟨o, ho, e⟩
            exact .inr ⟨o, fun x => (ho x).trans (e0 x), e⟩
        · rw [if_neg h, if_neg h, List.mem_cons]

theorem given_append (m : Str) (es es' : List Effect) : given m (es ++ es') = given m es ++ given m es' := by
  unfold given; rw [List.filterMap_append]

theorem valueOf_append_attr (m n : Str) (v : Option Str) (es : List Effect) :
    valueOf m (es ++ [.attr n v]) = if m = n then some (v.getD ((valueOf n es).getD [])) else valueOf m es := by
  by_cases h : m = n
  · subst h
    cases v with
    | some v =>
      unfold valueOf
      rw [given_append]
      simp [given]
    | none =>
      have hg : given m (es ++ [.attr m none]) = given m es := by rw [given_append]; simp [given]
      rw [if_pos rfl]
      unfold valueOf
      rw [List.any_append, hg]
      split
      · split
        · simp
        · rename_i h
          have : given m es = [] := by
            unfold given
            rw [List.filterMap_eq_nil_iff]
            intro e he
            have := List.any_eq_false.1 (Bool.eq_false_iff.2 h) e he
            cases e <;> simp_all
          rw [this]; simp
      · rename_i h; exact absurd h (by simp)
  · have h' : ¬ n = m := fun e => h e.symm
    unfold valueOf
    rw [given_append, List.any_append]
    simp [given, h, h']

theorem valueOf_append_other (m : Str) (e : Effect) (he : e.outside = true) (es : List Effect) : valueOf m (es ++ [e]) = valueOf m es := by
  unfold valueOf given
  rw [List.any_append, List.filterMap_append]
  cases e with
  | attr => cases he
  | xmltag => simp
  | dtd => simp
  | field => simp

/-- What an effect does to the attributes of the innermost tag. -/
def attrEff (l : Attrs) : Effect → Attrs
  | .attr n v => assign n v l
  | _ => l

theorem areAttrs_nil : AreAttrs [] [] := ⟨.nil, by simp [valueOf]⟩

theorem areAttrs_step {l : Attrs} {es : List Effect} (h : AreAttrs l es) (e : Effect) : AreAttrs (attrEff l e) (es ++ [e]) := by
  cases e with
  | attr n v =>
    refine ⟨assign_sorted n v l h.sorted, ?_⟩
    intro m w
    rw [show attrEff l (.attr n v) = assign n v l from rfl, assign_mem n v m w l h.sorted, valueOf_append_attr]
    by_cases hm : m = n
    · simp only [hm, if_true, Option.some.injEq]
      constructor
      · rintro ⟨o, ho, rfl⟩
        have : o = valueOf n es := by
          cases o with
          | some x => exact ((h.values n x).1 ((ho x).1 rfl)).symm
          | none =>
            cases hv : valueOf n es with
            | none => rfl
            | some x => exact absurd ((ho x).2 ((h.values n x).2 hv)) (by simp)
        rw [this]
      · intro e
        exact ⟨valueOf n es, fun x => (h.values n x).symm, e.symm⟩
    · rw [if_neg hm, if_neg hm]; exact h.values m w
  | xmltag s => exact ⟨h.sorted, fun n v => by rw [valueOf_append_other _ _ rfl]; exact h.values n v⟩
  | dtd s => exact ⟨h.sorted, fun n v => by rw [valueOf_append_other _ _ rfl]; exact h.values n v⟩
  | field n v => exact ⟨h.sorted, fun n v => by rw [valueOf_append_other _ _ rfl]; exact h.values n v⟩

theorem areAttrs_foldl : ∀ (es done : List Effect) (l : Attrs), AreAttrs l done → AreAttrs (es.foldl attrEff l) (done ++ es)
  | [], done, l, h => by rw [List.append_nil]; exact h
  | e :: es, done, l, h => by
    have := areAttrs_foldl es (done ++ [e]) (attrEff l e) (areAttrs_step h e)
    rwa [List.append_assoc] at this

/-- Attributes are determined by the effects. -/
theorem areAttrs_unique : ∀ {l l' : Attrs} , (l.Pairwise fun p q => p.1 < q.1) → (l'.Pairwise fun p q => p.1 < q.1) →
    (∀ p, p ∈ l ↔ p ∈ l') → l = l'
  | [], [], _, _, _ => rfl
  | [], p :: l', _, _, h => absurd ((h p).2 List.mem_cons_self) (by simp)
  | p :: l, [], _, _, h => absurd ((h p).1 List.mem_cons_self) (by simp)
  | p :: l, q :: l', h1, h2, h => by
    have h1' := List.pairwise_cons.1 h1
    have h2' := List.pairwise_cons.1 h2
    have e : p = q := by
      rcases List.mem_cons.1 ((h p).1 List.mem_cons_self) with e | hp
      · exact e
      · rcases List.mem_cons.1 ((h q).2 List.mem_cons_self) with e | hq
        · exact e.symm
        · exact absurd (Std.lt_trans (h1'.1 q hq) (h2'.1 p hp)) Std.lt_irrefl
    subst e
    have : l = l' := by
      refine areAttrs_unique h1'.2 h2'.2 fun r => ?_
      constructor
      · intro hr
        rcases List.mem_cons.1 ((h r).1 (List.mem_cons_of_mem _ hr)) with e | hr'
        · subst e; exact absurd (h1'.1 r hr) Std.lt_irrefl
        · exact hr'
      · intro hr
        rcases List.mem_cons.1 ((h r).2 (List.mem_cons_of_mem _ hr)) with e | hr'
        · subst e; exact absurd (h2'.1 r hr) Std.lt_irrefl
        · exact hr'
    rw [this]

/-! ### The stack machine builds the trees -/

/-- What an effect does to the attributes of the open tags. -/
def tagEff (ts : List Attrs) (e : Effect) : List Attrs :=
  match ts with
  | [] => []
  | l :: ts => attrEff l e :: ts

def xmlEff (x : Str) : Effect → Str
  | .xmltag s => s
  | _ => x

def dtdEff (x : Str) : Effect → Str
  | .dtd s => s
  | _ => x

def headEff (h : Http.Header) : Effect → Http.Header
  | .field n v => Http.set n v h
  | _ => h

/-- The state after some statements. -/
structure After (s r : St) (es : List Elem) (done : List Effect) : Prop where
  stk : ∀ v t, s.stk = v :: t → r.stk = (v ++ es) :: t
  tags : r.tags = done.foldl tagEff s.tags
  xmltag : r.xmltag = done.foldl xmlEff s.xmltag
  dtd : r.dtd = done.foldl dtdEff s.dtd
  head : r.head = done.foldl headEff s.head

theorem After.trans {s r q : St} {es es' done done'} (h : After s r es done) (h' : After r q es' done') : After s q (es ++ es') (done ++ done') where
  stk v t e := by rw [h'.stk _ _ (h.stk v t e), List.append_assoc]
  tags := by rw [h'.tags, h.tags, List.foldl_append]
  xmltag := by rw [h'.xmltag, h.xmltag, List.foldl_append]
  dtd := by rw [h'.dtd, h.dtd, List.foldl_append]
  head := by rw [h'.head, h.head, List.foldl_append]

theorem After.refl (s : St) : After s s [] [] := ⟨fun v t h => by rw [h, List.append_nil], rfl, rfl, rfl, rfl⟩

theorem tags_foldl (l : Attrs) (ts : List Attrs) : ∀ es : List Effect, es.foldl tagEff (l :: ts) = es.foldl attrEff l :: ts := by
  intro es
  induction es generalizing l with
  | nil => rfl
  | cons e es ih => simp only [List.foldl_cons, tagEff]; exact ih _

theorem tags_nonempty {ts : List Attrs} (h : ts ≠ []) (es : List Effect) : es.foldl tagEff ts ≠ [] := by
  cases ts with
  | nil => exact absurd rfl h
  | cons l ts => rw [tags_foldl]; simp

theorem tags_outside (ts : List Attrs) (es : List Effect) : (es.filter Effect.outside).foldl tagEff ts = ts := by
  induction es with
  | nil => rfl
  | cons e es ih =>
    rw [List.filter_cons]
    split
    · rename_i h
      rw [List.foldl_cons]
      have : tagEff ts e = ts := by
        cases ts with
        | nil => rfl
        | cons l ts => cases e with
          | attr => cases h
          | _ => rfl
      rw [this]; exact ih
    · exact ih

theorem foldl_outside {β : Type} (f : β → Effect → β) (hf : ∀ b n v, f b (.attr n v) = b) (es : List Effect) :
    ∀ b, (es.filter Effect.outside).foldl f b = es.foldl f b := by
  induction es with
  | nil => intro b; rfl
  | cons e es ih =>
    intro b
    rw [List.filter_cons]
    cases e with
    | attr n v => rw [List.foldl_cons, hf]; exact ih b
    | _ => exact ih _

mutual
theorem exec_draws : ∀ (c : Stmt) (inTag : Bool) (s : St), Compiles inTag c → s.stk ≠ [] → (inTag = true → s.tags ≠ []) →
    ∃ es done l r, exec true c s = some (r, l) ∧ After s r es done ∧
      (∀ cs es' done' l', l = none → Draws cs es' done' l' → Draws (c :: cs) (es ++ es') (done ++ done') l') ∧
      (∀ how cs, l = some how → Draws (c :: cs) es done l)
  | .tag name body, inTag, s, hc, hs, ht => by
    obtain ⟨es, done, l, r, he, ha, hd⟩ := execAll_draws body true { s with stk := [] :: s.stk, tags := [] :: s.tags } hc (by simp) (by simp)
    cases hk : s.stk with
    | nil => exact absurd hk hs
    | cons v t =>
      have h1 : r.stk = es :: v :: t := by have := ha.stk [] s.stk rfl; rw [hk] at this; exact this
      have h2 : r.tags = done.foldl attrEff [] :: s.tags := by rw [ha.tags]; exact tags_foldl _ _ _
      have h3 : AreAttrs (done.foldl attrEff []) done := areAttrs_foldl done [] [] areAttrs_nil
      refine ⟨[.tag name (done.foldl attrEff []) es], done.filter Effect.outside, l,
        { r with stk := (v ++ [.tag name (done.foldl attrEff []) es]) :: t, tags := s.tags }, ?_, ?_, ?_, ?_⟩
      · simp only [exec, construct, enter, if_true, Option.bind_eq_bind, Option.bind_some, he, h2, destroy, leave, h1, push]
      · exact ⟨fun v' t' e => by rw [hk] at e; cases e; rfl, (tags_outside _ _).symm,
          by rw [foldl_outside _ (fun _ _ _ => rfl)]; exact ha.xmltag,
          by rw [foldl_outside _ (fun _ _ _ => rfl)]; exact ha.dtd,
          by rw [foldl_outside _ (fun _ _ _ => rfl)]; exact ha.head⟩
      · intro cs es' done' l' hl hd'
        subst hl
        exact .tag hd h3 hd'
      · intro how cs hl
        subst hl
        exact .tagLeft hd h3
  | .attr n v, inTag, s, hc, hs, ht => by
    have h := ht hc
    cases hk : s.tags with
    | nil => exact absurd hk h
    | cons l ts =>
      refine ⟨[], [.attr n v], none, { s with tags := assign n v l :: ts }, by simp only [exec, hk], ?_, fun cs es' done' l' _ hd' => .attr hd',
        fun how cs h => by cases h⟩
      exact ⟨fun v' t' e => by rw [List.append_nil]; exact e, by rw [hk]; rfl, rfl, rfl, rfl⟩
  | .text t, inTag, s, hc, hs, ht => by
    cases hk : s.stk with
    | nil => exact absurd hk hs
    | cons v k =>
      refine ⟨[.text t], [], none, { s with stk := (v ++ [.text t]) :: k }, by simp [exec, hk, push], ?_, fun cs es' done' l' _ hd' => .text hd',
        fun how cs h => by cases h⟩
      exact ⟨fun v' t' e => by rw [hk] at e; cases e; rfl, rfl, rfl, rfl, rfl⟩
  | .prim t, inTag, s, hc, hs, ht => by
    cases hk : s.stk with
    | nil => exact absurd hk hs
    | cons v k =>
      refine ⟨[.prim t], [], none, { s with stk := (v ++ [.prim t]) :: k }, by simp [exec, hk, push], ?_, fun cs es' done' l' _ hd' => .prim hd',
        fun how cs h => by cases h⟩
      exact ⟨fun v' t' e => by rw [hk] at e; cases e; rfl, rfl, rfl, rfl, rfl⟩
  | .xmltag t, inTag, s, hc, hs, ht => by
    refine ⟨[], [.xmltag t], none, { s with xmltag := t }, rfl, ?_, fun cs es' done' l' _ hd' => .xmltag hd', fun how cs h => by cases h⟩
    exact ⟨fun v' t' e => by rw [List.append_nil]; exact e, by cases h : s.tags <;> rfl, rfl, rfl, rfl⟩
  | .dtd t, inTag, s, hc, hs, ht => by
    refine ⟨[], [.dtd t], none, { s with dtd := t }, rfl, ?_, fun cs es' done' l' _ hd' => .dtd hd', fun how cs h => by cases h⟩
    exact ⟨fun v' t' e => by rw [List.append_nil]; exact e, by cases h : s.tags <;> rfl, rfl, rfl, rfl⟩
  | .field n v, inTag, s, hc, hs, ht => by
    refine ⟨[], [.field n v], none, { s with head := Http.set n v s.head }, rfl, ?_, fun cs es' done' l' _ hd' => .field hd', fun how cs h => by cases h⟩
    exact ⟨fun v' t' e => by rw [List.append_nil]; exact e, by cases h : s.tags <;> rfl, rfl, rfl, rfl⟩
  | .leave how, inTag, s, hc, hs, ht =>
    ⟨[], [], some how, s, rfl, .refl s, (fun cs es' done' l' h => by cases h), (fun how' cs h => by cases h; exact .leave)⟩
  | .guard how body handler, inTag, s, hc, hs, ht => by
    have hc' : CompilesAll (inTag && how ≠ .ret) body ∧ CompilesAll inTag handler := by simpa only [Compiles] using hc
    obtain ⟨es, done, l, r, he, ha, hd⟩ := execAll_draws body _ s hc'.1 hs (fun h => ht (by
      rw [Bool.and_eq_true] at h; exact h.1))
    by_cases hl : l = some how
    · subst hl
      have hr1 : r.stk ≠ [] := by
        cases hk : s.stk with
        | nil => exact absurd hk hs
        | cons v k => rw [ha.stk v k hk]; simp
      obtain ⟨es2, done2, l2, r2, he2, ha2, hd2⟩ := execAll_draws handler inTag r hc'.2 hr1 (fun h => by
        rw [ha.tags]; exact tags_nonempty (ht h) _)
      refine ⟨es ++ es2, done ++ done2, l2, r2, by simp [exec, he, he2], ha.trans ha2, ?_, ?_⟩
      · intro cs es' done' l' hl' hd'
        subst hl'
        exact .guardStop hd hd2 hd'
      · intro how' cs hl'
        subst hl'
        exact .guardAgain hd hd2
    · refine ⟨es, done, l, r, by simp [exec, he, hl], ha, ?_, ?_⟩
      · intro cs es' done' l' hl' hd'
        subst hl'
        exact .guard hd hd'
      · intro how' cs hl'
        subst hl'
        exact .guardPass hd (fun e => hl (by rw [e]))

theorem execAll_draws : ∀ (cs : List Stmt) (inTag : Bool) (s : St), CompilesAll inTag cs → s.stk ≠ [] → (inTag = true → s.tags ≠ []) →
    ∃ es done l r, execAll true cs s = some (r, l) ∧ After s r es done ∧ Draws cs es done l
  | [], inTag, s, hc, hs, ht => ⟨[], [], none, s, rfl, .refl s, .nil⟩
  | c :: cs, inTag, s, hc, hs, ht => by
    obtain ⟨es, done, l, r, he, ha, h1, h2⟩ := exec_draws c inTag s hc.1 hs ht
    cases l with
    | some how => exact ⟨es, done, some how, r, by simp [execAll, he], ha, h2 how cs rfl⟩
    | none =>
      have hr1 : r.stk ≠ [] := by
        cases hk : s.stk with
        | nil => exact absurd hk hs
        | cons v k => rw [ha.stk v k hk]; simp
      obtain ⟨es2, done2, l2, r2, he2, ha2, hd2⟩ := execAll_draws cs inTag r hc.2 hr1 (fun h => by
        rw [ha.tags]; exact tags_nonempty (ht h) _)
      exact ⟨es ++ es2, done ++ done2, l2, r2, by simp [execAll, he, he2], ha.trans ha2, h1 _ _ _ _ rfl hd2⟩
end

/-! ### One page -/

theorem draws_unique : ∀ {cs es done l}, Draws cs es done l → ∀ {es' done' l'}, Draws cs es' done' l' → es = es' ∧ done = done' ∧ l = l' := by
  intro cs es done l h
  induction h with
  | nil => intro es' done' l' h'; cases h'; exact ⟨rfl, rfl, rfl⟩
  | tag _ ha _ ih1 ih2 =>
    intro es' done' l' h'
    cases h' with
    | tag h1 ha' h2 =>
      obtain ⟨rfl, rfl, _⟩ := ih1 h1
      obtain ⟨rfl, rfl, rfl⟩ := ih2 h2
      rw [areAttrs_unique ha.sorted ha'.sorted fun p => (ha.values p.1 p.2).trans (ha'.values p.1 p.2).symm]
      exact ⟨rfl, rfl, rfl⟩
    | tagLeft h1 _ => have := (ih1 h1).2.2; cases this
  | tagLeft _ ha ih1 =>
    intro es' done' l' h'
    cases h' with
    | tag h1 ha' h2 => have := (ih1 h1).2.2; cases this
    | tagLeft h1 ha' =>
      obtain ⟨rfl, rfl, e⟩ := ih1 h1
      cases e
      rw [areAttrs_unique ha.sorted ha'.sorted fun p => (ha.values p.1 p.2).trans (ha'.values p.1 p.2).symm]
      exact ⟨rfl, rfl, rfl⟩
  | text _ ih => intro es' done' l' h'; cases h' with | text h1 => obtain ⟨rfl, rfl, rfl⟩ := ih h1; exact ⟨rfl, rfl, rfl⟩
  | prim _ ih => intro es' done' l' h'; cases h' with | prim h1 => obtain ⟨rfl, rfl, rfl⟩ := ih h1; exact ⟨rfl, rfl, rfl⟩
  | attr _ ih => intro es' done' l' h'; cases h' with | attr h1 => obtain ⟨rfl, rfl, rfl⟩ := ih h1; exact ⟨rfl, rfl, rfl⟩
  | xmltag _ ih => intro es' done' l' h'; cases h' with | xmltag h1 => obtain ⟨rfl, rfl, rfl⟩ := ih h1; exact ⟨rfl, rfl, rfl⟩
  | dtd _ ih => intro es' done' l' h'; cases h' with | dtd h1 => obtain ⟨rfl, rfl, rfl⟩ := ih h1; exact ⟨rfl, rfl, rfl⟩
  | field _ ih => intro es' done' l' h'; cases h' with | field h1 => obtain ⟨rfl, rfl, rfl⟩ := ih h1; exact ⟨rfl, rfl, rfl⟩
  | leave => intro es' done' l' h'; cases h'; exact ⟨rfl, rfl, rfl⟩
  | guard _ _ ih1 ih2 =>
    intro es' done' l' h'
    cases h' with
    | guard h1 h2 =>
      obtain ⟨rfl, rfl, _⟩ := ih1 h1
      obtain ⟨rfl, rfl, rfl⟩ := ih2 h2
      exact ⟨rfl, rfl, rfl⟩
    | guardPass h1 _ => have := (ih1 h1).2.2; cases this
    | guardStop h1 _ _ => have := (ih1 h1).2.2; cases this
    | guardAgain h1 _ => have := (ih1 h1).2.2; cases this
  | guardPass _ hne ih1 =>
    intro es' done' l' h'
    cases h' with
    | guard h1 h2 => have := (ih1 h1).2.2; cases this
    | guardPass h1 _ => obtain ⟨rfl, rfl, e⟩ := ih1 h1; exact ⟨rfl, rfl, e⟩
    | guardStop h1 _ _ => have := (ih1 h1).2.2; cases this; exact absurd rfl hne
    | guardAgain h1 _ => have := (ih1 h1).2.2; cases this; exact absurd rfl hne
  | guardStop _ _ _ ih1 ih2 ih3 =>
    intro es' done' l' h'
    cases h' with
    | guard h1 h2 => have := (ih1 h1).2.2; cases this
    | guardPass h1 hne => have := (ih1 h1).2.2; cases this; exact absurd rfl hne
    | guardStop h1 h2 h3 =>
      obtain ⟨rfl, rfl, _⟩ := ih1 h1
      obtain ⟨rfl, rfl, _⟩ := ih2 h2
      obtain ⟨rfl, rfl, rfl⟩ := ih3 h3
      exact ⟨rfl, rfl, rfl⟩
    | guardAgain h1 h2 => have := (ih2 h2).2.2; cases this
  | guardAgain _ _ ih1 ih2 =>
    intro es' done' l' h'
    cases h' with
    | guard h1 h2 => have := (ih1 h1).2.2; cases this
    | guardPass h1 hne => have := (ih1 h1).2.2; cases this; exact absurd rfl hne
    | guardStop h1 h2 h3 => have := (ih2 h2).2.2; cases this
    | guardAgain h1 h2 =>
      obtain ⟨rfl, rfl, _⟩ := ih1 h1
      obtain ⟨rfl, rfl, e⟩ := ih2 h2
      exact ⟨rfl, rfl, e⟩

/-! ### Reading -/

theorem valueOf_mem {n v : Str} {es : List Effect} (h : valueOf n es = some v) : ∃ w, Effect.attr n w ∈ es := by
  unfold valueOf at h
  split at h
  · rename_i ha
    obtain ⟨e, he, h'⟩ := List.any_eq_true.1 ha
    cases e with
    | attr m w => simp only [decide_eq_true_eq] at h'; subst h'; exact ⟨w, he⟩
    | _ => cases h'
  · cases h

theorem okAll_append : ∀ {a b : List Elem}, Xhtml.Spec.OkAll a → Xhtml.Spec.OkAll b → Xhtml.Spec.OkAll (a ++ b)
  | [], _, _, hb => hb
  | _ :: _, _, ha, hb => ⟨ha.1, okAll_append ha.2 hb⟩

theorem draws_ok : ∀ {cs es done l}, Draws cs es done l → PlainAll cs →
    Xhtml.Spec.OkAll es ∧ ∀ n v, Effect.attr n v ∈ done → Xhtml.Spec.Name n := by
  intro cs es done l h
  induction h with
  | nil => intro _; exact ⟨trivial, fun n v h => by cases h⟩
  | tag _ ha _ ih1 ih2 =>
    intro hp
    have h1 := ih1 hp.1.2
    have h2 := ih2 hp.2
    refine ⟨⟨⟨hp.1.1, ?_, h1.1⟩, h2.1⟩, ?_⟩
    · intro p hp'
      obtain ⟨w, hw⟩ := valueOf_mem ((ha.values p.1 p.2).1 hp')
      exact h1.2 _ _ hw
    · intro n v hm
      rcases List.mem_append.1 hm with hm | hm
      · exact h1.2 n v (List.mem_filter.1 hm).1
      · exact h2.2 n v hm
  | tagLeft _ ha ih1 =>
    intro hp
    have h1 := ih1 hp.1.2
    refine ⟨⟨⟨hp.1.1, ?_, h1.1⟩, trivial⟩, fun n v hm => h1.2 n v (List.mem_filter.1 hm).1⟩
    intro p hp'
    obtain ⟨w, hw⟩ := valueOf_mem ((ha.values p.1 p.2).1 hp')
    exact h1.2 _ _ hw
  | text _ ih => intro hp; have h := ih hp.2; exact ⟨⟨trivial, h.1⟩, h.2⟩
  | prim _ ih => intro hp; exact hp.1.elim
  | attr _ ih =>
    intro hp
    have h := ih hp.2
    refine ⟨h.1, fun n v hm => ?_⟩
    rcases List.mem_cons.1 hm with e | hm
    · cases e; exact hp.1
    · exact h.2 n v hm
  | xmltag _ ih =>
    intro hp; have h := ih hp.2
    exact ⟨h.1, fun n v hm => h.2 n v ((List.mem_cons.1 hm).resolve_left (fun e => by cases e))⟩
  | dtd _ ih =>
    intro hp; have h := ih hp.2
    exact ⟨h.1, fun n v hm => h.2 n v ((List.mem_cons.1 hm).resolve_left (fun e => by cases e))⟩
  | field _ ih =>
    intro hp; have h := ih hp.2
    exact ⟨h.1, fun n v hm => h.2 n v ((List.mem_cons.1 hm).resolve_left (fun e => by cases e))⟩
  | leave => intro _; exact ⟨trivial, fun n v h => by cases h⟩
  | guard _ _ ih1 ih2 =>
    intro hp
    have h1 := ih1 hp.1.1
    have h2 := ih2 hp.2
    exact ⟨okAll_append h1.1 h2.1, fun n v hm => (List.mem_append.1 hm).elim (h1.2 n v) (h2.2 n v)⟩
  | guardPass _ _ ih1 => intro hp; exact ih1 hp.1.1
  | guardStop _ _ _ ih1 ih2 ih3 =>
    intro hp
    have h1 := ih1 hp.1.1
    have h2 := ih2 hp.1.2
    have h3 := ih3 hp.2
    exact ⟨okAll_append (okAll_append h1.1 h2.1) h3.1,
      fun n v hm => (List.mem_append.1 hm).elim (fun hm => (List.mem_append.1 hm).elim (h1.2 n v) (h2.2 n v)) (h3.2 n v)⟩
  | guardAgain _ _ ih1 ih2 =>
    intro hp
    have h1 := ih1 hp.1.1
    have h2 := ih2 hp.1.2
    exact ⟨okAll_append h1.1 h2.1, fun n v hm => (List.mem_append.1 hm).elim (h1.2 n v) (h2.2 n v)⟩

theorem flatMap_pretty (es : List Elem) : es.flatMap (pretty 0) = prettyAll 0 es := by
  induction es with
  | nil => rfl
  | cons e es ih => rw [List.flatMap_cons, ih, prettyAll]

theorem pages_read {es : List Elem} (h : Xhtml.Spec.OkAll es) :
    Xhtml.Spec.read (es.flatMap (pretty 0) ++ [10]) = some (Xhtml.Spec.eventsAll es ++ [.char 10]) := by
  rw [flatMap_pretty]
  exact Xhtml.Lemmas.read_of_steps ((Xhtml.Lemmas.prettyAll_steps 0 es h).trans (.cons rfl))

theorem pages_nested (es : List Elem) : Xhtml.Spec.nested [] (Xhtml.Spec.eventsAll es) = true := by
  have := Xhtml.Lemmas.nested_eventsAll es [] []
  rw [List.append_nil] at this
  rw [this]; rfl

/-! ### The members -/

theorem foldl_last {β : Type} (f : Effect → Option β) (g : β → Effect → β) (hg : ∀ b e, g b e = (f e).getD b) :
    ∀ (es : List Effect) (b : β), es.foldl g b = ((es.filterMap f).getLast?).getD b := by
  intro es
  induction es with
  | nil => intro b; rfl
  | cons e es ih =>
    intro b
    rw [List.foldl_cons, ih, hg]
    cases h : f e with
    | none => rw [List.filterMap_cons_none h]; rfl
    | some x =>
      rw [List.filterMap_cons_some h]
      cases h' : es.filterMap f with
      | nil => rfl
      | cons y ys => rw [List.getLast?_cons_cons]; cases hl : (y :: ys).getLast? with
        | none => simp at hl
        | some z => rfl

theorem xmltag_foldl (done : List Effect) : done.foldl xmlEff defaultXmltag = xmltagOf done :=
  foldl_last _ xmlEff (fun b e => by cases e <;> rfl) done _

theorem dtd_foldl (done : List Effect) : done.foldl dtdEff defaultDtd = dtdOf done :=
  foldl_last _ dtdEff (fun b e => by cases e <;> rfl) done _

theorem fieldOf_set (k v : Str) (h : Http.Header) (n : Str) :
    Cgi.Spec.fieldOf (Http.set k v h) n = if Http.Spec.fold k = Http.Spec.fold n then some v else Cgi.Spec.fieldOf h n :=
  Http.Lemmas.lookup_update k (fun _ => v) h n

theorem head_foldl (n : Str) : ∀ (done : List Effect) (h : Http.Header),
    Cgi.Spec.fieldOf (done.foldl headEff h) n = (fieldGiven n done).or (Cgi.Spec.fieldOf h n) := by
  intro done
  induction done with
  | nil => intro h; rfl
  | cons e es ih =>
    intro h
    rw [List.foldl_cons, ih]
    unfold fieldGiven
    cases e with
    | field m v =>
      rw [show headEff h (.field m v) = Http.set m v h from rfl, fieldOf_set]
      by_cases hm : Http.Spec.fold m = Http.Spec.fold n
      · rw [if_pos hm, List.filterMap_cons_some (b := v) (by simp [hm])]
        cases h' : es.filterMap _ with
        | nil => rfl
        | cons y ys => rw [List.getLast?_cons_cons]; cases hl : (y :: ys).getLast? with
          | none => simp at hl
          | some z => rfl
      · rw [if_neg hm, List.filterMap_cons_none (by simp [hm])]
    | attr => rfl
    | xmltag => rfl
    | dtd => rfl

theorem head_nofield (done : List Effect) (hf : ∀ n v, Effect.field n v ∉ done) (h : Http.Header) : done.foldl headEff h = h := by
  induction done generalizing h with
  | nil => rfl
  | cons e es ih =>
    rw [List.foldl_cons]
    have e1 : headEff h e = h := by
      cases e with
      | field n v => exact absurd List.mem_cons_self (hf n v)
      | _ => rfl
    rw [e1]
    exact ih (fun n v hm => hf n v (List.mem_cons_of_mem _ hm)) h

/-! ### The call -/

seal defaultDtd defaultXmltag in
theorem run_draws (cs : List Stmt) (hc : CompilesAll false cs) (o : Obj) (head : Http.Header) :
    ∃ es done l, Draws cs es done l ∧ (run true cs o head).2 =
      if l = some .exc then .thrown else .done (done.foldl headEff (htmlHead head)) (write (xmltagOf done) (dtdOf done) es) := by
  obtain ⟨es, done, l, r, he, ha, hd⟩ := execAll_draws cs false
    { stk := [[]], xmltag := defaultXmltag, dtd := defaultDtd, head := htmlHead head } hc (by simp) (fun h => by cases h)
  refine ⟨es, done, l, hd, ?_⟩
  have h1 : r.stk = [es] := ha.stk [] [] rfl
  have h2 : r.xmltag = xmltagOf done := ha.xmltag.trans (xmltag_foldl done)
  have h3 : r.dtd = dtdOf done := ha.dtd.trans (dtd_foldl done)
  have h4 := ha.head
  simp only [run, he]
  split
  · rfl
  · rw [h1]
    dsimp only
    rw [h2, h3, h4]

/-! ### Without elision -/

theorem destroy_length {n as stk r} (h : destroy n as stk = some r) : r.length + 1 = stk.length := by
  unfold destroy at h
  cases stk with
  | nil => cases h
  | cons v stk =>
    cases stk with
    | nil => cases h
    | cons w stk =>
      simp only [leave, push, Option.bind_eq_bind, Option.bind_some] at h
      cases h
      rfl

theorem push_length {e stk r} (h : push e stk = some r) : r.length = stk.length := by
  cases stk with
  | nil => cases h
  | cons v stk => simp only [push] at h; cases h; rfl

mutual
theorem exec_copy : ∀ (c : Stmt) (s : St), s.stk.length = 1 →
    (∀ r l, exec false c s = some (r, l) → r.stk.length = 1) ∧ ∀ n body, c = .tag n body → exec false c s = none
  | .tag name body, s, hs => by
    have h : exec false (.tag name body) s = none := by
      cases hx : exec false (.tag name body) s with
      | none => rfl
      | some r =>
        simp only [exec, construct, Bool.false_eq_true, if_false, Option.bind_eq_bind, Option.bind_eq_some_iff] at hx
        obtain ⟨stk, h1, ⟨s1, l⟩, h2, h3⟩ := hx
        have e1 := destroy_length h1
        have e2 := execAll_copy body { s with stk := stk, tags := [] :: s.tags } (by
          simp only [enter, List.length_cons] at e1
          show stk.length = 1
          omega) s1 l h2
        dsimp only at h3
        cases ht : s1.tags with
        | nil => rw [ht] at h3; cases h3
        | cons as ts =>
          rw [ht] at h3
          simp only [Option.bind_eq_some_iff] at h3
          obtain ⟨stk2, h4, h5⟩ := h3
          have e3 := destroy_length h4
          have : stk2 = [] := List.eq_nil_of_length_eq_zero (by omega)
          subst this
          match hk : s1.stk, e2 with
          | [v], _ => rw [hk] at h4; cases h4
    exact ⟨fun r l hx => by rw [h] at hx; (cases hx), fun _ _ _ => h⟩
  | .attr n v, s, hs => by
    refine ⟨fun r l hx => ?_, fun n body h => by cases h⟩
    unfold exec at hx
    split at hx
    · cases hx
    · cases hx; exact hs
  | .text t, s, hs => by
    refine ⟨fun r l hx => ?_, fun n body h => by cases h⟩
    simp only [exec, Option.bind_eq_bind, Option.bind_eq_some_iff] at hx
    obtain ⟨stk, h1, h2⟩ := hx
    cases h2
    exact (push_length h1).trans hs
  | .prim t, s, hs => by
    refine ⟨fun r l hx => ?_, fun n body h => by cases h⟩
    simp only [exec, Option.bind_eq_bind, Option.bind_eq_some_iff] at hx
    obtain ⟨stk, h1, h2⟩ := hx
    cases h2
    exact (push_length h1).trans hs
  | .xmltag t, s, hs => ⟨(fun r l hx => by cases hx; exact hs), fun n body h => by cases h⟩
  | .dtd t, s, hs => ⟨(fun r l hx => by cases hx; exact hs), fun n body h => by cases h⟩
  | .field n v, s, hs => ⟨(fun r l hx => by cases hx; exact hs), fun n body h => by cases h⟩
  | .leave how, s, hs => ⟨(fun r l hx => by cases hx; exact hs), fun n body h => by cases h⟩
  | .guard how body handler, s, hs => by
    refine ⟨fun r l hx => ?_, fun n body h => by cases h⟩
    simp only [exec, Option.bind_eq_bind, Option.bind_eq_some_iff] at hx
    obtain ⟨⟨s1, l1⟩, h1, h2⟩ := hx
    have e1 := execAll_copy body s hs s1 l1 h1
    dsimp only at h2
    split at h2
    · exact execAll_copy handler s1 e1 r l h2
    · cases h2; exact e1

theorem execAll_copy : ∀ (cs : List Stmt) (s : St), s.stk.length = 1 → ∀ r l, execAll false cs s = some (r, l) → r.stk.length = 1
  | [], s, hs, r, l, h => by cases h; exact hs
  | c :: cs, s, hs, r, l, h => by
    simp only [execAll, Option.bind_eq_bind, Option.bind_eq_some_iff] at h
    obtain ⟨⟨s1, l1⟩, h1, h2⟩ := h
    have e1 := (exec_copy c s hs).1 s1 l1 h1
    dsimp only at h2
    cases l1 with
    | some l1 => cases h2; exact e1
    | none => exact execAll_copy cs s1 e1 r l h2
end

end Verif.Page.Lemmas
