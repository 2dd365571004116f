import Verif.Dns.Spec
/-! Auxiliary lemmas on the resolver cache (no claims). -/

namespace Verif.Dns.Lemmas
open Verif Verif.Dns Verif.Dns.Spec Verif.AssocMap

/-- The element of the index that belongs to an entry. -/
def flip (e : Key × (List Addr × Int)) : Int × Key := (e.2.2, e.1)

/-- In every interleaving: one entry for each key, and each has its element in the index. -/
structure Weak (s : St) : Prop where
  nodup : (s.cache.map (·.1)).Nodup
  sub : ∀ e ∈ s.cache, flip e ∈ s.index

/-- Without interleaving: the index belongs to the entries exactly. -/
structure Strong (s : St) : Prop where
  nodup : (s.cache.map (·.1)).Nodup
  perm : s.index.Perm (s.cache.map flip)

theorem insert_perm (x : Int × Key) (l : List (Int × Key)) : (Dns.insert x l).Perm (x :: l) := by
  induction l with
  | nil => exact .refl _
  | cons y l ih =>
    rw [Dns.insert]
    split
    · exact .refl _
    · exact (ih.cons y).trans (.swap x y l)

theorem mem_insert (x y : Int × Key) (l : List (Int × Key)) : y ∈ Dns.insert x l ↔ y = x ∨ y ∈ l := by
  rw [(insert_perm x l).mem_iff, List.mem_cons]

theorem mem_eraseAll (x y : Int × Key) (l : List (Int × Key)) : y ∈ eraseAll x l ↔ y ∈ l ∧ y ≠ x := by
  unfold eraseAll; simp [List.mem_filter]

theorem mem_erase (m : List (Key × (List Addr × Int))) (k : Key) (e : Key × (List Addr × Int)) : e ∈ erase m k ↔ e ∈ m ∧ e.1 ≠ k := by
  unfold erase; simp [List.mem_filter]

theorem eq_of_key {m : List (Key × (List Addr × Int))} (hn : (m.map (·.1)).Nodup) {e f : Key × (List Addr × Int)} (he : e ∈ m) (hf : f ∈ m)
    (h : e.1 = f.1) : e = f := by
  obtain ⟨k, x⟩ := e
  obtain ⟨k', y⟩ := f
  simp only at h
  subst h
  have h1 := (find_eq_some_iff hn).mpr he
  have h2 := (find_eq_some_iff hn).mpr hf
  rw [h1] at h2
  simp only [Option.some.injEq] at h2
  rw [h2]

/-! Every interleaving. -/

theorem weak_erase {s : St} (h : Weak s) (key : Key) (t : Int) : Weak { cache := erase s.cache key, index := eraseAll (t, key) s.index } := by
  refine ⟨nodup_erase h.nodup key, ?_⟩
  intro e he
  rw [mem_erase] at he
  rw [mem_eraseAll]
  exact ⟨h.sub e he.1, fun hh => he.2 (by rw [flip, Prod.mk.injEq] at hh; exact hh.2)⟩

theorem weak_upsert {s : St} (h : Weak s) (key : Key) (r : List Addr) (cur : Int) :
    Weak { cache := upsert s.cache key (r, cur), index := Dns.insert (cur, key) s.index } := by
  refine ⟨nodup_upsert h.nodup key _, ?_⟩
  intro e he
  rw [upsert, List.mem_cons, mem_erase] at he
  rw [mem_insert]
  rcases he with rfl | he
  · left; rfl
  · right; exact h.sub e he.1

theorem erase_upsert (m : List (Key × (List Addr × Int))) (k : Key) (x : List Addr × Int) : erase (upsert m k x) k = erase m k := by
  unfold upsert erase
  simp

theorem upsert_erase (m : List (Key × (List Addr × Int))) (k : Key) (x : List Addr × Int) : upsert (erase m k) k x = upsert m k x := by
  unfold upsert erase
  simp [List.filter_filter]

theorem weak_lookup {s : St} (h : Weak s) (expire cur : Int) (key : Key) : Weak (lookup expire cur key s).2 := by
  unfold lookup
  split
  · exact h
  · rename_i r t hf
    have h2 := weak_upsert (weak_erase h key t) key r cur
    simp only [upsert_erase] at h2
    simp only
    split
    · exact h2
    · exact weak_erase h2 key cur

theorem weak_evict (checked : Bool) (max : Int) (cache : List (Key × (List Addr × Int))) (index : List (Int × Key))
    (h : Weak ⟨cache, index⟩) (hm : 0 < max) :
    (∃ s, evict checked max cache index = .ok s ∧ Weak s ∧ (s.cache.length : Int) < max ∧ (∀ e ∈ s.cache, e ∈ cache)) ∨
      (checked = true ∧ evict checked max cache index = .error .assertion) := by
  induction index generalizing cache with
  | nil =>
    have : cache = [] := by
      cases cache with
      | nil => rfl
      | cons e c => exact absurd (h.sub e (by simp)) (by simp)
    subst this
    left
    rw [evict, if_neg (by simpa using hm)]
    exact ⟨_, rfl, h, by simpa using hm, by simp⟩
  | cons x rest ih =>
    rw [evict]
    split
    · split
      · rename_i hc
        right
        simp only [Bool.and_eq_true] at hc
        exact ⟨hc.1, rfl⟩
      · have hw : Weak ⟨erase cache x.2, rest⟩ := by
          refine ⟨nodup_erase h.nodup _, ?_⟩
          intro e he
          rw [mem_erase] at he
          have := h.sub e he.1
          simp only [List.mem_cons] at this
          rcases this with hh | hh
          · exact absurd (by rw [← hh]; rfl) he.2
          · exact hh
        rcases ih _ hw with ⟨s, h1, h2, h3, h4⟩ | hh
        · left
          exact ⟨s, h1, h2, h3, fun e he => ((mem_erase _ _ _).mp (h4 e he)).1⟩
        · right; exact hh
    · rename_i hc
      left
      exact ⟨_, rfl, h, by simp only; omega, fun e he => he⟩

theorem length_upsert_le (m : List (Key × (List Addr × Int))) (k : Key) (x : List Addr × Int) : (upsert m k x).length ≤ m.length + 1 := by
  unfold upsert erase
  have := List.length_filter_le (fun e : Key × (List Addr × Int) => decide (e.1 ≠ k)) m
  simp only [List.length_cons]
  omega

theorem weak_store (checked : Bool) (max cur : Int) (key : Key) (ret : List Addr) {s : St} (h : Weak s) (hm : 0 < max) :
    (∃ s', store checked max cur key ret s = .ok s' ∧ Weak s' ∧ (s'.cache.length : Int) ≤ max ∧
      (∀ e ∈ s'.cache, e ∈ s.cache ∨ e = (key, ret, cur))) ∨
      (checked = true ∧ store checked max cur key ret s = .error .assertion) := by
  unfold store
  rcases weak_evict checked max s.cache s.index h hm with ⟨t, e, h1, h2, h3⟩ | ⟨h1, e⟩
  · left
    rw [e]
    refine ⟨_, rfl, weak_upsert h1 key ret cur, ?_, ?_⟩
    · have := length_upsert_le t.cache key (ret, cur)
      simp only
      omega
    · intro e he
      simp only [upsert, List.mem_cons, mem_erase] at he
      rcases he with he | he
      · right; exact he
      · left; exact h3 e he.1
  · right
    rw [e]; exact ⟨h1, rfl⟩

theorem lookup_length (expire cur : Int) (key : Key) (s : St) : (lookup expire cur key s).2.cache.length ≤ s.cache.length := by
  unfold lookup
  split
  · exact Nat.le_refl _
  · rename_i r t hf
    have hm : key ∈ s.cache.map (·.1) := find_isSome_iff.mp (by rw [hf]; rfl)
    have hlt : (erase s.cache key).length < s.cache.length := by
      unfold erase
      apply List.length_filter_lt_length_iff_exists.mpr
      obtain ⟨e, he, rfl⟩ := List.mem_map.mp hm
      exact ⟨e, he, by simp⟩
    simp only
    split
    · simp only [upsert, List.length_cons]; omega
    · simp only [erase_upsert]; omega

/-- Each entry is an answer of the resolver. -/
def Genuine (log : List (Key × List Addr)) (s : St) : Prop := ∀ e ∈ s.cache, (e.1, e.2.1) ∈ log

theorem lookup_genuine {log : List (Key × List Addr)} {s : St} (hw : Weak s) (h : Genuine log s) (expire cur : Int) (key : Key) :
    Genuine log (lookup expire cur key s).2 ∧ ∀ r, (lookup expire cur key s).1 = some r → (key, r) ∈ log := by
  unfold lookup
  split
  · exact ⟨h, by simp⟩
  · rename_i r t hf
    have hm : (key, r) ∈ log := h _ ((find_eq_some_iff hw.nodup).mp hf)
    have hu : ∀ e ∈ upsert s.cache key (r, cur), (e.1, e.2.1) ∈ log := by
      intro e he
      simp only [upsert, List.mem_cons, mem_erase] at he
      rcases he with rfl | he
      · exact hm
      · exact h e he.1
    simp only
    split
    · exact ⟨hu, by rintro x ⟨⟩; exact hm⟩
    · exact ⟨fun e he => hu e ((mem_erase _ _ _).mp he).1, by simp⟩

/-! Calls one after the other. -/

theorem strong_weak {s : St} (h : Strong s) : Weak s :=
  ⟨h.nodup, fun e he => h.perm.mem_iff.mpr (List.mem_map_of_mem he)⟩

theorem filter_flip {m : List (Key × (List Addr × Int))} (hn : (m.map (·.1)).Nodup) {e : Key × (List Addr × Int)} (he : e ∈ m) :
    (m.map flip).filter (· ≠ flip e) = (erase m e.1).map flip := by
  unfold erase
  rw [List.filter_map]
  congr 1
  apply List.filter_congr
  intro f hf
  simp only [Function.comp_apply, decide_eq_decide]
  constructor
  · intro h1 h2; exact h1 (by rw [eq_of_key hn hf he h2])
  · intro h1 h2; apply h1; simp only [flip, Prod.mk.injEq] at h2; exact h2.2

theorem strong_erase {s : St} (h : Strong s) {key : Key} {r : List Addr} {t : Int} (hf : find s.cache key = some (r, t)) :
    Strong { cache := erase s.cache key, index := eraseAll (t, key) s.index } := by
  refine ⟨nodup_erase h.nodup key, ?_⟩
  have he := (find_eq_some_iff h.nodup).mp hf
  have := h.perm.filter (· ≠ flip (key, (r, t)))
  rw [filter_flip h.nodup he] at this
  exact this

theorem strong_insert {s : St} (h : Strong s) {key : Key} (hk : key ∉ s.cache.map (·.1)) (r : List Addr) (cur : Int) :
    Strong { cache := upsert s.cache key (r, cur), index := Dns.insert (cur, key) s.index } := by
  refine ⟨nodup_upsert h.nodup key _, ?_⟩
  simp only [upsert, erase_of_not_mem hk]
  exact (insert_perm _ _).trans (h.perm.cons _)

theorem find_erase_self (m : List (Key × (List Addr × Int))) (k : Key) : k ∉ (erase m k).map (·.1) := by
  rw [keys_erase]; simp

theorem strong_lookup {s : St} (h : Strong s) (expire cur : Int) (key : Key) : Strong (lookup expire cur key s).2 ∧
    ((lookup expire cur key s).1 = none → key ∉ (lookup expire cur key s).2.cache.map (·.1)) := by
  unfold lookup
  split
  · rename_i hf
    exact ⟨h, fun _ => find_eq_none_iff.mp hf⟩
  · rename_i r t hf
    have h1 := strong_erase h hf
    have h2 := strong_insert h1 (key := key) (find_erase_self _ _) r cur
    simp only [upsert_erase] at h2
    simp only
    split
    · exact ⟨h2, by simp⟩
    · refine ⟨?_, fun _ => find_erase_self _ _⟩
      exact strong_erase h2 (r := r) (by simp only; rw [find_upsert, if_pos rfl])

theorem strong_length {s : St} (h : Strong s) : s.index.length = s.cache.length := by
  rw [h.perm.length_eq, List.length_map]

/-- The index is in order of time. -/
def Sorted (l : List (Int × Key)) : Prop := l.Pairwise (fun x y => x.1 ≤ y.1)

theorem lt_time {x y : Int × Key} (h : lt x y = true) : x.1 ≤ y.1 := by
  unfold lt at h
  simp only [Bool.or_eq_true, decide_eq_true_eq, Bool.and_eq_true, beq_iff_eq] at h
  omega

theorem not_lt_time {x y : Int × Key} (h : lt x y = false) : y.1 ≤ x.1 := by
  unfold lt at h
  simp only [Bool.or_eq_false_iff, decide_eq_false_iff_not] at h
  omega

theorem sorted_insert (x : Int × Key) (l : List (Int × Key)) (h : Sorted l) : Sorted (Dns.insert x l) := by
  induction l with
  | nil => simp [Sorted, Dns.insert]
  | cons y l ih =>
    unfold Sorted at *
    rw [List.pairwise_cons] at h
    rw [Dns.insert]
    split
    · rename_i hc
      rw [List.pairwise_cons, List.pairwise_cons]
      refine ⟨?_, h.1, h.2⟩
      intro z hz
      have h1 := lt_time hc
      rcases List.mem_cons.mp hz with rfl | hz
      · exact h1
      · have := h.1 z hz; omega
    · rename_i hc
      rw [List.pairwise_cons]
      refine ⟨?_, ih h.2⟩
      intro z hz
      rw [mem_insert] at hz
      rcases hz with rfl | hz
      · exact not_lt_time (by simpa using hc)
      · exact h.1 z hz

theorem sorted_eraseAll (x : Int × Key) (l : List (Int × Key)) (h : Sorted l) : Sorted (eraseAll x l) := h.filter _

theorem strong_evict_head {cache : List (Key × (List Addr × Int))} {x : Int × Key} {rest : List (Int × Key)} (h : Strong ⟨cache, x :: rest⟩) :
    Strong ⟨erase cache x.2, rest⟩ := by
  have hx : x ∈ cache.map flip := h.perm.mem_iff.mp (by simp)
  obtain ⟨e, he, rfl⟩ := List.mem_map.mp hx
  refine ⟨nodup_erase h.nodup _, ?_⟩
  have hp := h.perm.filter (· ≠ flip e)
  rw [filter_flip h.nodup he] at hp
  have hnd : (flip e :: rest).Nodup := by
    rw [h.perm.nodup_iff]
    have : (cache.map flip).map (·.2) = cache.map (·.1) := by rw [List.map_map]; rfl
    exact List.Nodup.of_map (·.2) (by rw [this]; exact h.nodup)
  have hr : (flip e :: rest).filter (· ≠ flip e) = rest := by
    rw [List.filter_cons, if_neg (by simp), List.filter_eq_self]
    intro y hy
    rw [List.nodup_cons] at hnd
    simp only [ne_eq, decide_eq_true_eq]
    rintro rfl
    exact hnd.1 hy
  rw [hr] at hp
  exact hp

theorem strong_evict (checked : Bool) (max : Int) (cache : List (Key × (List Addr × Int))) (index : List (Int × Key))
    (h : Strong ⟨cache, index⟩) (hs : Sorted index) (hm : 0 < max) :
    ∃ s, evict checked max cache index = .ok s ∧ Strong s ∧ Sorted s.index ∧ (s.cache.length : Int) < max ∧
      (∀ e ∈ s.cache, e ∈ cache) ∧ (∀ e ∈ cache, e ∉ s.cache → (max ≤ cache.length ∧ ∀ f ∈ s.cache, e.2.2 ≤ f.2.2)) ∧
      ((cache.length : Int) < max → s.cache = cache) ∧ ((cache.length : Int) ≤ max → cache.length ≤ s.cache.length + 1) := by
  induction index generalizing cache with
  | nil =>
    have : cache = [] := by
      have := strong_length h
      exact List.length_eq_zero_iff.mp this.symm
    subst this
    rw [evict, if_neg (by simpa using hm)]
    exact ⟨_, rfl, h, hs, by simpa using hm, by simp, by simp, by simp, by simp⟩
  | cons x rest ih =>
    rw [evict]
    split
    · rename_i hc
      have hl : rest.length + 1 = cache.length := strong_length h
      rw [if_neg (by simp [hl])]
      have h1 := strong_evict_head h
      have hs' : Sorted rest := (List.pairwise_cons.mp hs).2
      obtain ⟨s, e1, e2, e3, e4, e5, e6, e7, e8⟩ := ih _ h1 hs'
      have hl2 : (erase cache x.2).length + 1 = cache.length := by
        have := strong_length h1
        simp only at this
        omega
      refine ⟨s, e1, e2, e3, e4, fun e he => ((mem_erase _ _ _).mp (e5 e he)).1, ?_, fun hh => by omega, fun hh => ?_⟩
      · intro e he hne
        refine ⟨hc, ?_⟩
        by_cases hk : e.1 = x.2
        · have hx : x ∈ cache.map flip := h.perm.mem_iff.mp (by simp)
          obtain ⟨g, hg, rfl⟩ := List.mem_map.mp hx
          have := eq_of_key h.nodup he hg hk
          subst this
          intro f hf
          have hf' : flip f ∈ rest := (strong_weak h1).sub f (e5 f hf)
          exact (List.pairwise_cons.mp hs).1 _ hf'
        · exact (e6 e ((mem_erase _ _ _).mpr ⟨he, hk⟩) hne).2
      · have := e7 (by omega)
        rw [this]; omega
    · rename_i hc
      refine ⟨_, rfl, h, hs, by simp only; omega, fun e he => he, fun e he hne => absurd he hne, fun _ => rfl, fun _ => by simp⟩

theorem strong_store (checked : Bool) (max cur : Int) (key : Key) (ret : List Addr) {s : St} (h : Strong s) (hs : Sorted s.index)
    (hk : key ∉ s.cache.map (·.1)) (hm : 0 < max) :
    ∃ s', store checked max cur key ret s = .ok s' ∧ Strong s' ∧ Sorted s'.index ∧ (s'.cache.length : Int) ≤ max := by
  obtain ⟨t, e, h1, h2, h3, h4, _⟩ := strong_evict checked max s.cache s.index h hs hm
  unfold store
  rw [e]
  have hk' : key ∉ t.cache.map (·.1) := by
    intro hh
    obtain ⟨f, hf, rfl⟩ := List.mem_map.mp hh
    exact hk (List.mem_map_of_mem (h4 f hf))
  refine ⟨_, rfl, strong_insert h1 hk' ret cur, sorted_insert _ _ h2, ?_⟩
  simp only [length_upsert_new hk']
  omega

theorem sorted_lookup {s : St} (hs : Sorted s.index) (expire cur : Int) (key : Key) : Sorted (lookup expire cur key s).2.index := by
  unfold lookup
  split
  · exact hs
  · simp only
    split
    · exact sorted_insert _ _ (sorted_eraseAll _ _ hs)
    · exact sorted_eraseAll _ _ (sorted_insert _ _ (sorted_eraseAll _ _ hs))

theorem strong_delete {s : St} (h : Strong s) (key : Key) : Strong (delete key s) := by
  unfold delete
  cases hf : find s.cache key with
  | some x =>
    obtain ⟨r, t⟩ := x
    exact strong_erase h hf
  | none =>
    simp only
    have hk := find_eq_none_iff.mp hf
    rw [erase_of_not_mem hk]
    refine ⟨h.nodup, ?_⟩
    have : eraseAll (0, key) s.index = s.index := by
      unfold eraseAll
      rw [List.filter_eq_self]
      intro x hx
      obtain ⟨e, he, rfl⟩ := List.mem_map.mp (h.perm.mem_iff.mp hx)
      simp only [ne_eq, decide_eq_true_eq]
      intro hh
      simp only [flip, Prod.mk.injEq] at hh
      exact hk (by rw [← hh.2]; exact List.mem_map_of_mem he)
    simp only [this]
    exact h.perm

theorem step_inv (c : Cfg) (hm : 0 < c.max) (s : St) (log : List (Key × List Addr)) (h : Weak s) (hl : (s.cache.length : Int) ≤ c.max)
    (hg : Genuine log s) (e : Ev) :
    (∃ a s', step c s e = .ok (a, s') ∧ Weak s' ∧ (s'.cache.length : Int) ≤ c.max ∧ Genuine (log ++ answers [e]) s' ∧
      ∀ x, a = some x → x ∈ log) ∨ (c.checked = true ∧ step c s e = .error .assertion) := by
  have hg' : ∀ l, Genuine (log ++ l) s := fun l x hx => List.mem_append_left _ (hg x hx)
  cases e with
  | lookup cur key =>
    left
    have h1 := weak_lookup h c.expire cur key
    have h2 := lookup_length c.expire cur key s
    obtain ⟨h3, h4⟩ := lookup_genuine h hg c.expire cur key
    have h5 : Genuine (log ++ answers [Ev.lookup cur key]) (lookup c.expire cur key s).2 := fun x hx => List.mem_append_left _ (h3 x hx)
    simp only [step]
    generalize lookup c.expire cur key s = p at *
    obtain ⟨a, s'⟩ := p
    cases a with
    | none => exact ⟨none, s', rfl, h1, by simp only at h2; omega, h5, by simp⟩
    | some r => exact ⟨some (key, r), s', rfl, h1, by simp only at h2; omega, h5, by rintro x ⟨⟩; exact h4 r rfl⟩
  | store cur key ret =>
    simp only [step]
    rcases weak_store c.checked c.max cur key ret h hm with ⟨s', e, h1, h2, h3⟩ | ⟨h1, e⟩
    · left
      rw [e]
      refine ⟨none, s', rfl, h1, h2, ?_, by simp⟩
      intro x hx
      rcases h3 x hx with hx | rfl
      · exact List.mem_append_left _ (hg x hx)
      · apply List.mem_append_right; simp [answers]
    · right
      rw [e]; exact ⟨h1, rfl⟩
  | delete key =>
    left
    refine ⟨none, _, rfl, weak_erase h key _, ?_, ?_, by simp⟩
    · have := List.length_filter_le (fun e : Key × (List Addr × Int) => decide (e.1 ≠ key)) s.cache
      simp only [delete, erase]; omega
    · intro x hx
      exact hg' _ x ((mem_erase _ _ _).mp hx).1
  | clear =>
    left
    exact ⟨none, _, rfl, ⟨by simp [clear], by simp [clear]⟩, by simp [clear]; omega, by intro x hx; simp [clear] at hx, by simp⟩

theorem run_inv (c : Cfg) (hm : 0 < c.max) (es : List Ev) (s : St) (log : List (Key × List Addr)) (h : Weak s)
    (hl : (s.cache.length : Int) ≤ c.max) (hg : Genuine log s) :
    (∃ as s', run c s es = .ok (as, s') ∧ Weak s' ∧ (s'.cache.length : Int) ≤ c.max ∧ Genuine (log ++ answers es) s' ∧
      ∀ x ∈ as, x ∈ log ++ answers es) ∨ (c.checked = true ∧ run c s es = .error .assertion) := by
  induction es generalizing s log with
  | nil => left; exact ⟨[], s, rfl, h, hl, by simpa [answers] using hg, by simp⟩
  | cons e es ih =>
    rw [run]
    rcases step_inv c hm s log h hl hg e with ⟨a, s', e1, h1, h2, h3, h4⟩ | ⟨hc, e1⟩
    · rw [e1]
      simp only [Except.bind]
      have ha : log ++ answers [e] ++ answers es = log ++ answers (e :: es) := by
        unfold answers
        rw [List.append_assoc, ← List.filterMap_append]; rfl
      rcases ih s' _ h1 h2 h3 with ⟨as, s'', e2, h5, h6, h7, h8⟩ | ⟨hc, e2⟩
      · left
        rw [e2]
        refine ⟨a.toList ++ as, s'', rfl, h5, h6, by rw [← ha]; exact h7, ?_⟩
        intro x hx
        rcases List.mem_append.mp hx with hx | hx
        · cases a with
          | none => simp at hx
          | some y =>
            simp only [Option.toList_some, List.mem_singleton] at hx
            exact List.mem_append_left _ (h4 x (by rw [hx]))
        · rw [← ha]; exact h8 x hx
      · right
        rw [e2]; exact ⟨hc, rfl⟩
    · right
      rw [e1]; exact ⟨hc, rfl⟩

/-- The invariant of calls one after the other. -/
def Good (max : Int) (s : St) : Prop := Strong s ∧ Sorted s.index ∧ (s.cache.length : Int) ≤ max

theorem call_good (c : Cfg) (hm : 0 < c.max) (s : St) (h : Good c.max s) (x : Call) : ∃ s', call c s x = .ok s' ∧ Good c.max s' := by
  obtain ⟨h1, h2, h3⟩ := h
  cases x with
  | resolve cur key ret =>
    obtain ⟨g1, g2⟩ := strong_lookup h1 c.expire cur key
    have g3 := sorted_lookup h2 c.expire cur key
    have g4 := lookup_length c.expire cur key s
    simp only [call, resolve]
    generalize lookup c.expire cur key s = p at *
    obtain ⟨a, s'⟩ := p
    cases a with
    | some r => exact ⟨s', rfl, g1, g3, by simp only at g4; omega⟩
    | none =>
      obtain ⟨s'', e, k1, k2, k3⟩ := strong_store c.checked c.max cur key ret g1 g3 (g2 rfl) hm
      simp only at e ⊢
      rw [e]
      exact ⟨s'', rfl, k1, k2, k3⟩
  | delete key =>
    refine ⟨_, rfl, strong_delete h1 key, sorted_eraseAll _ _ h2, ?_⟩
    have := List.length_filter_le (fun e : Key × (List Addr × Int) => decide (e.1 ≠ key)) s.cache
    simp only [delete, erase]; omega
  | clear => exact ⟨_, rfl, ⟨by simp [clear], by simp [clear]⟩, by simp [clear, Sorted], by simp [clear]; omega⟩

theorem calls_good (c : Cfg) (hm : 0 < c.max) (xs : List Call) (s : St) (h : Good c.max s) : ∃ s', calls c s xs = .ok s' ∧ Good c.max s' := by
  induction xs generalizing s with
  | nil => exact ⟨s, rfl, h⟩
  | cons x xs ih =>
    obtain ⟨s', e, h'⟩ := call_good c hm s h x
    rw [calls, e]
    exact ih s' h'

end Verif.Dns.Lemmas
