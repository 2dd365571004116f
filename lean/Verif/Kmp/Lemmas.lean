import Verif.Kmp.Model
import Verif.Kmp.Spec
import Mathlib.Data.List.Basic
/-! Helper lemmas for KMP. -/

namespace Verif.Kmp

variable {α : Type} [DecidableEq α]

/-- `t` is the length of the longest prefix of `q` that is a suffix of `w`. -/
def Longest (q w : List α) (t : Nat) : Prop :=
  t ≤ q.length ∧ q.take t <:+ w ∧ ∀ s, s ≤ q.length → q.take s <:+ w → s ≤ t

/-- The entries written so far are the longest proper borders. -/
def TableOK (q : List α) (next : List Nat) : Prop :=
  next.length ≤ q.length ∧ ∀ i, i < next.length → ∃ t, next[i]? = some t ∧ t ≤ i ∧ q.take t <:+ q.take (i + 1) ∧
    ∀ s, s ≤ i → q.take s <:+ q.take (i + 1) → s ≤ t

omit [DecidableEq α] in
theorem suffix_snoc (q w : List α) (c : α) (s : Nat) (hs : s + 1 ≤ q.length) :
    q.take (s + 1) <:+ w ++ [c] ↔ q.take s <:+ w ∧ q[s]? = some c := by
  have hlt : s < q.length := by omega
  rw [List.take_succ_eq_append_getElem hlt, List.getElem?_eq_getElem hlt]
  constructor
  · rintro ⟨p, hp⟩
    rw [← List.append_assoc] at hp
    have := List.append_inj' hp rfl
    exact ⟨⟨p, this.1⟩, by simpa using this.2⟩
  · rintro ⟨⟨p, hp⟩, hc⟩
    refine ⟨p, ?_⟩
    simp only [Option.some.injEq] at hc
    rw [← List.append_assoc, hp, hc]

omit [DecidableEq α] in
theorem suffix_of_suffix_length {a b w : List α} (ha : a <:+ w) (hb : b <:+ w) (h : a.length ≤ b.length) : a <:+ b :=
  List.suffix_of_suffix_length_le ha hb h

theorem failLoop_spec {q : List α} {next : List Nat} (ht : TableOK q next) (w : List α) (c : α) :
    ∀ t, t < q.length → t ≤ next.length → q.take t <:+ w →
      (∀ s, s < q.length → q.take s <:+ w → t < s → q[s]? ≠ some c) →
      ∃ t', failLoop q next c t = some t' ∧ t' ≤ t ∧ q.take t' <:+ w ∧
        (∀ s, s < q.length → q.take s <:+ w → t' < s → q[s]? ≠ some c) ∧ (t' = 0 ∨ q[t']? = some c) := by
  intro t
  induction t using Nat.strongRecOn with
  | _ t ih =>
    intro h1 h2 h3 h4
    rw [failLoop]
    by_cases h0 : 0 < t
    · rw [if_pos h0, List.getElem?_eq_getElem h1]
      simp only
      by_cases hc : c = q[t]
      · rw [if_neg (by simpa using hc)]
        exact ⟨t, rfl, Nat.le_refl _, h3, h4, .inr (by rw [List.getElem?_eq_getElem h1, hc])⟩
      · rw [if_pos hc]
        obtain ⟨t', e1, e2, e3, e4⟩ := ht.2 (t - 1) (by omega)
        have et : t - 1 + 1 = t := by omega
        rw [et] at e3 e4
        rw [e1]
        simp only
        rw [if_pos (by omega)]
        obtain ⟨r, hr1, hr2, hr3, hr4, hr5⟩ := ih t' (by omega) (by omega) (by omega) (e3.trans h3) (by
          intro s hs hsw hts
          rcases Nat.lt_trichotomy s t with h | h | h
          · exfalso
            have : q.take s <:+ q.take t := suffix_of_suffix_length hsw h3 (by simp; omega)
            have := e4 s (by omega) this
            omega
          · subst h
            rw [List.getElem?_eq_getElem h1]
            intro he
            simp only [Option.some.injEq] at he
            exact hc he.symm
          · exact h4 s hs hsw h)
        exact ⟨r, hr1, by omega, hr3, hr4, hr5⟩
    · rw [if_neg h0]
      exact ⟨t, rfl, Nat.le_refl _, h3, h4, .inl (by omega)⟩

/-- One step of either loop: the longest match of `w` becomes that of `w ++ [c]`. -/
theorem step_spec {q : List α} {next : List Nat} (ht : TableOK q next) (w : List α) (c : α) (t : Nat)
    (hq : t < q.length) (hn : t ≤ next.length) (hl : Longest q w t) :
    ∃ t' qc, failLoop q next c t = some t' ∧ q[t']? = some qc ∧ Longest q (w ++ [c]) (if c = qc then t' + 1 else t') ∧
      (c ≠ qc → t' = 0) := by
  obtain ⟨t', h1, h2, h3, h4, h5⟩ := failLoop_spec ht w c t hq hn hl.2.1 (by
    intro s hs hsw hts
    have := hl.2.2 s (by omega) hsw
    omega)
  have hlt : t' < q.length := by omega
  refine ⟨t', q[t'], h1, List.getElem?_eq_getElem hlt, ?_, ?_⟩
  · by_cases hc : c = q[t']
    · rw [if_pos hc]
      refine ⟨by omega, ?_, ?_⟩
      · rw [suffix_snoc _ _ _ _ (by omega), List.getElem?_eq_getElem hlt, hc]
        exact ⟨h3, rfl⟩
      · intro s hs hsw
        cases s with
        | zero => omega
        | succ s =>
          rw [suffix_snoc _ _ _ _ hs] at hsw
          by_contra hcon
          exact h4 s (by omega) hsw.1 (by omega) hsw.2
    · rw [if_neg hc]
      have ht0 : t' = 0 := by
        rcases h5 with h | h
        · exact h
        · rw [List.getElem?_eq_getElem hlt] at h
          simp only [Option.some.injEq] at h
          exact absurd h.symm hc
      subst ht0
      refine ⟨by omega, by simp, ?_⟩
      intro s hs hsw
      cases s with
      | zero => omega
      | succ s =>
        exfalso
        rw [suffix_snoc _ _ _ _ hs] at hsw
        cases s with
        | zero =>
          rw [List.getElem?_eq_getElem hlt] at hsw
          simp only [Option.some.injEq] at hsw
          exact hc hsw.2.symm
        | succ s => exact h4 (s + 1) (by omega) hsw.1 (by omega) hsw.2
  · intro hc
    rcases h5 with h | h
    · exact h
    · rw [List.getElem?_eq_getElem hlt] at h
      simp only [Option.some.injEq] at h
      exact absurd h.symm hc

/-- The constructor's loop is the search loop run on `query[1..]`. -/
theorem buildLoop_spec (q : List α) (q0 : α) (qs : List α) (hq : q = q0 :: qs) :
    ∀ (rest w : List α) (next : List Nat) (t : Nat), qs = w ++ rest → next.length = w.length + 1 → TableOK q next →
      Longest q w t → ∃ r, buildLoop q rest next t = some r ∧ r.length = q.length ∧ TableOK q r := by
  intro rest
  induction rest with
  | nil =>
    intro w next t hw hn ht _
    refine ⟨next, rfl, ?_, ht⟩
    rw [hn, hq, hw]; simp
  | cons c rest ih =>
    intro w next t hw hn ht hl
    have hlen : q.length = w.length + rest.length + 2 := by rw [hq, hw]; simp; omega
    have htw : t ≤ w.length := by
      have := hl.2.1.length_le
      simp only [List.length_take] at this
      have := hl.1
      omega
    obtain ⟨t', qc, h1, h2, h3, h4⟩ := step_spec ht w c t (by omega) (by omega) hl
    -- prefixes of q that are suffixes of q[1..i]
    have htake : q.take (next.length + 1) = q0 :: (w ++ [c]) := by
      rw [hq, hn, List.take_succ_cons]
      congr 1
      rw [hw, show w ++ c :: rest = (w ++ [c]) ++ rest by simp, List.take_left' (by simp)]
    have hborder : ∀ s, s ≤ next.length → (q.take s <:+ q.take (next.length + 1) ↔ q.take s <:+ w ++ [c]) := by
      intro s hs
      rw [htake, List.suffix_cons_iff]
      constructor
      · rintro (h | h)
        · have := congrArg List.length h
          simp only [List.length_take, List.length_cons, List.length_append, List.length_nil] at this
          omega
        · exact h
      · exact .inr
    have hnew : ∀ v, Longest q (w ++ [c]) v → TableOK q (next ++ [v]) := by
      intro v hv
      have hvl : v ≤ next.length := by
        have := hv.2.1.length_le
        have := hv.1
        simp only [List.length_take, List.length_append, List.length_cons, List.length_nil] at *
        omega
      refine ⟨by simp; omega, ?_⟩
      intro i hi
      by_cases hin : i < next.length
      · obtain ⟨x, hx⟩ := ht.2 i hin
        exact ⟨x, by rw [List.getElem?_append_left hin]; exact hx.1, hx.2⟩
      · have : i = next.length := by simp at hi; omega
        subst this
        refine ⟨v, by simp, hvl, (hborder v hvl).mpr hv.2.1, ?_⟩
        intro s hs hsw
        exact hv.2.2 s (by omega) ((hborder s hs).mp hsw)
    rw [buildLoop, h1]
    simp only [h2]
    by_cases hc : c = qc
    · rw [if_pos hc]
      rw [if_pos hc] at h3
      exact ih (w ++ [c]) (next ++ [t' + 1]) (t' + 1) (by rw [hw]; simp) (by simp [hn]) (hnew _ h3) h3
    · rw [if_neg hc]
      rw [if_neg hc] at h3
      have h0 := h4 hc
      subst h0
      exact ih (w ++ [c]) (next ++ [0]) 0 (by rw [hw]; simp) (by simp [hn]) (hnew _ h3) h3

theorem build_spec (q : List α) (hq : q ≠ []) : ∃ next, build q = some next ∧ next.length = q.length ∧ TableOK q next := by
  cases q with
  | nil => exact absurd rfl hq
  | cons q0 qs =>
    apply buildLoop_spec (q0 :: qs) q0 qs rfl qs [] [0] 0 rfl rfl
    · refine ⟨by simp, ?_⟩
      intro i hi
      have : i = 0 := by simp at hi; omega
      subst this
      exact ⟨0, rfl, by omega, by simp, fun s hs _ => hs⟩
    · refine ⟨by omega, by simp, ?_⟩
      intro s hs hsw
      have := hsw.length_le
      simp only [List.length_take, List.length_nil] at this
      simp only [List.length_cons] at *
      omega

omit [DecidableEq α] in
theorem occursAt_iff (q text : List α) (p : Nat) : Spec.OccursAt q text p ↔ p ≤ text.length ∧ q <:+ text.take (p + q.length) ∧ p + q.length ≤ text.length := by
  constructor
  · rintro ⟨pre, post, rfl, rfl⟩
    refine ⟨by simp, ⟨pre, ?_⟩, by simp⟩
    rw [List.take_left' (by simp)]
  · rintro ⟨h1, ⟨pre, hpre⟩, h2⟩
    refine ⟨pre, text.drop (p + q.length), ?_, ?_⟩
    · rw [hpre, List.take_append_drop]
    · have := congrArg List.length hpre
      simp only [List.length_append, List.length_take] at this
      omega

theorem findLoop_spec {q : List α} {next : List Nat} (ht : TableOK q next) (hnl : next.length = q.length) (text : List α) (off : Nat) :
    ∀ (rest w : List α) (t : Nat), text = text.take off ++ w ++ rest → off ≤ text.length → Longest q w t → t < q.length →
      (∀ w', w' <+: w → ¬ q <:+ w') →
      ∃ r, findLoop q next rest (off + w.length) t = some r ∧ Spec.FirstOccurrence q text off r := by
  intro rest
  induction rest with
  | nil =>
    intro w t hw hoff _ _ hno
    refine ⟨none, rfl, ?_⟩
    intro p' hp' hocc
    rw [occursAt_iff] at hocc
    obtain ⟨_, hsuf, hle⟩ := hocc
    apply hno (w.take (p' + q.length - off)) (List.take_prefix _ _)
    apply suffix_of_suffix_length hsuf ?_ ?_
    · rw [hw, List.append_nil, List.take_append]
      have : (List.take off text).length = off := by simp; omega
      rw [this]
      exact List.suffix_append _ _
    · have : text.length = off + w.length := by
        have := congrArg List.length hw
        simp only [List.length_append, List.length_take, List.length_nil] at this
        omega
      simp only [List.length_take]; omega
  | cons c rest ih =>
    intro w t hw hoff hl htq hno
    obtain ⟨t', qc, h1, h2, h3, h4⟩ := step_spec ht w c t htq (by omega) hl
    have htl : (List.take off text).length = off := by simp; omega
    rw [findLoop, h1]
    simp only [h2]
    generalize (if c = qc then t' + 1 else t') = t1 at h3
    by_cases hfull : t1 = q.length
    · rw [if_pos hfull]
      refine ⟨_, rfl, ?_⟩
      subst hfull
      have hsuf : q <:+ w ++ [c] := by simpa using h3.2.1
      have hqw : q.length ≤ w.length + 1 := by have := hsuf.length_le; simpa using this
      have htextlen : text.length = off + w.length + 1 + rest.length := by
        have := congrArg List.length hw
        simp only [List.length_append, List.length_cons, htl] at this
        omega
      have htk : ∀ n, text.take (off + n) = text.take off ++ (w ++ c :: rest).take n := by
        intro n
        conv_lhs => rw [hw, List.append_assoc]
        rw [List.take_append, htl, List.take_of_length_le (by omega)]
        congr 2; omega
      refine ⟨by omega, ?_, ?_⟩
      · rw [occursAt_iff]
        refine ⟨by omega, ?_, by omega⟩
        have e : off + w.length + 1 - q.length + q.length = off + (w.length + 1) := by omega
        rw [e, htk, show w ++ c :: rest = (w ++ [c]) ++ rest by simp, List.take_left' (by simp)]
        exact hsuf.trans (List.suffix_append _ _)
      · intro p' hp' hlt hocc
        rw [occursAt_iff] at hocc
        obtain ⟨_, hs, hle⟩ := hocc
        apply hno (w.take (p' + q.length - off)) (List.take_prefix _ _)
        apply suffix_of_suffix_length hs ?_ ?_
        · have e : p' + q.length = off + (p' + q.length - off) := by omega
          rw [e, htk, List.take_append_of_le_length (by omega)]
          have e2 : off + (p' + q.length - off) - off = p' + q.length - off := by omega
          rw [e2]
          exact List.suffix_append _ _
        · simp only [List.length_take]; omega
    · rw [if_neg hfull]
      have := ih (w ++ [c]) t1 (by rw [List.append_assoc, List.append_assoc] ; rw [List.append_assoc] at hw; simpa using hw) hoff h3
        (by have := h3.1; omega) (by
          intro w' hw' hsuf
          rw [List.prefix_concat_iff] at hw'
          rcases hw' with rfl | hw'
          · have := h3.2.2 q.length (by omega) (by simpa using hsuf)
            have := h3.1
            omega
          · exact hno w' hw' hsuf)
      have e : off + (w ++ [c]).length = off + w.length + 1 := by simp; omega
      rw [e] at this
      exact this

end Verif.Kmp
