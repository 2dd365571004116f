import Verif.Json.LemmasPrint
/-! Auxiliary lemmas on whole parses (no claims). -/

namespace Verif.Json.Lemmas
open Verif.Json Verif.Json.Spec Verif.Ustring Verif.Ustring.Spec

variable {F : Type}

theorem parseStream_text (strtod : List Nat → Option F) (v : Value F) (s : S) (w t rest : List Nat) (hw : ∀ c ∈ w, LaxWs c)
    (ht : Text strtod v t) (hv : view s = w ++ (t ++ rest)) (he : Ends rest) (hs : rest = [] → ¬ ShortExp t) :
    ∃ s', parseStream strtod s = .ok (events v, s') ∧ view s' = rest := by
  obtain ⟨c, tl, rfl, hc, -⟩ := text_head ht
  rw [List.cons_append] at hv
  rw [parseStream, ss_skip hv hw hc]
  rw [if_neg (by simp)]
  exact complete strtod _ _ ht _ ⟨some c, tl ++ rest⟩ [] rest (by simp; omega) (by simp) rfl he hs

theorem parseFrom_text (strtod : List Nat → Option F) (v : Value F) (s : S) (w t rest : List Nat) (hw : ∀ c ∈ w, LaxWs c)
    (ht : Text strtod v t) (hv : view s = w ++ (t ++ rest)) (he : Ends rest) (hs : rest = [] → ¬ ShortExp t) :
    ∃ s', parseFrom strtod s = .value (norm v) s' ∧ view s' = rest := by
  obtain ⟨s', h1, h2⟩ := parseStream_text strtod v s w t rest hw ht hv he hs
  refine ⟨s', ?_, h2⟩
  rw [parseFrom, h1]
  dsimp only
  rw [run_events]
  rfl

theorem view_nil {s : S} (h : view s = []) : s = ⟨none, []⟩ := by
  obtain ⟨cb, r⟩ := s
  cases cb with
  | none => simp [view] at h; subst h; rfl
  | some c => simp [view] at h

theorem decodeAll_scalar (bad : List UInt8 → Nat) (hb : ∀ l, Scalar (bad l)) (bs : List UInt8) : ∀ c ∈ decodeAll bad bs, Scalar c := by
  fun_induction decodeAll bad bs with
  | case1 => simp
  | case2 b bs ih =>
    intro c hc
    rcases List.mem_cons.mp hc with rfl | hc
    · cases h : (decodeOne (b :: bs)).1 with
      | none => exact hb _
      | some d => exact (decodeOne_sound b bs d _ (Prod.ext h rfl)).1
    · exact ih c hc

theorem parseStream_sound (strtod : List Nat → Option F) (s s' : S) (ev : List (Event F)) (hs : ∀ c ∈ view s, Scalar c)
    (h : parseStream strtod s = .ok (ev, s')) :
    ∃ w t v, (∀ c ∈ w, LaxWs c) ∧ view s = w ++ (t ++ view s') ∧ LaxText strtod v t ∧ ev = events v := by
  rw [parseStream] at h
  split at h
  · cases h
  · obtain ⟨w, hw, hv⟩ := ss_spec s
    have hs' : ∀ c ∈ view (ss s), Scalar c := fun c hc => hs c (by rw [hv]; exact List.mem_append_right _ hc)
    obtain ⟨w2, t, v, h1, h2, _, h4, h5⟩ := (sound strtod _).1 (ss s) s' ev hs' h
    exact ⟨w ++ w2, t, v, ws_append hw h1, by rw [hv, h2]; simp, h4, h5⟩

theorem parseStream_ne_stuck (strtod : List Nat → Option F) (s : S) (hs : ∀ c ∈ view s, Scalar c) :
    parseStream strtod s ≠ .error .stuck := by
  rw [parseStream]
  split
  · exact nofun
  · obtain ⟨w, hw, hv⟩ := ss_spec s
    exact (budget strtod _).1 (ss s) (fun c hc => hs c (by rw [hv]; exact List.mem_append_right _ hc)) (by simp [view])

theorem ucharToChars_len (c : Nat) : (ucharToChars c).length ≤ 4 := by
  unfold ucharToChars
  repeat' split
  all_goals simp

theorem strStep_len (us us' : List Nat) (bs : Str) (h : strStep us = .ok (bs, us')) : bs.length ≤ 4 := by
  have hU : ∀ us, parseU us = .ok (bs, us') → bs.length ≤ 4 := by
    intro us h
    rw [parseU, bind_ok] at h
    obtain ⟨⟨u, us1⟩, h1, h⟩ := h
    dsimp only at h
    split at h
    · cases h
    · split at h
      · rw [bind_ok] at h
        obtain ⟨_, _, h⟩ := h
        rw [bind_ok] at h
        obtain ⟨_, _, h⟩ := h
        rw [bind_ok] at h
        obtain ⟨_, _, h⟩ := h
        split at h
        · cases h
        · simp only [Except.ok.injEq, Prod.mk.injEq] at h
          rw [← h.1]; exact ucharToChars_len _
      · simp only [Except.ok.injEq, Prod.mk.injEq] at h
        rw [← h.1]; exact ucharToChars_len _
  unfold strStep at h
  split at h
  · cases h
  · split at h
    · split at h
      · cases h
      · split at h
        · exact hU _ h
        · split at h
          · simp only [Except.ok.injEq, Prod.mk.injEq] at h
            rw [← h.1]; simp
          · cases h
    · split at h
      · simp only [Except.ok.injEq, Prod.mk.injEq] at h
        rw [← h.1]; exact ucharToChars_len _
      · cases h

theorem bufRun_ok (ks : List Nat) (h : ∀ k ∈ ks, k ≤ 4) : ∀ pos len, pos ≤ len → 4 ≤ len → (bufRun pos len ks).isSome := by
  induction ks with
  | nil => intros; rfl
  | cons k ks ih =>
    intro pos len h1 h2
    have hk := h k (by simp)
    have hg : pos + k ≤ growBuf pos len := by unfold growBuf; split <;> omega
    rw [bufRun, if_pos hg]
    exact ih (fun x hx => h x (by simp [hx])) _ _ hg (by unfold growBuf; split <;> omega)

theorem printUnit_ascii' (u : Nat) : ∀ b ∈ printUnit u, 0x20 ≤ b.toNat ∧ b.toNat < 0x7F := by
  have hh : ∀ a < 16, 0x20 ≤ (tohex a).toNat ∧ (tohex a).toNat < 0x7F := by decide +kernel
  intro b hb
  unfold printUnit at hb
  simp only [and15] at hb
  split at hb
  · rename_i hu
    have key : ∀ u ≤ 0x7F, (escTable.lookup u).all (fun c => decide (0x20 ≤ c.toNat ∧ c.toNat < 0x7F)) = true := by decide +kernel
    have k1 := key u hu
    split at hb
    · rename_i c hc
      rw [hc] at k1
      simp only [Option.all_some, decide_eq_true_eq] at k1
      simp only [List.mem_cons, List.not_mem_nil, or_false] at hb
      rcases hb with rfl | rfl
      · decide
      · exact k1
    · split at hb
      · simp only [List.mem_cons, List.not_mem_nil, or_false] at hb
        rcases hb with rfl | rfl | rfl | rfl | rfl | rfl
        · decide
        · decide
        · decide
        · decide
        · exact hh _ (Nat.mod_lt _ (by decide))
        · exact hh _ (Nat.mod_lt _ (by decide))
      · rename_i hc
        simp only [List.mem_singleton] at hb
        subst hb
        simp only [isCntrl, Bool.or_eq_true, decide_eq_true_eq, beq_iff_eq, not_or] at hc
        rw [UInt8.toNat_ofNat']
        omega
  · simp only [List.mem_cons, List.not_mem_nil, or_false] at hb
    rcases hb with rfl | rfl | rfl | rfl | rfl | rfl
    · decide
    · decide
    all_goals exact hh _ (Nat.mod_lt _ (by decide))

theorem escLoop_ascii (s : Str) : ∀ b ∈ escLoop s, 0x20 ≤ b.toNat ∧ b.toNat < 0x7F := by
  fun_induction escLoop s with
  | case1 => simp
  | case2 => simp
  | case3 b bs h ih =>
    intro x hx
    rcases List.mem_append.mp hx with hx | hx
    · unfold printChar at hx
      split at hx
      · exact printUnit_ascii' _ x hx
      · rcases List.mem_append.mp hx with hx | hx
        · exact printUnit_ascii' _ x hx
        · exact printUnit_ascii' _ x hx
    · exact ih x hx

end Verif.Json.Lemmas
