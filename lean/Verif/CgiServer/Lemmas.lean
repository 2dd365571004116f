import Verif.CgiServer.Spec
import Verif.HttpMsg.LemmasSend
import Verif.Cgi.LemmasPart
/-! Lemmas about the output of a program and the response that is made of it. -/

namespace Verif.CgiServer.Lemmas
open Verif Verif.AssocMap Verif.Socket Verif.Http Verif.HttpMsg Verif.CgiServer Verif.CgiServer.Spec
open Verif.HttpMsg.Spec hiding names
open Verif.Http.Spec (fold Space Legal)
open Verif.Cgi.Spec (fieldOf)
open Verif.Http.Lemmas (fieldLine names lookup legal_line)
open Verif.Cgi.Lemmas (line_some run_bind_eq)

/-! ### The header in the output -/

/-- The header part of the output. -/
def lfText (h : Header) : Str := (h.map fun e => e.1 ++ [58, 32] ++ e.2 ++ [10]).flatten ++ [10]

theorem lfText_cons (e : Str × Str) (h : Header) (rest : Str) : lfText (e :: h) ++ rest = fieldLine e ++ 10 :: (lfText h ++ rest) := by
  simp [lfText, fieldLine]

theorem readFields_lf (rest : Str) : ∀ (h : Header) (e : Str × Str) (done : Header) (fuel : Nat),
    h.length < fuel → Legal e → (∀ e ∈ h, Legal e) → (names (done ++ e :: h)).Nodup →
    (readFields (Prog.getline 0) fuel (fieldLine e) done).run istreamStep (lfText h ++ rest) = (.ok (done ++ e :: h), rest) := by
  intro h
  induction h with
  | nil =>
    intro e done fuel hf he _ hn
    obtain ⟨fuel, rfl⟩ : ∃ n, fuel = n + 1 := ⟨fuel - 1, by omega⟩
    obtain ⟨_, _, h3, h4, _⟩ := legal_line he
    have hnew : fold e.1 ∉ names done := by
      have e1 : names (done ++ [e]) = names done ++ [fold e.1] := by simp [names]
      rw [e1, List.nodup_append] at hn
      intro hx
      exact hn.2.2 _ hx _ (List.mem_singleton.2 rfl) rfl
    have hl : (Prog.getline 0).run istreamStep (lfText [] ++ rest) = (some [], rest) := line_some [] rest (by decide)
    unfold readFields
    rw [h3]
    dsimp only
    have hr : (readLws (Prog.getline 0) (fuel + 1) (32 :: e.2)).run istreamStep (lfText [] ++ rest) = (some (none, 32 :: e.2), rest) := by
      unfold readLws
      rw [run_bind_eq hl]
      rfl
    rw [run_bind_eq hr]
    dsimp only
    rw [h4, Http.Lemmas.set_new _ _ _ hnew]
    rfl
  | cons e' h ih =>
    intro e done fuel hf he hh hn
    obtain ⟨fuel, rfl⟩ : ∃ n, fuel = n + 1 := ⟨fuel - 1, by omega⟩
    obtain ⟨_, _, h3, h4, _⟩ := legal_line he
    obtain ⟨g1, g2, _, _, c, l, g5, g6, g7⟩ := legal_line (hh e' (by simp))
    have hn' : (names (done ++ [e] ++ e' :: h)).Nodup := by
      rw [List.append_assoc]; exact hn
    have hnew : fold e.1 ∉ names done := by
      have e1 : names (done ++ e :: e' :: h) = names done ++ fold e.1 :: names (e' :: h) := by simp [names]
      rw [e1, List.nodup_append] at hn
      intro hx
      exact hn.2.2 _ hx _ (by simp) rfl
    have hl : (Prog.getline 0).run istreamStep (lfText (e' :: h) ++ rest) = (some (fieldLine e'), lfText h ++ rest) := by
      rw [lfText_cons]
      exact line_some _ _ g1
    unfold readFields
    rw [h3]
    dsimp only
    have hr : (readLws (Prog.getline 0) (fuel + 1) (32 :: e.2)).run istreamStep (lfText (e' :: h) ++ rest)
        = (some (some (fieldLine e'), 32 :: e.2), lfText h ++ rest) := by
      unfold readLws
      rw [run_bind_eq hl, g5]
      dsimp only
      rw [if_neg g7, if_neg (by simp [g6]), Prog.run_ret]
    rw [run_bind_eq hr]
    dsimp only
    rw [h4, Http.Lemmas.set_new _ _ _ hnew, ih e' (done ++ [e]) fuel (by simpa using hf) (hh e' (by simp)) (fun x hx => hh x (by simp [hx])) hn']
    simp

theorem length_lf (h : Header) : h.length ≤ (lfText h).length := by
  induction h with
  | nil => simp [lfText]
  | cons e h ih =>
    have := congrArg List.length (lfText_cons e h [])
    simp only [List.append_nil, List.length_append, List.length_cons] at this ⊢
    omega

theorem headerOfStream_lf (h : Header) (rest : Str) (hl : LegalHeader h) : headerOfStream (lfText h ++ rest) = (.ok h, rest) := by
  unfold headerOfStream readHeader
  cases h with
  | nil =>
    rw [run_bind_eq (show (Prog.getline 0).run istreamStep (lfText [] ++ rest) = (some [], rest) from line_some [] rest (by decide))]
    rfl
  | cons e h =>
    obtain ⟨g1, _, _, _, c, l, g5, _, _⟩ := legal_line (hl.fields e (by simp))
    have h1 : (Prog.getline 0).run istreamStep (lfText (e :: h) ++ rest) = (some (fieldLine e), lfText h ++ rest) := by
      rw [lfText_cons]
      exact line_some _ _ g1
    have hlen := length_lf (e :: h)
    rw [run_bind_eq h1]
    have := readFields_lf rest h e [] ((lfText (e :: h) ++ rest).length + 1) (by simp at hlen ⊢; omega) (hl.fields e (by simp))
      (fun x hx => hl.fields x (by simp [hx])) hl.once
    rw [g5] at this ⊢
    exact this

theorem output_eq (h : Header) (body : Str) : output h body = lfText h ++ body := rfl

/-! ### The status -/

theorem fieldOf_eq (h : Header) (n : Str) : fieldOf h n = lookup h n := rfl

theorem lookup_fold {n m : Str} (h : Header) (e : fold n = fold m) : lookup h n = lookup h m := by
  unfold lookup; rw [e]

theorem toInt_fits {n : Int} (h : Lexical.Spec.Fits Lexical.int32 n) : toInt n = n := by
  simp only [Lexical.Spec.Fits, Lexical.int32, if_true] at h
  unfold toInt
  omega

theorem strtol_put {n : Int} (h : Lexical.Spec.Fits Lexical.int32 n) (rest : Str) (hr : ∀ c ∈ rest.head?, Decimal.isDigit c = false) :
    strtol (Lexical.put n ++ rest) = (n, rest) := by
  unfold strtol
  rw [HttpMsg.Lemmas.scanD_put n rest hr]
  simp only [Lexical.Spec.Fits, Lexical.int32, if_true] at h
  have : max (-(2 ^ 63)) (min n (2 ^ 63 - 1)) = n := by omega
  dsimp only
  rw [this]

theorem space_not_digit {c : UInt8} (h : Space c) : Decimal.isDigit c = false := by
  have : ∀ i : Fin 256, Http.isspace (UInt8.ofNat i) = true → Decimal.isDigit (UInt8.ofNat i) = false := by decide +kernel
  have := this ⟨c.toNat, c.toNat_lt⟩
  simp only [UInt8.ofNat_toNat] at this
  exact this ((Http.Lemmas.isspace_iff c).2 h)

theorem status_value {code : Int} {space reason : Str} (hc : Lexical.Spec.Fits Lexical.int32 code) (h1 : ∀ c ∈ space, Space c)
    (h2 : space = [] → reason = []) (h3 : ∀ c ∈ reason.head?, ¬ Space c) (h4 : 0 ∉ space ++ reason) :
    let r := strtol ((Lexical.put code ++ space ++ reason).takeWhile (· ≠ 0))
    toInt r.1 = code ∧ r.2.dropWhile isspace = reason := by
  have hz : (Lexical.put code ++ space ++ reason).takeWhile (· ≠ 0) = Lexical.put code ++ (space ++ reason) := by
    have := (Lexical.Lemmas.takeWhile_split (p := fun c => decide (c ≠ 0)) (Lexical.put code ++ (space ++ reason)) [] (fun c hc => by
      simp only [decide_eq_true_eq]
      rintro rfl
      rcases List.mem_append.1 hc with hc | hc
      · have := HttpMsg.Lemmas.put_chars code 0 hc
        revert this; decide
      · exact h4 hc) (by simp)).1
    simpa using this
  have hs := strtol_put hc (space ++ reason) (by
    intro c hc
    cases space with
    | nil => rw [h2 rfl] at hc; simp at hc
    | cons d l =>
      simp only [List.cons_append, List.head?_cons, Option.mem_some_iff] at hc
      subst hc
      exact space_not_digit (h1 _ (by simp)))
  dsimp only
  rw [hz, hs]
  refine ⟨toInt_fits hc, ?_⟩
  rw [List.dropWhile_append_of_pos (fun c hc => (Http.Lemmas.isspace_iff c).2 (h1 c hc))]
  exact Http.Lemmas.dropWhile_head fun c hc => by
    rw [Bool.eq_false_iff]
    exact fun h' => h3 c hc ((Http.Lemmas.isspace_iff c).1 h')

theorem status_lower : fold (ascii "status") = fold (ascii "Status") := by decide +kernel
theorem location_lower : fold (ascii "location") = fold (ascii "Location") := by decide +kernel
theorem type_lower : fold (ascii "content-type") = fold (ascii "Content-Type") := by decide +kernel
theorem status_ne_type : fold (ascii "content-type") ≠ fold (ascii "status") := by decide +kernel
theorem type_ne_location : fold (ascii "content-type") ≠ fold (ascii "location") := by decide +kernel

theorem erase_absent (k : Str) (h : Header) (hk : fold k ∉ names h) : Http.erase k h = h := by
  induction h with
  | nil => rfl
  | cons e h ih =>
    have e1 : names (e :: h) = fold e.1 :: names h := rfl
    rw [e1, List.mem_cons, not_or] at hk
    unfold Http.erase
    rw [if_neg (fun h' => hk.1 ((Http.Lemmas.cicmp_iff _ _).1 h').symm), ih hk.2]

theorem statusOf_eq {h : Header} {code : Int} {reason : Str} (ha : Answer h code reason) (hl : LegalAnswer code reason) (g : Header)
    (hg : ∀ n, fold (ascii "content-type") ≠ fold n → lookup g n = lookup h n) :
    statusOf g = (code, reason, Http.erase (ascii "status") g) := by
  have h1 : lookup g (ascii "status") = fieldOf h (ascii "Status") := by
    rw [hg _ status_ne_type, fieldOf_eq, lookup_fold h status_lower]
  have h2 : lookup g (ascii "location") = fieldOf h (ascii "Location") := by
    rw [hg _ type_ne_location, fieldOf_eq, lookup_fold h location_lower]
  unfold statusOf
  simp only [Http.Lemmas.hasKey_iff, Http.Lemmas.getConst_eq, h1, h2]
  cases ha with
  | status _ space _ a2 a3 a4 a5 a6 =>
    rw [a2]
    obtain ⟨s1, s2⟩ := status_value hl.codeFits a3 a4 a5 a6
    simp only [Option.isSome_some, if_true, Option.getD_some]
    rw [s1, s2]
  | found l a1 a2 =>
    rw [a1, a2]
    have : Http.erase (ascii "status") g = g := erase_absent _ _ (Http.Lemmas.lookup_none.1 (h1.trans a1))
    simp [this]
  | ok a1 a2 =>
    rw [a1, a2]
    have : Http.erase (ascii "status") g = g := erase_absent _ _ (Http.Lemmas.lookup_none.1 (h1.trans a1))
    simp [this]

/-! ### The response -/

theorem mem_erase {e : Str × Str} {k : Str} {h : Header} (he : e ∈ Http.erase k h) : e ∈ h := by
  induction h with
  | nil => exact he
  | cons x h ih =>
    unfold Http.erase at he
    split at he
    · exact List.mem_cons_of_mem _ he
    · rcases List.mem_cons.1 he with rfl | he
      · simp
      · exact List.mem_cons_of_mem _ (ih he)

theorem refill (g : Header) : ∀ done : Header, (names (done ++ g)).Nodup → g.foldl (fun h e => Http.set e.1 e.2 h) done = done ++ g := by
  induction g with
  | nil => intro done _; simp
  | cons e g ih =>
    intro done hn
    have hnew : fold e.1 ∉ names done := by
      have e1 : names (done ++ e :: g) = names done ++ fold e.1 :: names g := by simp [names]
      rw [e1, List.nodup_append] at hn
      intro hx
      exact hn.2.2 _ hx _ (by simp) rfl
    rw [List.foldl_cons, Http.Lemmas.set_new _ _ _ hnew, ih _ (by simpa using hn)]
    simp

/-- The fields of the program that are neither its status nor its type. -/
def plainFields (h : Header) : Header := Http.erase (ascii "status") (Http.erase (ascii "content-type") h)

/-- The type of the answer. -/
def typeOf (h : Header) : Str := (fieldOf h (ascii "Content-Type")).getD (ascii "text/html; charset=utf-8")

theorem plain_names {h : Header} (hn : (names h).Nodup) :
    (names (plainFields h)).Nodup ∧ fold (ascii "Content-Type") ∉ names (plainFields h) := by
  have h1 := Http.Lemmas.names_erase (ascii "content-type") h hn
  have hn1 : (names (Http.erase (ascii "content-type") h)).Nodup := by rw [h1]; exact hn.filter _
  have h2 := Http.Lemmas.names_erase (ascii "status") _ hn1
  unfold plainFields
  rw [h2, h1]
  refine ⟨(hn.filter _).filter _, ?_⟩
  rw [← type_lower]
  simp

theorem plain_lookup {h : Header} (hn : (names h).Nodup) (n : Str) :
    lookup (plainFields h) n = if fold (ascii "status") = fold n then none else if fold (ascii "content-type") = fold n then none else lookup h n := by
  have hn1 : (names (Http.erase (ascii "content-type") h)).Nodup := by
    rw [Http.Lemmas.names_erase _ _ hn]; exact hn.filter _
  unfold plainFields
  rw [Http.Lemmas.lookup_erase _ _ _ hn1, Http.Lemmas.lookup_erase _ _ _ hn]

theorem genResp_eq {h : Header} {body : Str} (hl : LegalHeader h) {code : Int} {reason : Str} (ha : Answer h code reason) (hla : LegalAnswer code reason) :
    genResp (output h body) = .ok ⟨(1, 1), code, reason, plainFields h ++ [(ascii "Content-Type", typeOf h)], body⟩ := by
  unfold genResp
  rw [output_eq, headerOfStream_lf h body hl]
  dsimp only
  have hct : (if hasKey (ascii "content-type") h = true then (getConst (ascii "content-type") h, Http.erase (ascii "content-type") h)
      else (ascii "text/html; charset=utf-8", h)) = (typeOf h, Http.erase (ascii "content-type") h) := by
    rw [Http.Lemmas.hasKey_iff, Http.Lemmas.getConst_eq]
    unfold typeOf
    rw [fieldOf_eq, lookup_fold h type_lower.symm]
    cases hx : lookup h (ascii "content-type") with
    | some v => rfl
    | none =>
      have := erase_absent _ _ (Http.Lemmas.lookup_none.1 hx)
      rw [this]
      rfl
  rw [hct]
  dsimp only
  rw [statusOf_eq ha hla (Http.erase (ascii "content-type") h) (fun n hn => by rw [Http.Lemmas.lookup_erase _ _ _ hl.once, if_neg hn])]
  dsimp only
  obtain ⟨p1, p2⟩ := plain_names hl.once
  have hs : Http.set (ascii "Content-Type") (typeOf h) (Http.erase (ascii "status") (Http.erase (ascii "content-type") h))
      = plainFields h ++ [(ascii "Content-Type", typeOf h)] := Http.Lemmas.set_new _ _ _ p2
  rw [hs, refill _ [] ?_]
  · rfl
  · have e1 : names ([] ++ (plainFields h ++ [(ascii "Content-Type", typeOf h)])) = names (plainFields h) ++ [fold (ascii "Content-Type")] := by
      simp [names]
    rw [e1, List.nodup_append]
    refine ⟨p1, by simp, ?_⟩
    intro a ha b hb
    rw [List.mem_singleton.1 hb]
    rintro rfl
    exact p2 ha

theorem lookup_append (g : Header) (e : Str × Str) (n : Str) :
    lookup (g ++ [e]) n = (lookup g n).or (if fold e.1 = fold n then some e.2 else none) := by
  unfold lookup
  rw [List.find?_append]
  cases hx : g.find? fun e => fold e.1 = fold n with
  | some v => rfl
  | none =>
    by_cases hn : fold e.1 = fold n <;> simp [hn]

/-- The fields of the response are those the program asked for. -/
theorem response_field {h : Header} (hn : (names h).Nodup) (n : Str) : field (plainFields h ++ [(ascii "Content-Type", typeOf h)]) n = answered h n := by
  rw [HttpMsg.Lemmas.field_eq, lookup_append, plain_lookup hn]
  unfold answered
  rw [status_lower, type_lower]
  by_cases h1 : fold n = fold (ascii "Status")
  · have h2 : fold (ascii "Content-Type") ≠ fold n := by rw [h1]; decide +kernel
    rw [if_pos h1.symm, if_pos h1, if_neg h2]
    rfl
  · rw [if_neg (Ne.symm h1), if_neg h1]
    by_cases h2 : fold n = fold (ascii "Content-Type")
    · rw [if_pos h2.symm, if_pos h2, if_pos h2.symm]
      unfold typeOf
      rw [fieldOf_eq, fieldOf_eq, lookup_fold h h2]
      rfl
    · rw [if_neg (Ne.symm h2), if_neg h2, if_neg (Ne.symm h2), fieldOf_eq]
      cases lookup h n <;> rfl

theorem type_legal : Legal (ascii "Content-Type", ascii "text/html; charset=utf-8") :=
  ⟨by decide +kernel, by unfold Space; decide +kernel, by decide +kernel, by unfold Space; decide +kernel, by decide +kernel⟩

theorem fold_length {n m : Str} (h : fold n = fold m) : n.length = m.length := by
  have := congrArg List.length h
  simpa [fold] using this

theorem response_legal {h : Header} {body : Str} (hm : LegalMessage h body) {code : Int} {reason : Str} (hla : LegalAnswer code reason) :
    LegalResponse ⟨(1, 1), code, reason, plainFields h ++ [(ascii "Content-Type", typeOf h)], body⟩ := by
  obtain ⟨p1, p2⟩ := plain_names hm.header.once
  have hmem : ∀ e ∈ plainFields h, e ∈ h := fun e he => mem_erase (mem_erase he)
  have hcl : fold (ascii "Content-Type") ≠ fold contentLength := by decide +kernel
  have hte : fold (ascii "Content-Type") ≠ fold transferEncoding := by decide +kernel
  have hv : Lexical.Spec.Fits Lexical.int32 1 ∧ Lexical.Spec.Fits Lexical.int32 1 := by unfold Lexical.Spec.Fits; decide +kernel
  refine ⟨⟨hv, hla.codeFits, hla.reasonLine, ?_⟩, ⟨⟨?_, ?_⟩, ?_, ?_, hm.size⟩⟩
  · have h1 : (Lexical.put code).length ≤ 11 := by
      have hd := HttpMsg.Lemmas.digits_length 9 code.natAbs (by
        have := hla.codeFits
        simp only [Lexical.Spec.Fits, Lexical.int32, if_true] at this
        omega)
      unfold Lexical.put
      split
      · simp only [List.length_cons]; omega
      · omega
    have h2 := hla.short
    have h3 : (httpSlash ++ Lexical.put 1 ++ [46] ++ Lexical.put 1 ++ [32]).length = 9 := by decide +kernel
    simp only [statusText, List.length_append] at h3 ⊢
    simp only [List.length_cons, List.length_nil] at h3 ⊢
    omega
  · intro e he
    rcases List.mem_append.1 he with he | he
    · exact hm.header.fields e (hmem e he)
    · rw [List.mem_singleton.1 he]
      unfold typeOf
      rw [fieldOf_eq]
      cases hx : lookup h (ascii "Content-Type") with
      | none => exact type_legal
      | some v =>
        obtain ⟨e', h1, h2, h3⟩ := HttpMsg.Lemmas.lookup_some hx
        have hl := hm.header.fields e' h1
        have hlen := fold_length h2
        refine ⟨type_legal.nonempty, type_legal.token, ?_, ?_, ?_⟩
        · simpa [← h3] using hl.oneLine
        · simpa [← h3] using hl.start
        · have := hl.short
          simp only [Option.getD_some]
          rw [← hlen, ← h3]
          exact this
  · have e1 : HttpMsg.Spec.names (plainFields h ++ [(ascii "Content-Type", typeOf h)]) = names (plainFields h) ++ [fold (ascii "Content-Type")] := by
      simp [names, HttpMsg.Spec.names]
    rw [e1, List.nodup_append]
    refine ⟨p1, by simp, ?_⟩
    intro a ha b hb
    rw [List.mem_singleton.1 hb]
    rintro rfl
    exact p2 ha
  · intro e he hf
    rcases List.mem_append.1 he with he | he
    · exact hm.length e (hmem e he) hf
    · rw [List.mem_singleton.1 he] at hf
      exact absurd hf hcl
  · intro e he hf
    rcases List.mem_append.1 he with he | he
    · exact hm.plain e (hmem e he) hf
    · rw [List.mem_singleton.1 he] at hf
      exact absurd hf hte

end Verif.CgiServer.Lemmas
