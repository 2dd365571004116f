import Verif.CgiServer.Lemmas
/-! Lemmas about the variables of a request. -/

namespace Verif.CgiServer.Lemmas
open Verif Verif.AssocMap Verif.Socket Verif.Http Verif.HttpMsg Verif.CgiServer Verif.CgiServer.Spec
open Verif.HttpMsg.Spec hiding names
open Verif.Http.Spec (fold Space Legal)
open Verif.Http.Lemmas (names lookup)

theorem upper_eq (s : Str) : strToUpper s = upper s := rfl

theorem case_byte (c : UInt8) : Http.tolower (HttpMsg.toupper c) = Http.tolower c ∧ HttpMsg.toupper (Http.tolower c) = HttpMsg.toupper c := by
  have : ∀ i : Fin 256, Http.tolower (HttpMsg.toupper (UInt8.ofNat i)) = Http.tolower (UInt8.ofNat i)
      ∧ HttpMsg.toupper (Http.tolower (UInt8.ofNat i)) = HttpMsg.toupper (UInt8.ofNat i) := by decide +kernel
  have := this ⟨c.toNat, c.toNat_lt⟩
  simpa only [UInt8.ofNat_toNat] using this

theorem upper_iff (a b : Str) : upper a = upper b ↔ fold a = fold b := by
  have h1 : ∀ s, fold (upper s) = fold s := by
    intro s
    show ((s.map HttpMsg.toupper).map Http.tolower) = s.map Http.tolower
    rw [List.map_map]
    exact List.map_congr_left fun c _ => (case_byte c).1
  have h2 : ∀ s, upper (fold s) = upper s := by
    intro s
    show ((s.map Http.tolower).map HttpMsg.toupper) = s.map HttpMsg.toupper
    rw [List.map_map]
    exact List.map_congr_left fun c _ => (case_byte c).2
  constructor
  · intro h; rw [← h1 a, h, h1]
  · intro h; rw [← h2 a, h, h2]

theorem find_fields (n : Str) : ∀ (h : Header) (env : Env), (names h).Nodup →
    find (h.foldl (fun env e => upsert env (ascii "HTTP_" ++ strToUpper e.1) e.2) env) (ascii "HTTP_" ++ upper n)
      = (lookup h n).or (find env (ascii "HTTP_" ++ upper n)) := by
  intro h
  induction h with
  | nil => intro env _; rfl
  | cons e h ih =>
    intro env hn
    have e1 : names (e :: h) = fold e.1 :: names h := rfl
    rw [e1, List.nodup_cons] at hn
    rw [List.foldl_cons, ih _ hn.2, find_upsert]
    by_cases hc : fold e.1 = fold n
    · have hl : lookup h n = none := Http.Lemmas.lookup_none.2 (hc ▸ hn.1)
      rw [hl, if_pos (by rw [upper_eq, (upper_iff _ _).2 hc])]
      simp [lookup, hc]
    · rw [if_neg (show ¬ ascii "HTTP_" ++ upper n = ascii "HTTP_" ++ strToUpper e.1 from
        fun h' => hc ((upper_iff _ _).1 (List.append_cancel_left h')).symm)]
      simp [lookup, hc]

theorem http_ne (x k : Str) (hk : k.head? ≠ some 72) : ascii "HTTP_" ++ x ≠ k := by
  rintro rfl
  exact hk rfl

theorem plain_absent (h : Header) (k : Str) (hk : k.head? ≠ some 72) : ∀ env : Env, find env k = none →
    find (h.foldl (fun env e => upsert env (ascii "HTTP_" ++ strToUpper e.1) e.2) env) k = none := by
  induction h with
  | nil => intro env h; exact h
  | cons e h ih =>
    intro env he
    rw [List.foldl_cons]
    refine ih _ ?_
    rw [find_upsert, if_neg (Ne.symm (http_ne _ _ hk)), he]

/-- The names of the variables that are not made from the header. -/
def fixedNames : List Str :=
  ["REQUEST_METHOD", "REQUEST_URI", "SCRIPT_NAME", "QUERY_STRING", "REMOTE_ADDR", "REMOTE_PORT", "SERVER_PORT", "SERVER_NAME", "SERVER_PROTOCOL",
    "SERVER_SIGNATURE", "SERVER_SOFTWARE", "CONTENT_LENGTH", "CONTENT_TYPE"].map ascii

theorem envOf_other (at_ : Place) (r : GotRequest) (k : Str) (hk : k ∉ fixedNames) : find (envOf at_ r) k = find (envOfHeader r.header) k := by
  simp only [fixedNames, List.map_cons, List.map_nil, List.mem_cons, List.not_mem_nil, or_false, not_or] at hk
  obtain ⟨h1, h2, h3, h4, h5, h6, h7, h8, h9, h10, h11, h12, h13⟩ := hk
  unfold envOf
  simp only [find_upsert, if_neg h3, if_neg h4, if_neg h5, if_neg h6, if_neg h7, if_neg h8, if_neg h9, if_neg h10,
    if_neg h11, if_neg h12, if_neg h13]
  split
  · rw [find_upsert, if_neg h2, find_upsert, if_neg h2, find_upsert, if_neg h1]
  · rw [find_upsert, if_neg h2, find_upsert, if_neg h1]

theorem envOf_fixed (at_ : Place) (r : GotRequest) :
    find (envOf at_ r) (ascii "REQUEST_METHOD") = some r.method
      ∧ find (envOf at_ r) (ascii "REQUEST_URI") = some (if r.uri.query = [] then r.uri.path else r.uri.path ++ [63] ++ r.uri.query)
      ∧ find (envOf at_ r) (ascii "SCRIPT_NAME") = some r.uri.path ∧ find (envOf at_ r) (ascii "QUERY_STRING") = some r.uri.query
      ∧ find (envOf at_ r) (ascii "CONTENT_LENGTH") = some (field r.header contentLength)
      ∧ find (envOf at_ r) (ascii "CONTENT_TYPE") = some (field r.header (ascii "Content-Type"))
      ∧ (find (envOf at_ r) (ascii "REMOTE_ADDR") = some at_.remoteAddr ∧ find (envOf at_ r) (ascii "REMOTE_PORT") = some (Lexical.put at_.remotePort))
      ∧ (find (envOf at_ r) (ascii "SERVER_PORT") = some (Lexical.put at_.port) ∧ find (envOf at_ r) (ascii "SERVER_PROTOCOL") = some (ascii "HTTP/1.1")) := by
  unfold envOf
  simp only [find_upsert, if_true]
  refine ⟨?_, ?_, ?_, ?_, ?_, ?_, ⟨?_, ?_⟩, ?_, ?_⟩
  all_goals repeat rw [if_neg (by decide +kernel)]
  · split
    · rw [find_upsert, if_neg (by decide +kernel), find_upsert, if_neg (by decide +kernel), find_upsert, if_pos rfl]
    · rw [find_upsert, if_neg (by decide +kernel), find_upsert, if_pos rfl]
  · by_cases hq : r.uri.query = []
    · rw [if_neg (by simp [hq]), if_pos hq, find_upsert, if_pos rfl]
    · rw [if_pos hq, if_neg hq, find_upsert, if_pos rfl]
      simp
  · rw [HttpMsg.Lemmas.get_eq]
    rfl
  · rw [HttpMsg.Lemmas.get_eq, HttpMsg.Lemmas.get_eq]
    show some (field (update contentLength id r.header) (ascii "Content-Type")) = _
    rw [HttpMsg.Lemmas.field_update]
  · rfl
  · rfl

theorem sent_other (h : Header) (body n : Str) (hn : fold n ≠ fold contentLength) : field (sentHeader h body) n = field h n := by
  unfold sentHeader
  split
  · rfl
  · rw [HttpMsg.Lemmas.field_eq, lookup_append, if_neg (Ne.symm hn), HttpMsg.Lemmas.field_eq]
    cases lookup h n <;> rfl

theorem variables_of {at_ : Place} {q : Request} {r : GotRequest} (hm : r.method = q.method) (hu : r.uri = q.uri)
    (hf : ∀ n, field r.header n = field (sentHeader q.header q.body) n) (hn : (names r.header).Nodup) : Variables (envOf at_ r) at_ q := by
  obtain ⟨h1, h2, h3, h4, h5, h6, h7, h8⟩ := envOf_fixed at_ r
  rw [hm] at h1
  rw [hu] at h2 h3 h4
  rw [hf] at h5 h6
  rw [sent_other _ _ _ (by decide +kernel)] at h6
  refine ⟨h1, h2, h3, h4, h5, h6, h7, h8, fun n => ?_⟩
  have hnot : ascii "HTTP_" ++ upper n ∉ fixedNames := by
    intro hmem
    have : ∀ k ∈ fixedNames, k.head? ≠ some 72 := by decide +kernel
    exact http_ne (upper n) _ (this _ hmem) rfl
  rw [envOf_other _ _ _ hnot, ← hf, HttpMsg.Lemmas.field_eq]
  unfold envOfHeader
  rw [find_fields n r.header [] hn]
  cases lookup r.header n <;> rfl

/-! ### The header that the receiver keeps -/

theorem update_nodup (k : Str) (h : Header) (hn : (names h).Nodup) : (names (update k id h)).Nodup := by
  rw [Http.Lemmas.names_update]
  split
  · exact hn
  · rename_i hk
    rw [List.nodup_append]
    refine ⟨hn, by simp, ?_⟩
    intro a ha b hb
    rw [List.mem_singleton.1 hb]
    rintro rfl
    exact hk ha

theorem bodyOf_nodup {h h' : Header} {b : Body} (hb : bodyOf h = .ok (b, h')) (hn : (names h).Nodup) : (names h').Nodup := by
  unfold bodyOf at hb
  simp only [HttpMsg.Lemmas.get_eq] at hb
  have h1 := update_nodup transferEncoding h hn
  have h2 := update_nodup contentLength _ h1
  split at hb
  · cases hb; exact h1
  · split at hb
    · split at hb
      · cases hb
      · cases hb; exact h2
    · cases hb; exact h2

end Verif.CgiServer.Lemmas
