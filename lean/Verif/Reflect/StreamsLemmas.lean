import Verif.Reflect.SpecStreams
import Verif.Reflect.Lemmas
import Verif.Serial.Lemmas
/-!
# Lemmas about types that contain streams
-/
namespace Verif.Reflect.Lemmas
open Verif.Reflect Verif.Reflect.Spec
open Verif.Serial (Strm)
open Verif.Serial.Lemmas

/-! ### Formats -/

mutual
def ffmt : Rep → Option Form
  | .bool => some (.plain .bool)
  | .char => some (.plain (.prim 1 true))
  | .int s n => some (.plain (.prim n s))
  | .float => none
  | .str => some (.plain .str)
  | .stream => some .stream
  | .arr t => (ffmt t).map .vec
  | .map k v => (fmt k).bind fun a => (ffmt v).map fun b => .map a b
  | .cls _ ms => ffmtMems ms
def ffmtMems : List Mem → Option Form
  | [] => some (.plain (.arr 0 .bool))
  | .mk _ t :: ms => (ffmt t).bind fun a => (ffmtMems ms).map fun b => .pair a b
end

mutual
theorem form_ffmt : ∀ t : Ty, NoFloat t → form t = ffmt (desc t)
  | .bool, _ => rfl
  | .char, _ => rfl
  | .int _ _, _ => rfl
  | .float _, h => by simp [NoFloat] at h
  | .str, _ => rfl
  | .stream, _ => rfl
  | .vec t, h => by simp only [NoFloat] at h; simp [form, desc, ffmt, form_ffmt t h]
  | .map k v, h => by simp only [NoFloat] at h; simp [form, desc, ffmt, wire_fmt k h.1, form_ffmt v h.2]
  | .cls body, h => by simp only [NoFloat] at h; simp [form, desc, ffmt, formBody_ffmt body h]
theorem formBody_ffmt : ∀ as : List Act, NoFloatBody as → formBody as = ffmtMems (descBody as)
  | [], _ => rfl
  | .name _ :: as, h => by simp only [NoFloatBody] at h; simp [formBody, descBody, formBody_ffmt as h]
  | .member _ t :: as, h => by
    simp only [NoFloatBody] at h
    simp [formBody, descBody, ffmtMems, form_ffmt t h.1, formBody_ffmt as h.2]
  | .plain t :: as, h => by
    simp only [NoFloatBody] at h
    simp [formBody, descBody, ffmtMems, form_ffmt t h.1, formBody_ffmt as h.2]
end

mutual
theorem wire_some : ∀ t : Ty, NoStream t → ∃ w, wire t = some w
  | .bool, _ => ⟨_, rfl⟩
  | .char, _ => ⟨_, rfl⟩
  | .int _ _, _ => ⟨_, rfl⟩
  | .float _, _ => ⟨_, rfl⟩
  | .str, _ => ⟨_, rfl⟩
  | .stream, h => by simp [NoStream] at h
  | .vec t, h => by
    simp only [NoStream] at h; obtain ⟨w, e⟩ := wire_some t h; exact ⟨_, by simp only [wire, e]; rfl⟩
  | .map k v, h => by
    simp only [NoStream] at h
    obtain ⟨a, e⟩ := wire_some k h.1; obtain ⟨b, e'⟩ := wire_some v h.2
    exact ⟨_, by simp only [wire, e, e']; rfl⟩
  | .cls body, h => by
    simp only [NoStream] at h; obtain ⟨w, e⟩ := wireBody_some body h; exact ⟨w, by rw [wire, e]⟩
theorem wireBody_some : ∀ as : List Act, NoStreamBody as → ∃ w, wireBody as = some w
  | [], _ => ⟨_, rfl⟩
  | .name _ :: as, h => by
    simp only [NoStreamBody] at h; obtain ⟨w, e⟩ := wireBody_some as h; exact ⟨w, by rw [wireBody, e]⟩
  | .member _ t :: as, h => by
    simp only [NoStreamBody] at h
    obtain ⟨a, e⟩ := wire_some t h.1; obtain ⟨b, e'⟩ := wireBody_some as h.2
    exact ⟨_, by simp only [wireBody, e, e']; rfl⟩
  | .plain t :: as, h => by
    simp only [NoStreamBody] at h
    obtain ⟨a, e⟩ := wire_some t h.1; obtain ⟨b, e'⟩ := wireBody_some as h.2
    exact ⟨_, by simp only [wireBody, e, e']; rfl⟩
end

mutual
theorem form_some : ∀ t : Ty, PlainKeys t → ∃ w, form t = some w
  | .bool, _ => ⟨_, rfl⟩
  | .char, _ => ⟨_, rfl⟩
  | .int _ _, _ => ⟨_, rfl⟩
  | .float _, _ => ⟨_, rfl⟩
  | .str, _ => ⟨_, rfl⟩
  | .stream, _ => ⟨_, rfl⟩
  | .vec t, h => by
    simp only [PlainKeys] at h; obtain ⟨w, e⟩ := form_some t h; exact ⟨_, by simp only [form, e]; rfl⟩
  | .map k v, h => by
    simp only [PlainKeys] at h
    obtain ⟨a, e⟩ := wire_some k h.1; obtain ⟨b, e'⟩ := form_some v h.2
    exact ⟨_, by simp only [form, e, e']; rfl⟩
  | .cls body, h => by
    simp only [PlainKeys] at h; obtain ⟨w, e⟩ := formBody_some body h; exact ⟨w, by rw [form, e]⟩
theorem formBody_some : ∀ as : List Act, PlainKeysBody as → ∃ w, formBody as = some w
  | [], _ => ⟨_, rfl⟩
  | .name _ :: as, h => by
    simp only [PlainKeysBody] at h; obtain ⟨w, e⟩ := formBody_some as h; exact ⟨w, by rw [formBody, e]⟩
  | .member _ t :: as, h => by
    simp only [PlainKeysBody] at h
    obtain ⟨a, e⟩ := form_some t h.1; obtain ⟨b, e'⟩ := formBody_some as h.2
    exact ⟨_, by simp only [formBody, e, e']; rfl⟩
  | .plain t :: as, h => by
    simp only [PlainKeysBody] at h
    obtain ⟨a, e⟩ := form_some t h.1; obtain ⟨b, e'⟩ := formBody_some as h.2
    exact ⟨_, by simp only [formBody, e, e']; rfl⟩
end

/-! ### Round trip -/

theorem unescape_done (data : List UInt8) (k : Nat) (tail : List UInt8) (u : Bool) :
    Serial.unescape (k + 1 + data.length) 0 0 [] ⟨Serial.escape data ++ tail, true, u⟩ = some (data, ⟨tail, true, u⟩) := by
  have he : Serial.escape data ++ tail = esc data ++ (0xff :: 0x00 :: tail) := by simp [Serial.escape, esc]
  obtain ⟨a, b, e⟩ := unescape_esc data (k + 1) 0 0 [] (0xff :: 0x00 :: tail) u
  rw [he, e, Serial.unescape]
  simp only [readChar_cons, if_true, List.nil_append]

theorem escape_length (data : List UInt8) : data.length + 2 ≤ (Serial.escape data).length := by
  unfold Serial.escape
  rw [List.length_append, List.length_flatMap]
  have : data.length ≤ (data.map fun c => (if c = 0xff then [0xff, 0xff] else [c] : List UInt8).length).sum := by
    induction data with
    | nil => simp
    | cons c cs ih =>
      rw [List.map_cons, List.sum_cons, List.length_cons]
      split <;> simp only [List.length_cons, List.length_nil] <;> omega
  simp only [List.length_cons, List.length_nil]
  omega

theorem seek_put (data : List UInt8) : TmpStream.seek0 (TmpStream.put data TmpStream.newFile) = ⟨data, 0, 0, true, false⟩ := by
  simp [TmpStream.seek0, TmpStream.put, TmpStream.newFile, TmpStream.setG, TmpStream.setP]

theorem rt_stream : RT readStream (fun v bs => bs = (TmpStream.send v).1) (fun v => v = arrives .stream v)
    (fun s => s = TmpStream.newFile) := by
  rintro v _ tail _ u hv rfl rfl
  generalize hd : v.data.drop v.gpos = data
  have hs : (TmpStream.send v).1 = Serial.escape data := by simp only [TmpStream.send, TmpStream.takeAll, hd]
  have hv' : v = ⟨data, 0, 0, true, false⟩ := by rw [hv]; simp only [arrives, hd]
  rw [hs]
  have hl := escape_length data
  obtain ⟨k, hk⟩ : ∃ k, (Serial.escape data ++ tail).length + 2 = k + 1 + data.length :=
    ⟨(Serial.escape data ++ tail).length + 1 - data.length, by rw [List.length_append]; omega⟩
  simp only [readStream, hk, TmpStream.recv, unescape_done, Option.map_some, seek_put, hv']

theorem unused_dflt : ∀ t, Unused t (fdflt t)
  | .plain t => shape_dflt t
  | .stream => rfl
  | .vec _ => fun _ hx => nomatch hx
  | .map _ _ => trivial
  | .pair a b => ⟨unused_dflt a, unused_dflt b⟩

/-- Values whose streams are as they arrive. -/
def Still : (t : Form) → FVal t → Prop
  | .plain _ => fun _ => True
  | .stream => fun v => v = arrives .stream v
  | .vec t => fun v => ∀ x ∈ v, Still t x
  | .map _ v => fun m => ∀ x ∈ m, Still v x.2
  | .pair a b => fun v => Still a v.1 ∧ Still b v.2

theorem rt_fread : ∀ t, RT (fread t) (FWrites t) (fun v => FWF t v ∧ Still t v) (Unused t)
  | .plain t => rt_mono (rt_read t) (fun _ _ _ h => h) (fun _ h => h.1) (fun _ h => h)
  | .stream => rt_mono rt_stream (fun _ _ _ h => h) (fun _ h => h.2) (fun _ h => h)
  | .vec t => rt_mono (rt_seq (rt_fread t) (unused_dflt t))
      (by rintro v bs ⟨⟨hl, _⟩, _⟩ ⟨body, h1, h2⟩
          rw [Nat.mod_eq_of_lt hl, List.take_length] at h2; exact ⟨body, h1, h2⟩)
      (fun _ h => ⟨h.1.1, fun x hx => ⟨h.1.2 x hx, h.2 x hx⟩⟩) (fun _ h => h)
  | .map k v => rt_mono (rt_assoc (rt_pair (rt_read k) (rt_fread v)) ⟨shape_dflt k, unused_dflt v⟩ false
        (fun a => (sto_vlt k).irrefl a.1) (fun a b c => (sto_vlt k).trans a.1 b.1 c.1))
      (by rintro m bs - ⟨body, h1, h2⟩; exact ⟨body, m, .refl _, h1, h2⟩)
      (fun _ h => ⟨h.1.1, h.1.2.1, fun x hx => ⟨(h.1.2.2 x hx).1, (h.1.2.2 x hx).2, h.2 x hx⟩⟩) (fun _ h => h)
  | .pair a b => rt_mono (rt_pair (rt_fread a) (rt_fread b)) (fun _ _ _ h => h)
      (fun _ h => ⟨⟨h.1.1, h.2.1⟩, h.1.2, h.2.2⟩) (fun _ h => h)

theorem writesAll_map {α β : Type} {W : α → List UInt8 → Prop} {W' : β → List UInt8 → Prop} (f : α → β)
    (h : ∀ x bs, W x bs → W' (f x) bs) : ∀ (l : List α) (bs : List UInt8), Serial.WritesAll W l bs → Serial.WritesAll W' (l.map f) bs
  | [], _, hw => hw
  | x :: xs, _, ⟨a, b, e, h1, h2⟩ => ⟨a, b, e, h x a h1, writesAll_map f h xs b h2⟩

theorem writes_arrives : ∀ t v bs, FWrites t v bs → FWrites t (arrives t v) bs
  | .plain _, _, _, h => h
  | .stream, v, bs, h => by
    simp only [FWrites, arrives, TmpStream.send, TmpStream.takeAll] at h ⊢
    simpa using h
  | .vec t, v, bs, ⟨body, h1, h2⟩ => by
    refine ⟨body, by simpa only [arrives, List.length_map] using h1, ?_⟩
    have := writesAll_map (arrives t) (writes_arrives t) _ _ h2
    rw [List.map_take] at this
    simpa only [arrives, List.length_map] using this
  | .map k w, v, bs, ⟨body, h1, h2⟩ => by
    refine ⟨body, by simpa only [arrives, List.length_map] using h1, ?_⟩
    exact writesAll_map (fun p : Serial.Val k × FVal w => (p.1, arrives w p.2))
      (fun x bs ⟨a, b, e, ha, hb⟩ => ⟨a, b, e, ha, writes_arrives w _ _ hb⟩) _ _ h2
  | .pair a b, v, bs, ⟨x, y, e, hx, hy⟩ => ⟨x, y, e, writes_arrives a _ _ hx, writes_arrives b _ _ hy⟩

theorem wf_arrives : ∀ t v, FWF t v → FWF t (arrives t v)
  | .plain _, _, h => h
  | .stream, _, _ => trivial
  | .vec t, v, h => by
    refine ⟨by simpa only [arrives, List.length_map] using h.1, fun x hx => ?_⟩
    obtain ⟨y, hy, rfl⟩ := List.mem_map.1 hx
    exact wf_arrives t y (h.2 y hy)
  | .map k w, v, h => by
    refine ⟨by simpa only [arrives, List.length_map] using h.1, ?_, fun x hx => ?_⟩
    · simp only [arrives, List.pairwise_map]; exact h.2.1
    · obtain ⟨y, hy, rfl⟩ := List.mem_map.1 hx
      exact ⟨(h.2.2 y hy).1, wf_arrives w _ (h.2.2 y hy).2⟩
  | .pair a b, v, h => ⟨wf_arrives a _ h.1, wf_arrives b _ h.2⟩

theorem still_arrives : ∀ t v, Still t (arrives t v)
  | .plain _, _ => trivial
  | .stream, _ => by simp [Still, arrives]
  | .vec t, v => fun x hx => by obtain ⟨y, hy, rfl⟩ := List.mem_map.1 hx; exact still_arrives t y
  | .map k w, v => fun x hx => by obtain ⟨y, hy, rfl⟩ := List.mem_map.1 hx; exact still_arrives w _
  | .pair a b, v => ⟨still_arrives a _, still_arrives b _⟩

/-! ### The loop of the reader -/

/-- A loop that goes on after all bytes are gone goes on for ever. -/
theorem unescape_fuel : ∀ (n : Nat) (c0 c1 : UInt8) (out : List UInt8) (s : Strm), (if s.good then s.rest.length + 2 else 1) ≤ n →
    Serial.unescape n c0 c1 out s = none → ∀ m, Serial.unescape m c0 c1 out s = none
  | 0, _, _, _, s, hn, _ => by split at hn <;> omega
  | n + 1, c0, c1, out, s, hn, h => by
    intro m
    cases hg : s.good with
    | false =>
      by_cases hc : c0 = 0xff ∧ c1 = 0
      · rw [Serial.unescape] at h
        simp only [readChar_bad _ hg, hc.1, hc.2, if_true] at h
        cases h
      · exact unescape_bad m c0 c1 out s hg hc
    | true =>
      obtain ⟨rest, good, u⟩ := s
      simp only at hg; subst hg
      simp only [if_true] at hn
      cases m with
      | zero => rfl
      | succ m =>
        rw [Serial.unescape] at h ⊢
        cases rest with
        | nil =>
          simp only [readChar_empty] at h ⊢
          by_cases h0 : c0 = 0xff
          · rw [if_pos h0] at h ⊢
            rw [readChar_bad _ rfl] at h ⊢
            by_cases h1 : c1 = 0
            · rw [if_pos h1] at h; cases h
            · rw [if_neg h1]; exact unescape_bad m _ _ _ _ rfl (fun h => h1 h.2)
          · rw [if_neg h0]; exact unescape_bad m _ _ _ _ rfl (fun h => h0 h.1)
        | cons b rest =>
          simp only [readChar_cons, List.length_cons] at h ⊢ hn
          by_cases h0 : b = 0xff
          · rw [if_pos h0] at h ⊢
            cases rest with
            | nil =>
              rw [readChar_empty] at h ⊢
              by_cases h1 : c1 = 0
              · simp only [h1, if_true] at h; cases h
              · simp only [h1, if_false] at h ⊢; exact unescape_bad m _ _ _ _ rfl (fun h => h1 h.2)
            | cons b' rest =>
              rw [readChar_cons] at h ⊢
              by_cases h1 : b' = 0
              · simp only [h1, if_true] at h; cases h
              · simp only [h1, if_false] at h ⊢
                exact unescape_fuel n _ _ _ _ (by simp only [if_true, List.length_cons] at hn ⊢; omega) h m
          · rw [if_neg h0] at h ⊢
            exact unescape_fuel n _ _ _ _ (by simp only [if_true]; omega) h m

end Verif.Reflect.Lemmas
