import Verif.Reflect.StreamsLemmas
import Verif.Reflect.Props
/-!
# C79: the description of a type that contains streams
-/
namespace Verif.Reflect.PropsStreams
open Verif.Reflect Verif.Reflect.Spec Verif.Reflect.Lemmas
open Verif.Serial.Spec (archive)

/-- Every type has a form in the archives, unless a stream occurs in the key of a
map. -/
theorem has_form (t : Ty) (h : PlainKeys t) : ∃ f, form t = some f := form_some t h

/-- What is written of a value with streams can be read: exactly its bytes are
consumed, and the value arrives, with what was left to read in each stream in a
new file at its beginning, if the streams to read into are unused. -/
theorem streams_arrive (t : Form) (v old : FVal t) (bs tail : Str) (hv : FWF t v) (ho : Unused t old)
    (hw : FWrites t v bs) : fread t old (archive (bs ++ tail)) = (arrives t v, archive tail) :=
  rt_fread t (arrives t v) bs tail old false ⟨wf_arrives t v hv, still_arrives t v⟩ (writes_arrives t v bs hw) ho

/-- Two types without floating point numbers that are described by the same
text are written in the same way, also if they contain streams. -/
theorem same_text_same_form_partial (a b : Ty) (r q : Rep) (ha : NoFloat a) (hb : NoFloat b)
    (hr : getType a = some r) (hq : getType b = some q) (hc : Clear r) (hc' : Clear q)
    (h : print r = print q) : form a = form b := by
  rw [Props.describes] at hr hq
  obtain ⟨e, _⟩ := Props.text_tells_partial r q [] [] hc hc' (by rw [h])
  rw [form_ffmt a ha, form_ffmt b hb, Option.some.inj hr, Option.some.inj hq, e]

/-- So a peer whose type has the same description receives what was sent, with
its streams. -/
theorem peers_understand_streams_partial (a b : Ty) (r q : Rep) (ha : NoFloat a) (hb : NoFloat b) (hk : PlainKeys a)
    (hr : getType a = some r) (hq : getType b = some q) (hc : Clear r) (hc' : Clear q) (h : print r = print q) :
    ∃ f, form a = some f ∧ form b = some f ∧ ∀ (v old : FVal f) (bs tail : Str), FWF f v → Unused f old → FWrites f v bs →
      fread f old (archive (bs ++ tail)) = (arrives f v, archive tail) := by
  obtain ⟨f, e⟩ := has_form a hk
  exact ⟨f, e, by rw [← same_text_same_form_partial a b r q ha hb hr hq hc hc' h, e],
    fun v old bs tail hv ho hw => streams_arrive f v old bs tail hv ho hw⟩

/-- The reader of a stream ends within as many iterations as there are
bytes, and two more, or never. -/
theorem never_ends (s : Serial.Strm) (old : TmpStream.S)
    (h : TmpStream.recv (s.rest.length + 2) s old = none) (n : Nat) : TmpStream.recv n s old = none := by
  simp only [TmpStream.recv, Option.map_eq_none_iff] at h ⊢
  exact unescape_fuel _ _ _ _ _ (by split <;> omega) h n

/-! ### Examples -/

/-- A class with a name and attached files. -/
def mail : Ty := .cls [.name (txt "Mail"), .member (txt "to") .str, .member (txt "files") (.map .str .stream)]

example : form mail = some (.pair (.plain .str) (.pair (.map .str .stream) (.plain (.arr 0 .bool)))) := rfl

example : PlainKeys mail ∧ NoFloat mail := by simp [mail, PlainKeys, PlainKeysBody, NoStream, NoFloat, NoFloatBody]

/-- A file of which one byte has been read, with a byte 255 in it. -/
def half : TmpStream.S := ⟨[1, 255, 2], 1, 1, true, false⟩

example : FWrites (.pair (.plain .str) .stream) ([7], half) [1, 0, 0, 0, 7, 255, 255, 2, 255, 0] :=
  ⟨[1, 0, 0, 0, 7], [255, 255, 2, 255, 0], rfl, by simp only [FWrites, Serial.Writes]; decide,
    by simp only [FWrites]; decide +kernel⟩

example : arrives (.pair (.plain .str) .stream) ([7], half) = ([7], ⟨[255, 2], 0, 0, true, false⟩) := rfl

example : fread (.pair (.plain .str) .stream) (fdflt _) (archive [1, 0, 0, 0, 7, 255, 255, 2, 255, 0, 9]) =
    (([7], ⟨[255, 2], 0, 0, true, false⟩), archive [9]) := by decide +kernel

example : Unused (.pair (.plain .str) .stream) (fdflt _) := unused_dflt _

/-- An archive that ends within a stream. -/
example : TmpStream.recv 4 (archive [1, 2]) TmpStream.newFile = none := by decide +kernel

end Verif.Reflect.PropsStreams
