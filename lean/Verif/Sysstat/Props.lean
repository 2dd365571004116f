import Verif.Sysstat.Lemmas
/-! C82: what `get_sysstat` tells of the machine. -/
namespace Verif.Sysstat.Props
open Verif Verif.Sysstat Verif.Sysstat.Spec Verif.Sysstat.Lemmas

/-- The total is what the line `MemTotal` says, a kB taken for 1000 bytes: for every file as Linux makes it, with lines in any order and with any
others between them. What is missing: Linux means 1024 bytes (`kilobytes`), and a file without the line gives 0 (`nothing_known`). -/
theorem total_partial (fs : List Field) (h : Legal fs) (hb : Below (2 ^ 54) fs (ascii "MemTotal")) :
    totalMemory (fileText fs) = some (says 1000 fs (ascii "MemTotal")) := by
  unfold totalMemory
  rw [lines_file fs h.names, total_fold fs h (fun f hf e => Nat.lt_trans (hb f hf e) (by decide)), saysOr_says, Nat.mod_eq_of_lt]
  have := says_lt hb (by decide) 1000 (by decide)
  omega

/-- What is free is what the lines `MemFree` and `Cached` say, added. What is missing: as for the total, and both numbers have to be below 2³¹ (`free_undefined`). -/
theorem free_partial (fs : List Field) (h : Legal fs) (h1 : Below (2 ^ 31) fs (ascii "MemFree")) (h2 : Below (2 ^ 31) fs (ascii "Cached")) :
    freeMemory (fileText fs) = some (says 1000 fs (ascii "MemFree") + says 1000 fs (ascii "Cached")) := by
  unfold freeMemory
  rw [lines_file fs h.names, free_fold fs h h1 h2]
  have a := says_lt h1 (by decide) 1000 (by decide)
  have b := says_lt h2 (by decide) 1000 (by decide)
  show some ((_ + _) % _) = _
  rw [saysOr_says, saysOr_says, Nat.mod_eq_of_lt (a := says _ _ (ascii "MemFree")) (by omega), Nat.mod_eq_of_lt (a := says _ _ (ascii "Cached")) (by omega),
    Nat.mod_eq_of_lt (by omega)]

/-- So if the machine says that what is free and cached is a part of the total, so does the call. -/
theorem free_at_most_total_partial (fs : List Field) (h : Legal fs) (hb : Below (2 ^ 54) fs (ascii "MemTotal")) (h1 : Below (2 ^ 31) fs (ascii "MemFree"))
    (h2 : Below (2 ^ 31) fs (ascii "Cached")) (hle : says 1000 fs (ascii "MemFree") + says 1000 fs (ascii "Cached") ≤ says 1000 fs (ascii "MemTotal"))
    (load : Str) : ∃ r, getSysstat load (fileText fs) = some r ∧ r.free ≤ r.total := by
  refine ⟨⟨(word load).1, says 1000 fs (ascii "MemTotal"), says 1000 fs (ascii "MemFree") + says 1000 fs (ascii "Cached")⟩, ?_, hle⟩
  unfold getSysstat
  rw [total_partial fs h hb, free_partial fs h h1 h2]
  rfl

/-- The load is read from the first word of `/proc/loadavg`, that of the last minute. -/
theorem load_first (w rest mem : Str) (hw : w ≠ []) (hs : ∀ c ∈ w, isspace c = false) (r : Ret) (h : getSysstat (w ++ 32 :: rest) mem = some r) : r.load = w := by
  have e := word_spec [] w (32 :: rest) (by simp) hs (.inl hw) rfl
  rw [List.nil_append] at e
  unfold getSysstat at h
  cases ht : totalMemory mem with
  | none => rw [ht] at h; cases h
  | some t =>
    cases hf : freeMemory mem with
    | none => rw [ht, hf] at h; cases h
    | some f =>
      rw [ht, hf, e] at h
      cases h
      rfl

example : (⟨ascii "0.52", 0, 0⟩ : Ret).load = ascii "0.52" :=
  load_first (ascii "0.52") (ascii "0.58 0.59") [] (by decide) (by decide) _ (by decide)

/-- A line that is no known one does not change anything, wherever it is: as `SwapCached`, that has a known name inside. -/
theorem others_ignored (as bs : List Field) (f : Field) (h : Legal (as ++ f :: bs)) (hf : f.name ∉ known) (hb : Below (2 ^ 54) (as ++ f :: bs) (ascii "MemTotal"))
    (h1 : Below (2 ^ 31) (as ++ f :: bs) (ascii "MemFree")) (h2 : Below (2 ^ 31) (as ++ f :: bs) (ascii "Cached")) (load : Str) :
    getSysstat load (fileText (as ++ f :: bs)) = getSysstat load (fileText (as ++ bs)) := by
  have sub : ∀ {g}, g ∈ as ++ bs → g ∈ as ++ f :: bs := fun hg => by
    rcases List.mem_append.1 hg with hg | hg
    · exact List.mem_append_left _ hg
    · exact List.mem_append_right _ (List.mem_cons_of_mem _ hg)
  have h' : Legal (as ++ bs) := by
    refine ⟨fun g hg => h.names g (sub hg), ?_, fun g hg => h.begins g (sub hg)⟩
    refine List.Nodup.sublist ?_ h.once
    exact ((List.sublist_cons_self f bs).append_left as).map _
  have same : ∀ n ∈ known, says 1000 (as ++ f :: bs) n = says 1000 (as ++ bs) n := by
    intro n hn
    have : f.name ≠ n := fun e => hf (e ▸ hn)
    unfold says
    rw [List.find?_append, List.find?_append, List.find?_cons_of_neg (by simpa using this)]
  unfold getSysstat
  rw [total_partial _ h hb, total_partial _ h' fun g hg => hb g (sub hg), free_partial _ h h1 h2, free_partial _ h' (fun g hg => h1 g (sub hg)) (fun g hg => h2 g (sub hg)),
    same _ (by simp [known]), same _ (by simp [known]), same _ (by simp [known])]

/-- A file with the lines, as a machine of 16 GB has them. -/
def sample : List Field :=
  [⟨ascii "MemTotal", 5, 16384256, true⟩, ⟨ascii "MemFree", 6, 812345, true⟩, ⟨ascii "Buffers", 8, 1024, true⟩, ⟨ascii "Cached", 9, 5012, true⟩,
   ⟨ascii "SwapCached", 5, 77, true⟩, ⟨ascii "HugePages_Total", 3, 4, false⟩]

theorem sample_legal : Legal sample := ⟨by decide, by decide, by decide⟩

theorem sample_below {b : Nat} (h : 2 ^ 24 ≤ b) (n : Str) : Below b sample n := fun f hf _ => by
  have : ∀ f ∈ sample, f.number < 2 ^ 24 := by decide
  exact Nat.lt_of_lt_of_le (this f hf) h

example : getSysstat (ascii "0.52 0.58 0.59 1/123 456") (fileText sample) = some ⟨ascii "0.52", 16384256000, 817357000⟩ := by
  unfold getSysstat
  rw [total_partial sample sample_legal (sample_below (by decide) _), free_partial sample sample_legal (sample_below (by decide) _) (sample_below (by decide) _)]
  decide

example : getSysstat [] (fileText sample) = getSysstat [] (fileText (sample.eraseIdx 4)) :=
  others_ignored (sample.take 4) (sample.drop 5) ⟨ascii "SwapCached", 5, 77, true⟩ sample_legal (by decide) (sample_below (by decide) _) (sample_below (by decide) _)
    (sample_below (by decide) _) []

example : ∃ r, getSysstat [] (fileText sample) = some r ∧ r.free ≤ r.total :=
  free_at_most_total_partial sample sample_legal (sample_below (by decide) _) (sample_below (by decide) _) (sample_below (by decide) _) (by decide) []

/-- Against the unit of the file: for every such number that is not 0, what is told is less than what the machine has. -/
theorem kilobytes (fs : List Field) (h : Legal fs) (f : Field) (hf : f ∈ fs) (hn : f.name = ascii "MemTotal") (hk : f.kB = true) (h0 : 0 < f.number)
    (hb : f.number < 2 ^ 54) :
    totalMemory (fileText fs) = some (f.number * 1000) ∧ f.number * 1000 < says 1024 fs (ascii "MemTotal") := by
  have only : ∀ g ∈ fs, g.name = ascii "MemTotal" → g = f := fun g hg e => only_name h.once hf hg (e.trans hn.symm)
  have found : fs.find? (fun f => f.name = ascii "MemTotal") = some f := by
    cases hc : fs.find? (fun f => f.name = ascii "MemTotal") with
    | none => rw [List.find?_eq_none] at hc; exact absurd hn (by simpa using hc f hf)
    | some g => rw [only g (List.mem_of_find?_eq_some hc) (by simpa using List.find?_some hc)]
  rw [total_partial fs h fun g hg e => by rw [only g hg e]; exact hb]
  unfold says
  rw [found]
  simp only [hk, if_true, true_and]
  omega

example : totalMemory (fileText sample) = some (16384256 * 1000) ∧ 16384256 * 1000 < says 1024 sample (ascii "MemTotal") :=
  kilobytes sample sample_legal ⟨ascii "MemTotal", 5, 16384256, true⟩ (by simp [sample]) rfl rfl (by decide) (by decide)

/-- A number of 2³¹ kB or more for what is free or cached, as large machines have it, makes the call undefined: in every file as Linux makes it. -/
theorem free_undefined (fs : List Field) (h : Legal fs) (f : Field) (hf : f ∈ fs) (hn : f.name = ascii "MemFree" ∨ f.name = ascii "Cached") (hl : 2 ^ 31 ≤ f.number)
    (load : Str) : getSysstat load (fileText fs) = none := by
  unfold getSysstat freeMemory
  rw [lines_file fs h.names, free_large fs h f hf hn hl]
  cases totalMemory (fileText fs) <;> rfl

/-- A file of a machine with 4 TB. -/
def largeSample : List Field := [⟨ascii "MemTotal", 5, 4294967296, true⟩, ⟨ascii "MemFree", 6, 2147483648, true⟩]

example : getSysstat [] (fileText largeSample) = none :=
  free_undefined largeSample ⟨by decide, by decide, by decide⟩ ⟨ascii "MemFree", 6, 2147483648, true⟩ (by simp [largeSample]) (.inl rfl) (by decide) []

/-- Files that cannot be read are told as a machine without load and memory, and the call reports no error. -/
theorem nothing_known : getSysstat [] [] = some ⟨[], 0, 0⟩ := by decide

end Verif.Sysstat.Props
