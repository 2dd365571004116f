import Verif.Mt.Lemmas
/-! Property C37. -/

namespace Verif.Mt.Props
open Verif.Mt Verif.Mt.Spec Verif.Mt.Lemmas

/-- C37. For every seed and every length, whatever the array held before construction, the outputs are the outputs of MT19937
in order. In particular no access ever leaves the state array, and refilling it every 624 outputs does not show. -/
theorem outputs_mt19937 (junk : List UInt32) (hj : junk.length = N) (seed : UInt32) (n : Nat) :
    ∃ s xs, new junk seed = some s ∧ stream n s = some xs ∧
      xs.map UInt32.toBitVec = (List.range n).map (output seed.toBitVec) := by
  obtain ⟨s, h1, h2⟩ := new_spec junk seed hj
  obtain ⟨xs, h3, h4⟩ := stream_spec n h2
  exact ⟨s, xs, h1, h3, by rw [h4, List.range_eq_range']⟩

example : (List.replicate N (7 : UInt32)).length = N := List.length_replicate

-- published reference value: the first output for seed 5489
example : output 5489#32 0 = 3499211612#32 := by
  have h (k : Nat) (hk : k < 624) : word 5489#32 k = seedWord 5489#32 k := by rw [word.eq_1, if_pos hk]
  rw [output, word.eq_1, if_neg (by omega), h _ (by omega), h _ (by omega), h _ (by omega)]
  decide +kernel

/-- C37. The generator is deterministic: equal seeds give equal streams, whatever memory the objects were built in. -/
theorem stream_deterministic (j1 j2 : List UInt32) (h1 : j1.length = N) (h2 : j2.length = N) (seed : UInt32) (n : Nat) :
    (new j1 seed).bind (stream n) = (new j2 seed).bind (stream n) := by
  obtain ⟨s1, x1, a1, b1, c1⟩ := outputs_mt19937 j1 h1 seed n
  obtain ⟨s2, x2, a2, b2, c2⟩ := outputs_mt19937 j2 h2 seed n
  rw [a1, a2, Option.bind_some, Option.bind_some, b1, b2]
  congr 1
  exact (List.map_inj_right (fun _ _ h => UInt32.toBitVec_inj.mp h)).mp (c1.trans c2.symm)

end Verif.Mt.Props
