import Verif.Double.Props
/-! Numbers of a format are not rounded. -/

namespace Verif.JsonCast.LemmasNum
open Verif.Double Verif.Double.Spec

theorem num_abs {F : Fmt} {x : Rat} (h : IsNum F x) : |x| < (2 : Rat) ^ F.emax := by
  obtain ⟨m, e, a, _, c, rfl⟩ := h
  have h1 : |(m : Rat)| < (2 : Rat) ^ (F.prec : Int) := by
    rw [← Int.cast_abs, Int.abs_eq_natAbs, zpow_natCast]; exact_mod_cast a
  rw [abs_mul, abs_of_pos (Double.Lemmas.two_zpow_pos e)]
  calc |(m : Rat)| * (2 : Rat) ^ e < (2 : Rat) ^ (F.prec : Int) * (2 : Rat) ^ e := mul_lt_mul_of_pos_right h1 (Double.Lemmas.two_zpow_pos e)
    _ = (2 : Rat) ^ ((F.prec : Int) + e) := (zpow_add₀ (by norm_num) _ _).symm
    _ ≤ _ := Double.Lemmas.zpow_le_iff.2 (by omega)

theorem ofRat_num {F : Fmt} (hp : 1 ≤ F.prec) {x : Rat} (h : IsNum F x) : ofRat F x = .fin x := by
  have e := Double.Props.round_exact hp h
  rw [Double.Lemmas.ofRat_fin (by rw [e]; exact num_abs h), e]

end Verif.JsonCast.LemmasNum
