import Verif.Sampling.Model
/-! # Specification of sampling -/
namespace Verif.Sampling.Spec

/-- Possible results of `r(n), r(n-1), …`: the `i`-th number is below `n - i`. -/
def Draws (n k : Nat) (ds : List Nat) : Prop :=
  ds.length = k ∧ ∀ i d, ds[i]? = some d → d < n - i

/-- An ordered selection of `k` different numbers below `n`. -/
def Selection (n k : Nat) (l : List Nat) : Prop :=
  l.length = k ∧ l.Nodup ∧ ∀ x ∈ l, x < n

end Verif.Sampling.Spec
