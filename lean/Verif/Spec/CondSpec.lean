import Verif.Model.LinAlg

/-! What a bound on a condition number means. -/

open GP Matrix

noncomputable section

namespace Spec

/-- The spectral condition number of the symmetric matrix `A` is at most `c`: its Rayleigh quotients are positive and
differ by at most the factor `c`. -/
def CondLe {n : ℕ} (A : Mat n n) (c : ℝ) : Prop :=
  (∀ i j, A i j = A j i) ∧ ∃ lo > 0, ∀ x : Vec n, lo * (x ⬝ᵥ x) ≤ x ⬝ᵥ A *ᵥ x ∧ x ⬝ᵥ A *ᵥ x ≤ c * lo * (x ⬝ᵥ x)

/-- A covariance matrix rescaled to unit diagonal. -/
def unitDiag {n : ℕ} (A : Mat n n) : Mat n n := Matrix.of fun i j => A i j / (Real.sqrt (A i i) * Real.sqrt (A j j))

end Spec
