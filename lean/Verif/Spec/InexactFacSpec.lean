import Verif.Spec.CondNumSpec

/-! Specification for C135 and C136: factorising a matrix near the covariance matrix. -/

open Np GP Matrix

noncomputable section

namespace Spec

/-- `M'` is symmetric and the spectral norm of `M' - M` is at most `u` times that of the positive definite matrix `M`, its largest eigenvalue (for a symmetric
matrix the norm is the largest value of the quadratic form on unit vectors). -/
structure NearMat {n : ℕ} (u : ℝ) (M M' : Mat n n) : Prop where
  symm : ∀ i j, M' i j = M' j i
  near : ∀ hi, IsMaxEig M hi → ∀ x : Vec n, |x ⬝ᵥ (M' - M) *ᵥ x| ≤ u * hi * (x ⬝ᵥ x)

/-- With preconditioning the matrix with unit diagonal is factorised and the factor is scaled back. -/
def scaledBack (precon : Bool) {n : ℕ} (A M : Mat n n) : Mat n n :=
  if precon then of fun i j => Real.sqrt (A i i) * M i j * Real.sqrt (A j j) else M

/-- The matrix that is factorised: the covariance matrix itself, or with preconditioning rescaled to unit diagonal. -/
def factored (precon : Bool) {n : ℕ} (A : Mat n n) : Mat n n := if precon then unitDiag A else A

end Spec
