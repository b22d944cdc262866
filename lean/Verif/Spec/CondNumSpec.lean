import Verif.Spec.EigSpec
import Verif.Spec.CondSpec
import Verif.Spec.Ready

/-! The condition number of a matrix, independently of the model. -/

open GP Matrix

noncomputable section

namespace Spec

/-- `κ` is the condition number of the symmetric positive definite matrix `A`: in the spectral norm the largest eigenvalue over the
smallest one, in the Frobenius norm the norm of `A` times that of its inverse. -/
def IsCondNum (fro : Bool) {n : ℕ} (A : Mat n n) (κ : ℝ) : Prop :=
  if fro then ∃ B : Mat n n, A * B = 1 ∧ B * A = 1 ∧ κ = Real.sqrt (∑ i, ∑ j, A i j ^ 2) * Real.sqrt (∑ i, ∑ j, B i j ^ 2)
  else ∃ lo hi, IsMinEig A lo ∧ IsMaxEig A hi ∧ 0 < lo ∧ κ = hi / lo

/-- The matrix whose condition number is recorded, for prior variance `v`, kernel matrix `K`, noise variances `N` and nugget `η`: the
covariance matrix of the data, rescaled to unit diagonal with preconditioning. -/
def condMat (precon : Bool) {n : ℕ} (v : ℝ) (K : Mat n n) (N : Vec n) (η : ℝ) : Mat n n :=
  if precon then unitDiag (noisyCov precon v K N η) else noisyCov precon v K N η

/-- `η` is the nugget: the configured constant, or the largest sum of absolute values in a row over `cond_max_target - 1`, of the
kernel matrix, or with preconditioning of the covariance matrix without nugget rescaled to unit diagonal. -/
def IsNugget (o : CondOpts) {n : ℕ} (v : ℝ) (K : Mat n n) (N : Vec n) (η : ℝ) : Prop :=
  if o.etaConst then η = o.etaK
  else ∃ m, η = m / (o.condMaxTarget - 1) ∧
    IsGreatest (Set.range fun i => ∑ j, |(if o.precon then unitDiag (noisyCov true v K N 0) else K) i j|) m

end Spec
