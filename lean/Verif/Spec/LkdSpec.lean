import Verif.Model.LinAlg
import Mathlib.Analysis.SpecialFunctions.Log.Basic
import Mathlib.Analysis.Real.Pi.Bounds
import Mathlib.LinearAlgebra.Matrix.PosDef

/-! Gaussian log densities and Cholesky factors, independently of the model. -/

open GP Matrix

noncomputable section

namespace Spec

/-- The quadratic form `zᵀ K⁻¹ z`. -/
def maha {n : ℕ} (K : Mat n n) (z : Vec n) : ℝ := z ⬝ᵥ K⁻¹ *ᵥ z

/-- Log of the density at `y` of the normal distribution with mean `μ` and covariance matrix `K`. -/
def gaussLog {n : ℕ} (K : Mat n n) (μ y : Vec n) : ℝ :=
  -(maha K (y - μ)) / 2 - Real.log K.det / 2 - n / 2 * Real.log (2 * Real.pi)

/-- `F` is what a successful Cholesky factorisation of the positive definite matrix `K` provides. -/
structure FacOf {n : ℕ} (F : ChoFac n) (K : Mat n n) : Prop where
  mat : F.mat = K
  pos : K.PosDef
  logDet : choLogDet F = Real.log K.det

/-- Full column rank. -/
def FullRank {n b : ℕ} (V : Mat n b) : Prop := ∀ c : Vec b, V *ᵥ c = 0 → c = 0

end Spec
