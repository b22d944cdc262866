import Verif.Spec.Ready
import Verif.Spec.SclSpec

/-! A Gaussian process fitted to scaled data, in the original units. -/

open Np GP Matrix

noncomputable section

namespace Spec

/-- The hyperparameters that give the same kernel in the original coordinates: `theta_d` times the square of the scale. -/
def origHp (s : Scl) (hp : HpVals) : HpVals :=
  { hp with theta := hp.theta.map fun t => ⟨t.n, fun d => t.get d * s.xScale.get d ^ 2⟩ }

/-- The factor by which datum `q` changes when the scale of the points is undone: 1 for values, the scale of coordinate `i` for
derivatives wrt `i`. -/
structure UnitFactor (g : Gp) (s : Scl) (u : ℕ → ℝ) : Prop where
  val : ∀ a < g.nEval, u a = 1
  grad : ∀ i < g.dim, ∀ a < g.nGrad, u (g.nEval + i * g.nGrad + a) = s.xScale.get i

/-- The noise variances in original units: the squares of the given standard deviations where they are known; unknown noise levels
are hyperparameters in scaled units and are converted. -/
structure OrigNoise (g : Gp) (hp : HpVals) (s : Scl) (N : ℕ → ℝ) : Prop where
  val : ∀ a < g.nEval, N a = valVar g hp a * (if g.knownFval then 1 else 1 / s.objScale ^ 2)
  grad : ∀ i < g.dim, ∀ a < g.nGrad, N (g.nEval + i * g.nGrad + a) = gradVar g hp a i * (if g.knownFgrad then 1 else s.xScale.get i ^ 2 / s.objScale ^ 2)

/-- The covariance matrix of the data: prior variance `v`, unit-variance kernel matrix `K`, noise variances `N`, and a nugget relative to
the diagonal (with preconditioning) or to the prior variance in units `u`. -/
def origCov (precon : Bool) {n : ℕ} (v : ℝ) (K : Mat n n) (N : ℕ → ℝ) (η : ℝ) (u : ℕ → ℝ) : Mat n n :=
  of fun i j => v * K i j + if i = j then N i + η * (if precon then v * K i i + N i else v * u i ^ 2) else 0

end Spec
