import Verif.Model.Cov
import Verif.Spec.HpSpec
import Verif.Proofs.Block

/-! Well-formed Gaussian process objects (what a successful `set_data` establishes) and admissible hyperparameters. -/

open Np GP Matrix

noncomputable section

namespace Spec

/-- The data attributes of the object are mutually consistent. -/
structure GpOk (g : Gp) : Prop where
  x_r : g.x.r = g.nEval
  x_c : g.x.c = g.dim
  fval_n : g.fval.n = g.nEval
  mask : maskOk g.bvec g.nEval
  nGrad : g.nGrad = if g.useGrad then gN g.bvec g.nEval else 0
  noMask : g.useGrad = false → g.bvec = none
  nData : g.nData = g.nEval + g.nGrad * g.dim
  grad_none : g.useGrad = false → g.grad = none
  grad_some : g.useGrad = true → ∃ G, g.grad = some G ∧ G.r = g.nGrad ∧ G.c = g.dim
  std_fval : g.knownFval = true → ∃ s, g.stdFval = some s ∧ s.n = g.nEval
  std_fgrad : g.knownFgrad = true → ∃ s, g.stdGrad = some s ∧ s.r = g.nGrad ∧ s.c = g.dim
  fzero : g.fvalZero = true → g.knownFval = true
  gzero : g.useGrad = true → g.fgradZero = true → g.knownFgrad = true
  noisy : g.noisy = !(g.fvalZero && g.fgradZero)

/-- Admissible hyperparameters for the object: positive `theta` of the right length, a positive kernel parameter where
there is one, and noise variances exactly where the noise level is unknown. -/
structure HpAdm (g : Gp) (hp : HpVals) : Prop where
  theta : ∃ th, hp.theta = some th ∧ th.n = g.dim ∧ ∀ d < g.dim, 0 < th.get d
  kernel : HpOk g.kernel hp.kernel
  vf_none : g.knownFval = true → hp.varFval = none
  vf_some : g.knownFval = false → ∃ v, hp.varFval = some v ∧ 0 ≤ v
  vg_none : g.useGrad = true → g.knownFgrad = true → hp.varFgrad = none
  vg_some : g.useGrad = true → g.knownFgrad = false → ∃ v, hp.varFgrad = some v ∧ 0 ≤ v

/-- Variance of the noise in the value at point `a`: the data are noise-free if both noise levels were classified as
zero, otherwise it is the square of the given standard deviation, or the hyperparameter if that is unknown. -/
def valVar (g : Gp) (hp : HpVals) (a : ℕ) : ℝ :=
  if g.fvalZero && g.fgradZero then 0
  else if g.knownFval then ((g.stdFval.getD ⟨0, fun _ => 0⟩).get a) ^ 2 else hp.varFval.getD 0

/-- Variance of the noise in the derivative wrt coordinate `i` at the `a`-th point that has a gradient. -/
def gradVar (g : Gp) (hp : HpVals) (a i : ℕ) : ℝ :=
  if g.fvalZero && g.fgradZero then 0
  else if g.knownFgrad then ((g.stdGrad.getD ⟨0, 0, fun _ _ => 0⟩).get a i) ^ 2 else hp.varFgrad.getD 0

/-- `v` lists the noise variances in the order of the data vector. -/
structure NoiseSpec (g : Gp) (hp : HpVals) (v : Arr1) : Prop where
  n : v.n = g.nData
  val : ∀ a < g.nEval, v.get a = valVar g hp a
  grad : ∀ i < g.dim, ∀ a < g.nGrad, v.get (g.nEval + i * g.nGrad + a) = gradVar g hp a i

/-- The prior covariance function (with unit variance) at the hyperparameters `hp`. -/
def gpKern (g : Gp) (hp : HpVals) : Pt → Pt → ℝ :=
  kernOf g.kernel hp.kernel g.dim (hp.theta.getD ⟨0, fun _ => 0⟩)

/-- `K` is the covariance matrix of the (noise-free) data under the unit-variance prior: values at all points, then
partial derivatives, coordinate by coordinate, at the points with gradients. -/
def IsKern (g : Gp) (hp : HpVals) (K : Mat g.nData g.nData) : Prop :=
  ∃ A : ℕ → ℕ → ℝ, JointCov (gpKern g hp) g.dim g.nEval g.nGrad g.nEval g.nGrad g.x.get (gSel g.bvec) g.x.get (gSel g.bvec) A ∧
    ∀ i j, K i j = A i j

end Spec
