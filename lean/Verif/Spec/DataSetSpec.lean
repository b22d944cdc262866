import Verif.Spec.Ready

/-! Changes of the data set: other values, another order, shifted points. -/

open Np GP Matrix

noncomputable section

namespace Spec

/-- A data set: points, values, which points have gradients, gradients (one row per point that has one) and the standard
deviations of the noise. -/
structure DataSet where
  x : Arr2
  fval : Arr1
  bvec : Option (List Bool)
  grad : Option Arr2
  stdFval : Option Arr1
  stdGrad : Option Arr2

/-- The object with the same settings and numbers of points and gradients, but other data. -/
def withData (g : Gp) (D : DataSet) : Gp :=
  { g with x := D.x, fval := D.fval, bvec := D.bvec, grad := D.grad, stdFval := D.stdFval, stdGrad := D.stdGrad }

/-- The object with other values and gradients at the same points. -/
def withValues (g : Gp) (f : Arr1) (G : Option Arr2) : Gp := { g with fval := f, grad := G }

/-- One value per point, and, if gradients are used, one gradient per point that has one. -/
def ValuesOk (g : Gp) (f : Arr1) (G : Option Arr2) : Prop :=
  f.n = g.nEval ∧ if g.useGrad then ∃ A, G = some A ∧ A.r = g.nGrad ∧ A.c = g.dim else G = none

/-- The hyperparameters with another prior mean. -/
def withBeta (hp : HpVals) (β : ℝ) : HpVals := { hp with beta := some ⟨1, fun _ => β⟩ }

/-- The values and gradients `f`, `G` are `a` times `f₁`, `G₁` plus `b` times `f₂`, `G₂`. -/
def Combined (g : Gp) (a b : ℝ) (f₁ f₂ f : Arr1) (G₁ G₂ G : Option Arr2) : Prop :=
  (∀ p < g.nEval, f.get p = a * f₁.get p + b * f₂.get p) ∧
  ∀ A₁ A₂ A, G₁ = some A₁ → G₂ = some A₂ → G = some A → ∀ r < g.nGrad, ∀ i < g.dim, A.get r i = a * A₁.get r i + b * A₂.get r i

/-- The data of `D` are those of `g` in another order, with all points shifted by `c`: point `p` of `g` is point `π p` of `D`, and
row `a` of the gradients is row `τ a` of `D`. -/
structure Rearranged (π τ : Equiv.Perm ℕ) (c : Pt) (g : Gp) (D : DataSet) : Prop where
  pt_lt : ∀ p < g.nEval, π p < g.nEval
  gr_lt : ∀ a < g.nGrad, τ a < g.nGrad
  x : ∀ p < g.nEval, ∀ d < g.dim, D.x.get (π p) d = g.x.get p d + c d
  fval : ∀ p < g.nEval, D.fval.get (π p) = g.fval.get p
  gsel : ∀ a < g.nGrad, gSel D.bvec (τ a) = π (gSel g.bvec a)
  grad : ∀ G G', g.grad = some G → D.grad = some G' → ∀ a < g.nGrad, ∀ i < g.dim, G'.get (τ a) i = G.get a i
  stdF : ∀ s s', g.stdFval = some s → D.stdFval = some s' → ∀ p < g.nEval, s'.get (π p) = s.get p
  stdG : ∀ s s', g.stdGrad = some s → D.stdGrad = some s' → ∀ a < g.nGrad, ∀ i < g.dim, s'.get (τ a) i = s.get a i

/-- All points shifted by `c`. -/
def shifted (c : Pt) (X : Arr2) : Arr2 := ⟨X.r, X.c, fun p d => X.get p d + c d⟩

/-- The object `g'` with hyperparameters `hp'` holds at least the data of `g` with `hp`, with noise that is at most as large, and
has the same prior covariance: point `p` of `g` is point `π p` of `g'`, and the gradient in row `a` of `g` is the one in row `τ a` of `g'`.
Where only one of the objects uses gradients it is `g'`. -/
structure MoreData (π τ : ℕ → ℕ) (g : Gp) (hp : HpVals) (g' : Gp) (hp' : HpVals) : Prop where
  dim : g'.dim = g.dim
  kernel : g'.kernel = g.kernel
  theta : hp'.theta = hp.theta
  kpar : hp'.kernel = hp.kernel
  pt_lt : ∀ p < g.nEval, π p < g'.nEval
  pt_inj : ∀ p < g.nEval, ∀ q < g.nEval, π p = π q → p = q
  gr_lt : ∀ a < g.nGrad, τ a < g'.nGrad
  gr_inj : ∀ a < g.nGrad, ∀ b < g.nGrad, τ a = τ b → a = b
  x : ∀ p < g.nEval, ∀ d < g.dim, g'.x.get (π p) d = g.x.get p d
  gsel : ∀ a < g.nGrad, gSel g'.bvec (τ a) = π (gSel g.bvec a)
  valVar_le : ∀ p < g.nEval, valVar g' hp' (π p) ≤ valVar g hp p
  gradVar_le : ∀ a < g.nGrad, ∀ i < g.dim, gradVar g' hp' (τ a) i ≤ gradVar g hp a i

end Spec
