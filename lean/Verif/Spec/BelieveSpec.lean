import Verif.Spec.DataSetSpec

/-! Data sets that contain another data set with the same observations and the same noise. -/

open Np GP Matrix

noncomputable section

namespace Spec

/-- As `MoreData`, and the observations that both objects hold are the same, with the same noise. -/
structure MoreObs (π τ : ℕ → ℕ) (g : Gp) (hp : HpVals) (g' : Gp) (hp' : HpVals) : Prop where
  more : MoreData π τ g hp g' hp'
  valVar : ∀ p < g.nEval, valVar g' hp' (π p) = valVar g hp p
  gradVar : ∀ a < g.nGrad, ∀ i < g.dim, gradVar g' hp' (τ a) i = gradVar g hp a i
  fval : ∀ p < g.nEval, g'.fval.get (π p) = g.fval.get p
  grad : ∀ G G', g.grad = some G → g'.grad = some G' → ∀ a < g.nGrad, ∀ i < g.dim, G'.get (τ a) i = G.get a i

/-- Point `p` of `g'` is not one of the points of `g`. -/
def NewVal (π : ℕ → ℕ) (g g' : Gp) (p : ℕ) : Prop := p < g'.nEval ∧ ∀ q < g.nEval, π q ≠ p

/-- The gradient in row `b` of `g'` is not one of the gradients of `g`. -/
def NewGrad (τ : ℕ → ℕ) (g g' : Gp) (b : ℕ) : Prop := b < g'.nGrad ∧ ∀ a < g.nGrad, τ a ≠ b

/-- The observations that only `g'` holds are the values `mu` and the gradients `dmu`, which are given at the points of `g'`. -/
structure Observed (π τ : ℕ → ℕ) (g g' : Gp) (mu : Vec g'.x.r) (dmu : Mat g'.x.r g.dim) : Prop where
  val : ∀ p : Fin g'.x.r, NewVal π g g' p → g'.fval.get p = mu p
  grad : ∀ G', g'.grad = some G' → ∀ b, NewGrad τ g g' b → ∀ p : Fin g'.x.r, (p : ℕ) = gSel g'.bvec b → ∀ i : Fin g.dim, G'.get b i = dmu p i

/-- The same object with other standard deviations of the noise. -/
def withNoise (g : Gp) (sf : Option Arr1) (sg : Option Arr2) : Gp := { g with stdFval := sf, stdGrad := sg }

/-- The same hyperparameters with other variances of the noise. -/
def withNoiseHp (hp : HpVals) (vf vg : Option ℝ) : HpVals := { hp with varFval := vf, varFgrad := vg }

end Spec
