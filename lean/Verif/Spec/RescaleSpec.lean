import Verif.Spec.SclSpec
import Verif.Spec.Family
import Mathlib.Analysis.SpecialFunctions.Log.Base

/-! Geometric means, and when two scalings with their length scales stand for the same kernel. -/

open Np GP

noncomputable section

namespace Spec

/-- The geometric mean of `θ 0, .., θ (n-1)`. -/
def geoMean (n : ℕ) (θ : ℕ → ℝ) : ℝ := (∏ d ∈ Finset.range n, θ d) ^ (1 / n : ℝ)

/-- The two scalings with their parameters stand for the same kernel function of points in original coordinates, whatever the
kernel. -/
def SameKernel (dim : ℕ) (s : Scl) (θ : ℕ → ℝ) (s' : Scl) (θ' : ℕ → ℝ) : Prop :=
  ∀ (k : KType) (α : ℝ) (x y : Pt), kern k α dim θ' (sclPt s' x) (sclPt s' y) = kern k α dim θ (sclPt s x) (sclPt s y)

/-- The parameters `theta` in a vector of optimised hyperparameters: the first `dim` entries, or their powers of ten. -/
def thetaOf (log : Bool) (v : Arr1) (d : ℕ) : ℝ := if log then (10 : ℝ) ^ v.get d else v.get d

/-- How far the parameters are from being all equal, on the logarithmic scale. -/
def logSpread (n : ℕ) (θ : ℕ → ℝ) : ℝ :=
  ∑ d ∈ Finset.range n, Real.logb 10 (θ d) ^ 2 - (∑ d ∈ Finset.range n, Real.logb 10 (θ d)) ^ 2 / n

end Spec
