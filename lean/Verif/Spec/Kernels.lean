import Mathlib.Analysis.SpecialFunctions.Pow.Real
import Mathlib.Analysis.Calculus.Deriv.Basic

/-!
# Specification of the kernels and of "joint covariance of values and derivatives"

Points are coordinate functions `ℕ → ℝ` of which the first `dim` coordinates matter.
-/

noncomputable section

namespace Spec

/-- A point: its coordinates. -/
abbrev Pt := ℕ → ℝ

/-- Weighted squared distance `∑ θ_d (x_d - y_d)^2`. -/
def wdist2 (dim : ℕ) (θ : ℕ → ℝ) (x y : Pt) : ℝ := ∑ d ∈ Finset.range dim, θ d * (x d - y d) ^ 2

/-- The squared-exponential kernel `exp(-∑ θ_d (x_d-y_d)^2)`. -/
def kSqExp (dim : ℕ) (θ : ℕ → ℝ) (x y : Pt) : ℝ := Real.exp (-wdist2 dim θ x y)

/-- The Matérn 5/2 kernel `(1 + √5 ν + 5/3 ν²) exp(-√5 ν)`, `ν = √(∑ θ_d (x_d-y_d)^2)`. -/
def kMatern (dim : ℕ) (θ : ℕ → ℝ) (x y : Pt) : ℝ :=
  (1 + Real.sqrt 5 * Real.sqrt (wdist2 dim θ x y) + 5 / 3 * Real.sqrt (wdist2 dim θ x y) ^ 2)
    * Real.exp (-Real.sqrt 5 * Real.sqrt (wdist2 dim θ x y))

/-- The rational quadratic kernel `(1 + ∑ θ_d (x_d-y_d)^2 / α)^(-α)`. -/
def kRatQuad (α : ℝ) (dim : ℕ) (θ : ℕ → ℝ) (x y : Pt) : ℝ := (1 + wdist2 dim θ x y / α) ^ (-α)

/-- Which linear functional of the function a datum is: its value (`none`) or its partial derivative
wrt coordinate `i` (`some i`). `IsCov k x ox y oy e` says that `e` is the covariance between the datum
`ox` at `x` and the datum `oy` at `y`, i.e. the corresponding partial derivative of `k`. -/
def IsCov (k : Pt → Pt → ℝ) (x : Pt) (ox : Option ℕ) (y : Pt) (oy : Option ℕ) (e : ℝ) : Prop :=
  match ox, oy with
  | none, none => e = k x y
  | some i, none => HasDerivAt (fun s => k (Function.update x i s) y) e (x i)
  | none, some j => HasDerivAt (fun t => k x (Function.update y j t)) e (y j)
  | some i, some j => ∃ D : ℝ → ℝ,
      (∀ t, HasDerivAt (fun s => k (Function.update x i s) (Function.update y j t)) (D t) (x i)) ∧
      HasDerivAt D e (y j)

/-- A covariance in this sense is unique. -/
theorem IsCov.unique {k : Pt → Pt → ℝ} {x y : Pt} {ox oy : Option ℕ} {e e' : ℝ}
    (h : IsCov k x ox y oy e) (h' : IsCov k x ox y oy e') : e = e' := by
  match ox, oy with
  | none, none => exact h.trans h'.symm
  | some i, none => exact HasDerivAt.unique h h'
  | none, some j => exact HasDerivAt.unique h h'
  | some i, some j =>
    obtain ⟨D, h1, h2⟩ := h
    obtain ⟨D', h1', h2'⟩ := h'
    have : D = D' := funext fun t => (h1 t).unique (h1' t)
    subst this
    exact h2.unique h2'

end Spec
