import Verif.Spec.LkdSpec

/-! Conditional normal distributions, independently of the model. -/

open GP Matrix

noncomputable section

namespace Spec

/-- The `(n+1) x (n+1)` covariance matrix of data with covariance `C` and one more variable with variance `v` and
covariances `k` with the data. -/
def border {n : ℕ} (C : Mat n n) (k : Vec n) (v : ℝ) : Mat (n + 1) (n + 1) :=
  of fun i j => Fin.lastCases (motive := fun _ => ℝ) (Fin.lastCases (motive := fun _ => ℝ) v k j)
    (fun i' => Fin.lastCases (motive := fun _ => ℝ) (k i') (fun j' => C i' j') j) i

/-- Log of the density at `t` of the normal distribution with mean `μ` and variance `s`. -/
def normLog (μ s t : ℝ) : ℝ := -(t - μ) ^ 2 / (2 * s) - Real.log s / 2 - Real.log (2 * Real.pi) / 2

/-- The vector `(m, m0)`. -/
def snocV {n : ℕ} (m : Vec n) (m0 : ℝ) : Vec (n + 1) := Fin.snoc (α := fun _ => ℝ) m m0

/-- If the data have mean `m` and covariance `C`, and one more jointly normal variable has mean `m0`, variance `v` and
covariances `k` with the data, then its conditional distribution given that the data are `y` is normal with mean `μ` and
positive variance `s`: the joint density factorises as (density of the data) times (that normal density). -/
def CondNormal {n : ℕ} (C : Mat n n) (k : Vec n) (v : ℝ) (m : Vec n) (m0 : ℝ) (y : Vec n) (μ s : ℝ) : Prop :=
  0 < s ∧ (border C k v).PosDef ∧
    ∀ t, gaussLog (border C k v) (snocV m m0) (snocV y t) = gaussLog C m y + normLog μ s t

end Spec
