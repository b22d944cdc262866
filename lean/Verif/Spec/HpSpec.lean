import Verif.Spec.Family

/-! Hyperparameter arguments as the API receives them. -/

open GP Np

noncomputable section

namespace Spec

/-- `hp_kernel` is admissible: a positive shape for the rational quadratic, anything (usually `None`)
for the other two kernels, which ignore it. -/
def HpOk (k : KType) (hp : Option ℝ) : Prop := k = .ratQuad → ∃ α, 0 < α ∧ hp = some α

/-- The kernel function for the API arguments. -/
def kernOf (k : KType) (hp : Option ℝ) (dim : ℕ) (theta : Arr1) : Pt → Pt → ℝ := kern k (hp.getD 1) dim theta.get

/-- `theta` with entry `d` replaced. -/
def setTheta (theta : Arr1) (d : ℕ) (t : ℝ) : Arr1 := ⟨theta.n, Function.update theta.get d t⟩

/-- Every pair of points is coincident or at least `1e-16` apart in the weighted metric. -/
def Separated (X Y : Arr2) (theta : Arr1) : Prop :=
  ∀ p < X.r, ∀ q < Y.r, wdist2 X.c theta.get (X.get p) (Y.get q) = 0 ∨
    (10 : ℝ) ^ (-16 : ℤ) ≤ Real.sqrt (wdist2 X.c theta.get (X.get p) (Y.get q))

end Spec
