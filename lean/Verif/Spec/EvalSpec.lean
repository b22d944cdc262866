import Verif.Spec.GpSpec
import Verif.Spec.CondGauss

/-! What predictions are about: the data as one vector, its prior mean, and its prior covariances with the function at a
new point. -/

open Np GP Matrix

noncomputable section

namespace Spec

/-- `y` lists the data: the values at all points and then, coordinate by coordinate, the supplied partial derivatives. -/
structure DataSpec (g : Gp) (y : Vec g.nData) : Prop where
  val : ∀ q : Fin g.nData, (q : ℕ) < g.nEval → y q = g.fval.get q
  grad : ∀ G, g.grad = some G → ∀ q : Fin g.nData, ∀ i < g.dim, ∀ a < g.nGrad, (q : ℕ) = g.nEval + i * g.nGrad + a →
    y q = G.get a i

/-- Prior mean of the data when the mean of the function is the constant `β`: `β` for values and 0 for derivatives. -/
def priorMean (g : Gp) (β : ℝ) : Vec g.nData := fun q => if (q : ℕ) < g.nEval then β else 0

/-- `k` holds the covariances, under the unit-variance prior, of the data with the value of the function at `x`. -/
def IsCross (g : Gp) (hp : HpVals) (x : Pt) (k : Vec g.nData) : Prop :=
  ∃ A : ℕ → ℕ → ℝ, JointCov (gpKern g hp) g.dim g.nEval g.nGrad 1 0 g.x.get (gSel g.bvec) (fun _ => x) id A ∧
    ∀ i : Fin g.nData, k i = A i 0

/-- The batch `X` with coordinate `i` of point `a` replaced by `t`. -/
def moved (X : Arr2) (a i : ℕ) (t : ℝ) : Arr2 :=
  ⟨X.r, X.c, fun b => if b = a then Function.update (X.get a) i t else X.get b⟩

end Spec
