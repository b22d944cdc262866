import Verif.Spec.DataSetSpec
import Verif.Model.EvalModel

/-! The same data with every coordinate measured in other units. -/

open Np GP Matrix

noncomputable section

namespace Spec

/-- The data of `D` are those of `g` with coordinate `d` of all points multiplied by `a d`: partial derivatives and the standard deviations
of their noise are divided accordingly. -/
structure CoordUnits (a : ℕ → ℝ) (g : Gp) (D : DataSet) : Prop where
  ne : ∀ d < g.dim, a d ≠ 0
  x : ∀ p < g.nEval, ∀ d < g.dim, D.x.get p d = a d * g.x.get p d
  fval : ∀ p < g.nEval, D.fval.get p = g.fval.get p
  bvec : D.bvec = g.bvec
  grad : ∀ G G', g.grad = some G → D.grad = some G' → ∀ r < g.nGrad, ∀ i < g.dim, a i * G'.get r i = G.get r i
  stdF : ∀ s s', g.stdFval = some s → D.stdFval = some s' → ∀ p < g.nEval, s'.get p = s.get p
  stdG : ∀ s s', g.stdGrad = some s → D.stdGrad = some s' → ∀ r < g.nGrad, ∀ i < g.dim, |a i| * s'.get r i = s.get r i

/-- The length scales (`θ` is one over twice the square of a length) in the new units, and another variance of gradient noise. -/
def coordHp (a : ℕ → ℝ) (w : Option ℝ) (hp : HpVals) : HpVals :=
  { hp with theta := hp.theta.map fun th => ⟨th.n, fun d => th.get d / a d ^ 2⟩, varFgrad := w }

/-- `w` is the variance of gradient noise `v` in the new units, in every coordinate. -/
def NoiseFollows (a : ℕ → ℝ) (dim : ℕ) (v w : Option ℝ) : Prop := Option.Rel (fun v w => 0 ≤ w ∧ ∀ d < dim, a d ^ 2 * w = v) v w

/-- The points in the new units. -/
def coordPts (a : ℕ → ℝ) (X : Arr2) : Arr2 := ⟨X.r, X.c, fun r d => a d * X.get r d⟩

/-- The same predictions in the new units of the coordinates. -/
structure SameUnits (a : ℕ → ℝ) {nx dim : ℕ} (o o' : EvalOut nx dim) : Prop where
  mu : o'.mu = o.mu
  sig : o'.sig = o.sig
  dmu : Option.Rel (fun A A' => ∀ (r : Fin nx) (i : Fin dim), a i * A' r i = A r i) o.dmu o'.dmu
  dsig : Option.Rel (fun A A' => ∀ (r : Fin nx) (i : Fin dim), a i * A' r i = A r i) o.dsig o'.dsig
  d2mu : Option.Rel (fun A A' => ∀ i j : Fin dim, a i * a j * A' i j = A i j) o.d2mu o'.d2mu
  d2sig : Option.Rel (Option.Rel fun A A' => ∀ i j : Fin dim, a i * a j * A' i j = A i j) o.d2sig o'.d2sig

end Spec
