import Verif.Spec.DataSetSpec
import Verif.Spec.HpSlots
import Verif.Model.EvalModel

/-! The same data in another order, from another origin and in other units. -/

open Np GP Matrix

noncomputable section

namespace Spec

/-- The data of `D` are those of `g` restated: in another order (point `p` of `g` is point `π p` of `D`, row `a` of the gradients is
row `τ a` of `D`), with all points shifted by `c`, and with values in other units and from another zero: `u` times the value plus `b`. -/
structure Restated (π τ : Equiv.Perm ℕ) (c : Pt) (u b : ℝ) (g : Gp) (D : DataSet) : Prop where
  pt_lt : ∀ p < g.nEval, π p < g.nEval
  gr_lt : ∀ a < g.nGrad, τ a < g.nGrad
  x : ∀ p < g.nEval, ∀ d < g.dim, D.x.get (π p) d = g.x.get p d + c d
  fval : ∀ p < g.nEval, D.fval.get (π p) = u * g.fval.get p + b
  gsel : ∀ a < g.nGrad, gSel D.bvec (τ a) = π (gSel g.bvec a)
  grad : ∀ G G', g.grad = some G → D.grad = some G' → ∀ a < g.nGrad, ∀ i < g.dim, G'.get (τ a) i = u * G.get a i
  stdF : ∀ s s', g.stdFval = some s → D.stdFval = some s' → ∀ p < g.nEval, s'.get (π p) = |u| * s.get p
  stdG : ∀ s s', g.stdGrad = some s → D.stdGrad = some s' → ∀ a < g.nGrad, ∀ i < g.dim, s'.get (τ a) i = |u| * s.get a i

/-- The hyperparameters in the new units: the variances are multiplied by `u²`, the length scales and the kernel parameter stay. -/
def unitsHp (u : ℝ) (hp : HpVals) : HpVals :=
  { hp with varK := hp.varK.map (u ^ 2 * ·), varFval := hp.varFval.map (u ^ 2 * ·), varFgrad := hp.varFgrad.map (u ^ 2 * ·) }

/-- The optimiser's vector in the new units: the logarithms (base 10) of the variances move by `2 log₁₀ |u|`. -/
def unitsVec (slots : List Slot) (u : ℝ) (x : Arr1) : Arr1 :=
  ⟨x.n, fun p => match slots[p]? with
    | some .varK | some .varFval | some .varFgrad => x.get p + 2 * Real.logb 10 |u|
    | _ => x.get p⟩

/-- The hyperparameters with the prior mean in the new units too. -/
def unitsFit (u b : ℝ) (hp : HpVals) : HpVals := { unitsHp u hp with beta := hp.beta.map fun β => β.map fun t => u * t + b }

/-- Predictions in the new units: means are multiplied by `u` and moved by `b`, standard deviations are multiplied by `|u|`, and derivatives
likewise. -/
def inUnits (u b : ℝ) {nx dim : ℕ} (o : EvalOut nx dim) : EvalOut nx dim where
  mu := fun a => u * o.mu a + b
  sig := fun a => |u| * o.sig a
  dmu := o.dmu.map fun A => of fun a i => u * A a i
  dsig := o.dsig.map fun A => of fun a i => |u| * A a i
  d2mu := o.d2mu.map fun A => of fun e i => u * A e i
  d2sig := o.d2sig.map fun H => H.map fun A => of fun e i => |u| * A e i

end Spec
