import Verif.Spec.LoopSpec
import Verif.Spec.OrigSpec
import Verif.Spec.ScaleSpec

/-! The predictions of a model with scaled data, in original units. -/

open Np GP

noncomputable section

namespace Spec

/-- The predictions `out` at the points `X` are means and standard deviations of the conditional distribution of the function value
given the data `d` in original units: with the positive scaling factors `s_i` of the coordinates and `c` of the values, prior mean
`β / c + shift`, prior variance `v / c²`, the kernel with `theta_i s_i²`, a positive nugget, and the noise in original units. -/
def PredictsScaled (st : GpStatic) (d : DataIn) (t : Session) (hv : HpVals) (v β : ℝ) (X : Arr2) (out : Obj6) : Prop :=
  ∃ g s μ σ η, HoldsData st d g ∧ t.obj.scl = some s ∧ s.xInit = g.x ∧ (∀ i < st.dim, 0 < s.xScale.get i) ∧ 0 < s.objScale ∧
    out.mu = some μ ∧ μ.n = X.r ∧ out.sig = some σ ∧ σ.n = X.r ∧ 0 < η ∧ (t.obj.etaConst = true → η = t.obj.etaK) ∧
    ∀ u, UnitFactor g s u → ∀ N, OrigNoise g hv s N → ∀ K, IsKern g (origHp s hv) K → ∀ y, DataSpec g y → ∀ a < X.r, ∀ k,
      IsCross g (origHp s hv) (X.get a) k →
      CondNormal (origCov (t.obj.mtd == .precon) (v / s.objScale ^ 2) K (fun q => v * N q) η u) ((v / s.objScale ^ 2) • k) (v / s.objScale ^ 2)
        (priorMean g (β / s.objScale + s.objShift)) (β / s.objScale + s.objShift) y (μ.get a) (σ.get a ^ 2)

end Spec
