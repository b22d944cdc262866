import Verif.Model.Predict
import Verif.Spec.Session

/-! Prediction through the methods of the object. -/

open Np GP Matrix

noncomputable section

namespace Spec

/-- Hyperparameters that fit the data `d`, with prior variance `v` and constant prior mean `β`: positive length scales, one per
coordinate; a positive kernel parameter where there is one; noise variances exactly where the noise level is unknown. -/
structure HpFor (st : GpStatic) (d : DataIn) (hp : HpVals) (v β : ℝ) : Prop where
  theta : ∃ th, hp.theta = some th ∧ th.n = st.dim ∧ ∀ i < st.dim, 0 < th.get i
  kernel : HpOk st.kernel hp.kernel
  varK : hp.varK = some v
  vpos : 0 < v
  beta : ∃ b, hp.beta = some b ∧ b.n = 1 ∧ b.get 0 = β
  known : ∀ S, NoiseKnown d.stdFval S → hp.varFval = none
  unknown : NoiseUnknown d.stdFval → ∃ x, hp.varFval = some x ∧ 0 ≤ x
  gknown : st.useGrad = true → ∀ S, NoiseKnown d.stdGrad S → hp.varFgrad = none
  gunknown : st.useGrad = true → NoiseUnknown d.stdGrad → ∃ x, hp.varFgrad = some x ∧ 0 ≤ x

/-- The data `d` are those of `g`: points, values, gradients, mask and known standard deviations. -/
structure HoldsData (st : GpStatic) (d : DataIn) (g : Gp) : Prop where
  dim : g.dim = st.dim
  useGrad : g.useGrad = st.useGrad
  kernel : g.kernel = st.kernel
  nEval : g.nEval = d.fval.size
  nGrad : g.nGrad = if st.useGrad then numGrads d else 0
  mask : g.bvec = d.bvec
  x : ∀ a < d.fval.size, ∀ i < st.dim, g.x.get a i = d.x.get [a, i]
  fval : ∀ a < d.fval.size, g.fval.get a = d.fval.flat a
  grad : ∀ G, d.grad = some G → ∃ G', g.grad = some G' ∧ ∀ a < numGrads d, ∀ i < st.dim, G'.get a i = G.get [a, i]
  stdFval : ∀ S, NoiseKnown d.stdFval S → g.knownFval = true ∧ ∃ s, g.stdFval = some s ∧ ∀ a < d.fval.size, S.flat a = some (s.get a)
  stdUnknown : NoiseUnknown d.stdFval → g.knownFval = false
  stdGrad : st.useGrad = true → ∀ S, NoiseKnown d.stdGrad S → g.knownFgrad = true ∧
    ∃ s, g.stdGrad = some s ∧ ∀ a < numGrads d, ∀ i < st.dim, S.get [a, i] = some (s.get a i)
  stdGradUnknown : st.useGrad = true → NoiseUnknown d.stdGrad → g.knownFgrad = false
  zero : g.fvalZero = true ↔ NoiseZero d.stdFval
  gzero : g.fgradZero = true ↔ (st.useGrad = false ∨ NoiseZero d.stdGrad)

end Spec
