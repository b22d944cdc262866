import Verif.Spec.OptzRowSpec
import Verif.Spec.PredictSpec

/-! The loop of an optimisation with a surrogate model. -/

open Np GP

noncomputable section

namespace Spec

/-- The object after `k` iterations: in iteration `j` the data `d j` are set, then the hyperparameters are optimised. -/
def afterIter (d : ℕ → DataIn) (c : OptzCfg) (q : ℕ → Oracle) (s : Session) : ℕ → Session
  | 0 => s
  | k + 1 => ((SOp.hpara c (q k) "optz" k none false).run ((SOp.data (d k)).run (afterIter d c q s k)).1).1

/-- The object in iteration `k`, after the data are set. -/
def inIter (d : ℕ → DataIn) (c : OptzCfg) (q : ℕ → Oracle) (s : Session) (k : ℕ) : Session := ((SOp.data (d k)).run (afterIter d c q s k)).1

/-- Data that an object without scaling accepts: the arrays fit together, and there is at least one point. -/
structure GoodData (st : GpStatic) (d : DataIn) : Prop where
  points : PointsFit st.dim d
  fits : Consistent st.dim st.useGrad d
  some : 0 < d.fval.size
  gradNoise : st.useGrad = true → ∀ S, NoiseKnown d.stdGrad S → 0 < numGrads d
  noise : st.useGrad = true ∨ ∃ S, NoiseKnown d.stdFval S
  mask : st.kernel = .ratQuad → numGrads d = d.fval.size

/-- The predictions `out` at the points `X` are means and standard deviations of the conditional distribution of the function value
given the data `d`: prior mean `β`, prior variance `v`, the kernel at `hv`, a positive nugget, noise variances `v * N`. -/
def PredictsFrom (st : GpStatic) (d : DataIn) (t : Session) (hv : HpVals) (v β : ℝ) (X : Arr2) (out : Obj6) : Prop :=
  ∃ g μ σ η, HoldsData st d g ∧ out.mu = some μ ∧ μ.n = X.r ∧ out.sig = some σ ∧ σ.n = X.r ∧ 0 < η ∧
    (t.obj.etaConst = true → η = t.obj.etaK) ∧
    ∀ N, IsNoise g hv N → ∀ K, IsKern g hv K → ∀ y, DataSpec g y → ∀ a < X.r, ∀ k, IsCross g hv (X.get a) k →
      CondNormal (noisyCov (t.obj.mtd == .precon) v K (v • N) η) (v • k) v (priorMean g β) β y (μ.get a) (σ.get a ^ 2)

/-- Proper options for the starting points of the optimiser. -/
structure LoopOpts (st : GpStatic) (c : OptzCfg) (q : ℕ → Oracle) : Prop where
  opts : GoodOpts { c.x0 with constN := st.constN, kernelRange := hpKernelRange st.kernel } st.kernel
  lhsFactor : 1 ≤ c.x0.lhsFactor
  boxFactor : c.x0.lhsFactor ≤ c.x0.boxFactor
  sampler : ∀ k, SamplerOk (q k).lhs

/-- The noise that is unknown in one iteration was unknown before. -/
def NoiseStays (st : GpStatic) (d : ℕ → DataIn) (n : ℕ) : Prop :=
  ∀ j k, j < k → k < n → (NoiseUnknown (d k).stdFval → NoiseUnknown (d j).stdFval) ∧
    (st.useGrad = true → NoiseUnknown (d k).stdGrad → NoiseUnknown (d j).stdGrad)

end Spec
