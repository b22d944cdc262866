import Verif.Spec.EvalSpec

/-! When predictions can be asked for. -/

open Np GP Matrix

noncomputable section

namespace Spec

/-- A well-formed object and hyperparameters ready for prediction: prior variance `v`, constant prior mean `β`. The noise
in the values is known unless gradients are used (otherwise `calc_noise_vec` raises), preconditioning is only used with
gradients (`set_wellcond_mtd` ensures it), the nugget is not negative, and with the rational quadratic kernel
the gradient mask, if any, leaves out no point (its masked cross-covariances raise or are wrong). -/
structure Ready (g : Gp) (hp : HpVals) (v β : ℝ) : Prop where
  ok : GpOk g
  adm : HpAdm g hp
  noise : g.useGrad = true ∨ g.knownFval = true
  precon : g.o.precon = true → g.useGrad = true
  ne : 0 < g.nEval
  vpos : 0 < v
  varK : hp.varK = some v
  beta : ∃ b, hp.beta = some b ∧ b.n = 1 ∧ b.get 0 = β
  eta : if g.o.etaConst then 0 ≤ g.o.etaK else 1 < g.o.condMaxTarget
  mask : g.kernel = .ratQuad → fullMask g.bvec g.nEval

/-- As `Ready`, but enough for predicted values and standard deviations only: with the rational quadratic kernel the
gradient mask, if any, leaves out no point or selects one point only. -/
structure ReadyV (g : Gp) (hp : HpVals) (v β : ℝ) : Prop where
  ok : GpOk g
  adm : HpAdm g hp
  noise : g.useGrad = true ∨ g.knownFval = true
  precon : g.o.precon = true → g.useGrad = true
  ne : 0 < g.nEval
  vpos : 0 < v
  varK : hp.varK = some v
  beta : ∃ b, hp.beta = some b ∧ b.n = 1 ∧ b.get 0 = β
  eta : if g.o.etaConst then 0 ≤ g.o.etaK else 1 < g.o.condMaxTarget
  mask : g.kernel = .ratQuad → fullMask g.bvec g.nEval ∨ g.nGrad = 1

theorem Ready.toV {g : Gp} {hp : HpVals} {v β : ℝ} (h : Ready g hp v β) : ReadyV g hp v β :=
  ⟨h.ok, h.adm, h.noise, h.precon, h.ne, h.vpos, h.varK, h.beta, h.eta, fun hk => .inl (h.mask hk)⟩

/-- `N` lists the noise variances in the order of the data. -/
def IsNoise (g : Gp) (hp : HpVals) (N : Vec g.nData) : Prop := ∃ Na, NoiseSpec g hp Na ∧ ∀ i, N i = Na.get i

/-- The covariance matrix of noisy data with nugget `η`: prior variance `v`, unit-variance kernel matrix `K`, noise
variances `N`; with preconditioning the nugget is proportional to the diagonal, otherwise to `v`. -/
def noisyCov (precon : Bool) {n : ℕ} (v : ℝ) (K : Mat n n) (N : Vec n) (η : ℝ) : Mat n n :=
  of fun i j => v * K i j + if i = j then N i + η * (if precon then v * K i i + N i else v) else 0

end Spec
