import Verif.Spec.DataSetSpec

/-! Hyperparameters before and after the closed-form fit. -/

open Np GP

noncomputable section

namespace Spec

/-- The hyperparameters with the mean coefficient and the process variance still missing: `make_hp_class(None, theta, ...)`. -/
def unfitted (hp : HpVals) : HpVals := { hp with beta := none, varK := none }

/-- The same with a mean coefficient and a process variance: `make_hp_class(beta, theta, varK = u, ...)`. -/
def fitted (hp : HpVals) (β u : ℝ) : HpVals := { hp with beta := some ⟨1, fun _ => β⟩, varK := some u }

end Spec
