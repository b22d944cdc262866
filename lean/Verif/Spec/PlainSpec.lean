import Verif.Spec.GpState

/-! Data whose covariance matrix is well conditioned at all hyperparameters. -/

open Np GP

noncomputable section

namespace Spec

/-- The values have no noise, or known noise of the same standard deviation everywhere. -/
def EvenNoise (d : DataIn) : Prop :=
  NoiseZero d.stdFval ∨ ∃ S, NoiseKnown d.stdFval S ∧ ∀ j < S.size, ∀ k < S.size, S.flat j = S.flat k

/-- No gradients, even noise, condition numbers in the spectral norm, and limits on the condition number that are not below the
target (by default all of them are `10^10`). -/
structure WellCondData (st : GpStatic) (d : DataIn) : Prop where
  useGrad : st.useGrad = false
  noise : EvenNoise d
  norm : st.fro = false
  condMax : st.condMaxTarget ≤ 1.2 * st.condMax
  condMaxAbs : st.condMaxTarget ≤ st.condMaxAbs

end Spec
