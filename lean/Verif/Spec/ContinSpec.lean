import Verif.Spec.HpSlots
import Mathlib.Topology.Instances.Real.Lemmas

/-! Convergence of hyperparameters. -/

open Np GP Filter Topology

noncomputable section

namespace Spec

/-- The hyperparameters `hps k` converge to `hp`: every length scale, the kernel parameter, the prior variance and the noise variances do,
as far as they are present. -/
def HpConv {ι : Type*} (l : Filter ι) (hps : ι → HpVals) (hp : HpVals) : Prop :=
  ∀ s : Slot, Tendsto (fun k => (getSlot (hps k) s).getD 0) l (𝓝 ((getSlot hp s).getD 0))

end Spec
