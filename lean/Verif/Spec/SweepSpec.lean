import Verif.Spec.CondNumSpec
import Verif.Model.Sweep

/-! Specification for C132: the script that scans the length scale of a one-dimensional model. -/

open Np GP Matrix

noncomputable section

namespace Spec

/-- The log-likelihood of data `y` for length-scale parameter `t`, constant mean `c` and process variance `w`; without noise in the data, with kernel matrix `K` and nugget `η`. -/
def scanLog (g : Gp) (K : Mat g.nData g.nData) (η : ℝ) (y : Vec g.nData) (c w : ℝ) : ℝ :=
  gaussLog (noisyCov g.o.precon w K 0 η) (priorMean g c) y

/-- For length-scale parameter `t`: the kernel matrix `K` of the data, the nugget `η`, and a mean `β` and variance `v` that are more likely than any other
pair, or the variance is at its lower limit. -/
structure ScanFit (g : Gp) (t : ℝ) (y : Vec g.nData) (K : Mat g.nData g.nData) (η β v : ℝ) : Prop where
  kern : IsKern g { theta := some ⟨1, fun _ => t⟩ } K
  nugget : IsNugget g.o 1 K 0 η
  pd : (noisyCov g.o.precon 1 K 0 η).PosDef
  pos : 0 < v
  best : varKMin < maha (noisyCov g.o.precon 1 K 0 η) (y - priorMean g β) / g.nData →
    ∀ c w, 0 < w → (c, w) ≠ (β, v) → scanLog g K η y c w < scanLog g K η y β v

end Spec
