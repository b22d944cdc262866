import Verif.Spec.CondNumSpec
import Verif.Model.CondPlot

/-! Specification for C134: the map of condition numbers and likelihoods over pairs of length scales. -/

open Np GP Matrix

noncomputable section

namespace Spec

/-- The process variances considered: with noise in the data the script fixes it at `0.1`, without noise it is free. -/
def VarAllowed (g : Gp) (w : ℝ) : Prop := if g.noisy then w = 1 / 10 else 0 < w

/-- The variance the condition number refers to. -/
def refVar (g : Gp) : ℝ := if g.noisy then 1 / 10 else 1

/-- Length-scale parameter `s` for the first input and `t` for the second one; the parameter of the rational quadratic kernel is `2`. -/
def pairHp (g : Gp) (s t : ℝ) : HpVals :=
  { theta := some ⟨2, fun d => if d = 0 then s else t⟩, kernel := if g.kernel = .ratQuad then some 2 else none }

/-- For the pair of length-scale parameters `(s, t)`: the kernel matrix `K` of the data, the variances `N` of the noise and the nugget `η`. -/
structure PairData (g : Gp) (s t : ℝ) (K : Mat g.nData g.nData) (N : Vec g.nData) (η : ℝ) : Prop where
  kern : IsKern g (pairHp g s t) K
  noise : IsNoise g (pairHp g s t) N
  nugget : IsNugget g.o (refVar g) K N η

/-- The covariance matrix may be used: with preconditioning always, otherwise if its condition number is at most the absolute limit. -/
def Usable (g : Gp) (K : Mat g.nData g.nData) (N : Vec g.nData) (η : ℝ) : Prop :=
  g.o.precon = false → ∃ κ, IsCondNum g.o.fro (noisyCov false (refVar g) K N η) κ ∧ κ ≤ g.o.condMaxAbs

/-- The log-likelihood of data `y` for constant mean `c` and process variance `w`. -/
def pairLog (g : Gp) (K : Mat g.nData g.nData) (N : Vec g.nData) (η : ℝ) (y : Vec g.nData) (c w : ℝ) : ℝ :=
  gaussLog (noisyCov g.o.precon w K N η) (priorMean g c) y

end Spec
