import Verif.Model.LinAlg

/-! Inexact solutions of linear systems. -/

open Np GP Matrix

noncomputable section

namespace Spec

/-- `z` solves `M z = r` up to a residual whose norm, weighted by `1/τ`, is at most `ε`. -/
def SolvesUpTo {n : ℕ} (M : Mat n n) (τ : Vec n) (ε : ℝ) (z r : Vec n) : Prop := ∑ i, (M *ᵥ z - r) i ^ 2 / τ i ≤ ε ^ 2

end Spec
