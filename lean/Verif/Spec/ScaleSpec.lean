import Verif.Spec.GpState

/-! What the scaling methods ask of the scaled data. -/

open Np GP

noncomputable section

namespace Spec

/-- The required smallest distance of method `'rescale_origin'` for `n ≥ 2` points in dimension `d`:
`min(2 sqrt d, (2 + sqrt(4 + 2 e² ln((n - 1)(1 + 2 sqrt d) / 2))) / e)`. -/
def reqVmin (n d : ℕ) : ℝ :=
  min (2 * Real.sqrt d) ((2 + Real.sqrt (4 + 2 * Real.exp 2 * Real.log (((n : ℝ) - 1) * (1 + 2 * Real.sqrt d) / 2))) / Real.exp 1)

/-- The scaled points `X` (two or more) are spread as the method asks: its configured smallest or largest distance is attained. -/
def Spread (st : GpStatic) (m : WcMtd) (X : Arr2) : Prop :=
  match m with
  | .rescaleOrigin => IsMinDist X (reqVmin X.r st.dim)
  | .rescaleEtaVary => IsMinDist X st.vminVary
  | .dfltVmin => IsMinDist X st.distMin
  | .dfltVmax => IsMaxDist X st.distMax
  | _ => True

/-- The configured distance of the method is positive. -/
def DistPos (st : GpStatic) (m : WcMtd) : Prop :=
  match m with
  | .rescaleEtaVary => 0 < st.vminVary
  | .dfltVmin => 0 < st.distMin
  | .dfltVmax => 0 < st.distMax
  | _ => True

/-- The given points allow the scaling: pairwise distances of at least `1e-14` for the methods that set the smallest distance, not all
points equal for the method that sets the largest. -/
def Spreadable (m : WcMtd) (X : Arr2) : Prop :=
  if m = .dfltVmax then ∃ p < X.r, ∃ q < X.r, ∃ i < X.c, X.get p i ≠ X.get q i
  else ∀ p < X.r, ∀ q < X.r, p ≠ q → (10 : ℝ) ^ (-14 : ℤ) ≤ ptDist X p q

end Spec
