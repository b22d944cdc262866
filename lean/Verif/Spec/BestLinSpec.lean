import Verif.Model.LinAlg
import Mathlib.MeasureTheory.Integral.Bochner.Basic

/-! Means and covariances of random data. -/

open Np GP Matrix MeasureTheory

noncomputable section

namespace Spec

/-- The random data `Y` have the means `m` and the covariance matrix `C`; the random number `F` has the mean `m0`, the variance `v` and the
covariances `k` with the data. -/
structure HasMoments {Ω : Type*} [MeasurableSpace Ω] (P : Measure Ω) {n : ℕ} (m : Vec n) (m0 : ℝ) (C : Mat n n) (k : Vec n) (v : ℝ)
    (Y : Ω → Vec n) (F : Ω → ℝ) : Prop where
  memY : ∀ i, MemLp (fun ω => Y ω i) 2 P
  memF : MemLp F 2 P
  meanY : ∀ i, ∫ ω, Y ω i ∂P = m i
  meanF : ∫ ω, F ω ∂P = m0
  cov : ∀ i j, ∫ ω, (Y ω i - m i) * (Y ω j - m j) ∂P = C i j
  cross : ∀ i, ∫ ω, (Y ω i - m i) * (F ω - m0) ∂P = k i
  var : ∫ ω, (F ω - m0) ^ 2 ∂P = v

end Spec
