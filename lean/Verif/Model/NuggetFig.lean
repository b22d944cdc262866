import Verif.Model.LinAlg
import Verif.Model.WellCond

/-! Model of the nuggets that `gpgradpy/plt/plt_nugget_1d.py` compares. Sampling of the points and plotting are left out. -/

open Np Matrix

noncomputable section

namespace GP

open Classical in
/-- `np.max(np.linalg.eigvalsh(A))` of a symmetric matrix. -/
def eigMax {n : ℕ} (A : Mat n n) : ℝ := if h : A.IsHermitian then ⨆ i, h.eigenvalues i else 0

open Classical in
/-- `np.min(np.linalg.eigvalsh(A))` of a symmetric matrix. -/
def eigMin {n : ℕ} (A : Mat n n) : ℝ := if h : A.IsHermitian then ⨅ i, h.eigenvalues i else 0

/-- The largest sum of absolute values in a column, `np.linalg.norm(A, 1)`. -/
def norm1 {n : ℕ} (A : Mat n n) : ℝ := ⨆ j, ∑ i, |A i j|

/-- `np.linalg.cond(A, p=1)` of an invertible matrix (numpy: infinite for a singular one). -/
def cond1 {n : ℕ} (A : Mat n n) : ℝ := norm1 A * norm1 A⁻¹

/-- `eta_w_trace`: plt/plt_nugget_1d.py:82. -/
def etaWTrace (nEval dim : ℕ) (condMax : ℝ) : ℝ := nEval * ((dim : ℝ) + 1) / (condMax - 1)

/-- `eta_Gaussian`: plt/plt_nugget_1d.py:83. -/
def etaGaussian (nEval dim : ℕ) (condMax : ℝ) : ℝ :=
  (1 + ((nEval : ℝ) - 1) * 0.5 * (1 + Real.sqrt (1 + 4 * dim)) *
    Real.exp (-(1 + 2 * dim - Real.sqrt (1 + 4 * dim)) / (4 * dim))) / (condMax - 1)

/-- What the loop stores for one matrix: plt/plt_nugget_1d.py:157-163. -/
structure NuggetRow where
  isDiagdom : Bool
  etaCircle : ℝ
  etaEig : ℝ
  condL2 : ℝ
  etaL2 : ℝ
  etaL1 : ℝ

open Classical in
/-- The body of the loop, for the matrix `Kcor`: plt/plt_nugget_1d.py:165, 176-197. Condition numbers as for an invertible matrix (of a
singular one they are infinite and the two nuggets computed from them NaN). -/
def nuggetRow (nEval dim : ℕ) (condMax : ℝ) {n : ℕ} (Kcor : Mat n n) : Py NuggetRow := do
  let ndata : ℝ := nEval * ((dim : ℝ) + 1)                                                      -- line 165
  let m ← vecMax (absRowSum Kcor)                                                               -- lines 178, 183
  let k1 := cond1 Kcor                                                                          -- line 188
  let k2 := cond2 Kcor                                                                          -- line 189
  let est2 := ndata * k2 / (k2 + ndata - 1)                                                     -- line 193
  let est1 := ndata * Real.sqrt ndata * k1 / (k1 * Real.sqrt ndata + ndata - 1)                 -- line 196
  pure { isDiagdom := decide (m ≤ 1)                                                            -- lines 178-181
         etaCircle := m / (condMax - 1)                                                         -- line 184
         etaEig := max 0 ((eigMax Kcor - eigMin Kcor * condMax) / (condMax - 1))                -- line 186
         condL2 := k2                                                                           -- line 191
         etaL2 := est2 / (condMax - 1) * (1 - condMax / k2)                                     -- line 194
         etaL1 := max 0 (est1 / (condMax - 1) * (1 - condMax / (Real.sqrt ndata * k1))) }       -- line 197

end GP
