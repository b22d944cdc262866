import Verif.Np
import Mathlib.Data.Matrix.Mul
import Mathlib.LinearAlgebra.Matrix.NonsingularInverse
import Mathlib.Analysis.Matrix.Spectrum
import Mathlib.Analysis.SpecialFunctions.Log.Basic
import Mathlib.Analysis.SpecialFunctions.Sqrt
import Mathlib.Data.Real.Archimedean

/-! The parts of `scipy.linalg` and `numpy.linalg` that the library calls, by contract, in exact arithmetic. -/

open Np Matrix

noncomputable section

namespace GP

/-- A real matrix with `n` rows and `m` columns. -/
abbrev Mat (n m : ℕ) := Matrix (Fin n) (Fin m) ℝ
/-- A real vector. -/
abbrev Vec (n : ℕ) := Fin n → ℝ

/-- `L` is the Cholesky factor of `A`: lower triangular, positive diagonal, `L Lᵀ = A`. -/
structure IsChol {n : ℕ} (A L : Mat n n) : Prop where
  lower : ∀ i j, i < j → L i j = 0
  diag : ∀ i, 0 < L i i
  eq : L * Lᵀ = A

/-- The pair `(c, lower)` returned by `scipy.linalg.cho_factor`. scipy leaves unspecified numbers in the
other triangle of `c`; no caller reads them and they are 0 here. -/
structure ChoFac (n : ℕ) where
  c : Mat n n
  lower : Bool

/-- The matrix that a factor stands for. -/
def ChoFac.mat {n : ℕ} (F : ChoFac n) : Mat n n := if F.lower then F.c * F.cᵀ else F.cᵀ * F.c

open Classical in
/-- `scipy.linalg.cho_factor(A, lower)`; `none` is `LinAlgError`. Exact arithmetic: it succeeds exactly when
a Cholesky factor exists. -/
def choFactor {n : ℕ} (A : Mat n n) (lower : Bool) : Option (ChoFac n) :=
  if h : ∃ L, IsChol A L then some ⟨if lower then h.choose else h.chooseᵀ, lower⟩ else none

/-- `scipy.linalg.cho_solve(F, B)` for a matrix right-hand side. -/
def choSolve {n m : ℕ} (F : ChoFac n) (B : Mat n m) : Mat n m := F.mat⁻¹ * B

/-- `scipy.linalg.cho_solve(F, b)` for a vector right-hand side. -/
def choSolveV {n : ℕ} (F : ChoFac n) (b : Vec n) : Vec n := F.mat⁻¹ *ᵥ b

/-- `2*np.sum(np.log(np.diag(F[0])))`. -/
def choLogDet {n : ℕ} (F : ChoFac n) : ℝ := 2 * ∑ i, Real.log (F.c i i)

/-- `np.linalg.cond(A, p=2)` of a symmetric matrix: ratio of the largest to the smallest absolute eigenvalue (the
singular values). Only symmetric matrices are passed to it. -/
def cond2 {n : ℕ} (A : Mat n n) : ℝ :=
  open Classical in
  if h : A.IsHermitian then (⨆ i, |h.eigenvalues i|) / (⨅ i, |h.eigenvalues i|) else 0

/-- Frobenius norm. -/
def froNorm {n : ℕ} (A : Mat n n) : ℝ := Real.sqrt (∑ i, ∑ j, A i j ^ 2)

/-- `np.linalg.cond(A, p='fro')`. -/
def condFro {n : ℕ} (A : Mat n n) : ℝ := froNorm A * froNorm A⁻¹

/-- `np.sum(np.abs(A), axis=1)`. -/
def absRowSum {n : ℕ} (A : Mat n n) : Vec n := fun i => ∑ j, |A i j|

/-- `np.max(v)`: raises on an empty vector. -/
def vecMax {n : ℕ} (v : Vec n) : Py ℝ := if n = 0 then .error .shape else .ok (⨆ i, v i)

end GP
