import Verif.Model.RescaleNlc
import Verif.Spec.SclSpec
import Mathlib.Analysis.Calculus.Deriv.Basic

/-! What the conversions of nonlinear constraints between original and scaled coordinates have to compute. -/

open Np GP

noncomputable section

namespace Spec

/-- Equal arrays: same shape, same entries. -/
def Eq4 (a b : Arr4) : Prop :=
  a.n = b.n ∧ a.d = b.d ∧ a.r = b.r ∧ a.c = b.c ∧
    ∀ h < a.n, ∀ i < a.d, ∀ j < a.r, ∀ k < a.c, a.get h i j k = b.get h i j k

/-- The last axis of the derivatives has one entry per coordinate. -/
structure Nlc6Ok (dim : ℕ) (a : Nlc6) : Prop where
  dmu : ∀ A, a.dmu = some A → A.c = dim
  dsig : ∀ A, a.dsig = some A → A.c = dim
  d2mu : ∀ A, a.d2mu = some A → A.c = dim
  d2sig : ∀ A, a.d2sig = some A → A.c = dim

/-- Equal tuples of arrays. -/
structure Nlc6Eq (a b : Nlc6) : Prop where
  mu : OptRel Eq2 a.mu b.mu
  sig : OptRel Eq2 a.sig b.sig
  dmu : OptRel Eq3 a.dmu b.dmu
  dsig : OptRel Eq3 a.dsig b.dsig
  d2mu : OptRel Eq4 a.d2mu b.d2mu
  d2sig : OptRel Eq4 a.d2sig b.d2sig

/-- `g` are the partial derivatives of `f` at `x`. -/
def IsPartials {m : ℕ} (f : (Fin m → ℝ) → ℝ) (x g : Fin m → ℝ) : Prop :=
  ∀ i, HasDerivAt (fun t => f (Function.update x i t)) (g i) (x i)

/-- `h` is the second partial derivative `∂²f/∂x_i∂x_k` at `x`. -/
def IsSecond {m : ℕ} (f : (Fin m → ℝ) → ℝ) (i k : Fin m) (x : Fin m → ℝ) (h : ℝ) : Prop :=
  ∃ g : (Fin m → ℝ) → ℝ, (∀ z, HasDerivAt (fun t => f (Function.update z i t)) (g z) (z i)) ∧
    HasDerivAt (fun t => g (Function.update x k t)) h (x k)

/-- The arrays hold the values and the gradients of the functions `f j` at the points `x p`. -/
structure Describes {m : ℕ} (f : ℕ → (Fin m → ℝ) → ℝ) (x : ℕ → Fin m → ℝ) (V : Arr2) (G : Arr3) : Prop where
  shape : G.d = V.r ∧ G.r = V.c ∧ G.c = m
  val : ∀ p < V.r, ∀ j < V.c, V.get p j = f j (x p)
  grad : ∀ p < V.r, ∀ j < V.c, IsPartials (f j) (x p) fun i => G.get p j i

/-- A point in original coordinates, given in scaled ones. -/
def origPt (s : Scl) {m : ℕ} (z : Fin m → ℝ) : Fin m → ℝ := fun d => z d / s.xScale.get d + s.xShift.get d
/-- A point in scaled coordinates, given in original ones. -/
def scaledPt (s : Scl) {m : ℕ} (x : Fin m → ℝ) : Fin m → ℝ := fun d => (x d - s.xShift.get d) * s.xScale.get d
/-- The `j`-th constraint as a function of the scaled point: shifted and scaled. -/
def scaledCon (s : Scl) {m : ℕ} (f : ℕ → (Fin m → ℝ) → ℝ) (j : ℕ) (z : Fin m → ℝ) : ℝ :=
  s.nlcScale * (f j (origPt s z) - s.nlcShift.get j)

end Spec
