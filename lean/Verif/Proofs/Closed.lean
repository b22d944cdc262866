import Verif.Proofs.Block
import Verif.Spec.Profiles

/-! Closed-form entries shared by the three kernels. -/

open Np Spec

noncomputable section

namespace GP

/-- Difference vector of the pair `(p, q)`. -/
def diffAt (R : Arr3) (p q : ℕ) : ℕ → ℝ := fun d => R.get d p q

/-- Entries of a gradient-enhanced matrix. -/
def kgF (φ φ1 φ2 : ℝ → ℝ) (R : Arr3) (theta : Arr1) (m1 m2 : Option (List Bool)) (x y : Ix) : ℝ :=
  radKG φ φ1 φ2 R.d theta.get (diffAt R (x.pt m1) (y.pt m2)) x.coord y.coord

/-- Entries of its derivative wrt `theta_d`. -/
def kgThF (φ1 φ2 φ3 : ℝ → ℝ) (R : Arr3) (theta : Arr1) (m : Option (List Bool)) (d : ℕ) (x y : Ix) : ℝ :=
  radKGth φ1 φ2 φ3 R.d theta.get (diffAt R (x.pt m) (y.pt m)) d x.coord y.coord

/-- Entries of the derivative wrt `x_k` of the gradient rows. -/
def kgXF (φ1 φ2 φ3 : ℝ → ℝ) (R : Arr3) (theta : Arr1) (m2 : Option (List Bool)) (k : ℕ) (x y : Ix) : ℝ :=
  match x with
  | .g i a => radKGx φ1 φ2 φ3 R.d theta.get (diffAt R a (y.pt m2)) k i y.coord
  | .v _ => 0

/-- `Rtensor` is antisymmetric: it was computed from a point set against itself. -/
def SelfR (R : Arr3) : Prop := R.r = R.c ∧ ∀ d p q, R.get d p q = - R.get d q p

theorem SelfR.ssq {R : Arr3} (h : SelfR R) (n : ℕ) (θ : ℕ → ℝ) (p q : ℕ) :
    ssq n θ (diffAt R p q) = ssq n θ (diffAt R q p) := by
  unfold Spec.ssq diffAt
  apply Finset.sum_congr rfl
  intro d _
  rw [h.2 d p q]; ring

end GP
