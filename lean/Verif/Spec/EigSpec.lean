import Verif.Model.LinAlg

/-! Eigenvalues, independently of the model. -/

open GP Matrix

noncomputable section

namespace Spec

/-- What `np.linalg.eig` returns for a symmetric matrix: unit eigenvectors in the columns, spanning the space. -/
structure EigOk {n : ℕ} (K : Mat n n) (e : Vec n × Mat n n) : Prop where
  eig : ∀ j, K *ᵥ (fun i => e.2 i j) = e.1 j • fun i => e.2 i j
  unit : ∀ j, ∑ i, e.2 i j ^ 2 = 1
  span : e.2.det ≠ 0

/-- `l` is the largest eigenvalue of the symmetric matrix `K`: an eigenvalue that bounds all Rayleigh quotients. -/
def IsMaxEig {n : ℕ} (K : Mat n n) (l : ℝ) : Prop :=
  (∃ x : Vec n, x ≠ 0 ∧ K *ᵥ x = l • x) ∧ ∀ x : Vec n, x ⬝ᵥ K *ᵥ x ≤ l * (x ⬝ᵥ x)

/-- `l` is the smallest eigenvalue of the symmetric matrix `K`. -/
def IsMinEig {n : ℕ} (K : Mat n n) (l : ℝ) : Prop :=
  (∃ x : Vec n, x ≠ 0 ∧ K *ᵥ x = l • x) ∧ ∀ x : Vec n, l * (x ⬝ᵥ x) ≤ x ⬝ᵥ K *ᵥ x

/-- The eigenvalue `l` is simple: any two eigenvectors for it are proportional. -/
def SimpleEig {n : ℕ} (K : Mat n n) (l : ℝ) : Prop :=
  ∀ u w : Vec n, u ≠ 0 → K *ᵥ u = l • u → K *ᵥ w = l • w → ∃ c : ℝ, w = c • u

end Spec
