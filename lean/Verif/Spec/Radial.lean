import Verif.Spec.Kernels
import Mathlib.Analysis.Calculus.Deriv.Mul
import Mathlib.Analysis.Calculus.Deriv.Comp
import Mathlib.Analysis.Calculus.Deriv.Pow
import Mathlib.Analysis.Calculus.Deriv.Add

/-! Derivatives of radial kernels `k(x,y) = φ(∑ θ_d (x_d-y_d)²)` in closed form. -/

noncomputable section

open Set

namespace Spec

/-- A profile with its first two derivatives on `[0,∞)`. -/
structure Profile (φ φ1 φ2 : ℝ → ℝ) : Prop where
  d1 : ∀ s, 0 ≤ s → HasDerivWithinAt φ (φ1 s) (Ici 0) s
  d2 : ∀ s, 0 ≤ s → HasDerivWithinAt φ1 (φ2 s) (Ici 0) s

/-- The radial kernel of a profile. -/
def radial (φ : ℝ → ℝ) (dim : ℕ) (θ : ℕ → ℝ) (x y : Pt) : ℝ := φ (wdist2 dim θ x y)

/-- Kronecker delta. -/
def kron (i j : ℕ) : ℝ := if i = j then 1 else 0

theorem kron_self (i : ℕ) : kron i i = 1 := by simp [kron]
theorem kron_ne {i j : ℕ} (h : i ≠ j) : kron i j = 0 := by simp [kron, h]
theorem kron_comm (i j : ℕ) : kron i j = kron j i := by simp [kron, eq_comm]

/-- `∑ θ_d r_d²` for a difference vector `r`. -/
def ssq (dim : ℕ) (θ : ℕ → ℝ) (r : ℕ → ℝ) : ℝ := ∑ d ∈ Finset.range dim, θ d * r d ^ 2

theorem ssq_nonneg {dim : ℕ} {θ : ℕ → ℝ} (hθ : ∀ d < dim, 0 ≤ θ d) (r : ℕ → ℝ) : 0 ≤ ssq dim θ r :=
  Finset.sum_nonneg fun d hd => mul_nonneg (hθ d (Finset.mem_range.mp hd)) (sq_nonneg _)

theorem wdist2_eq (dim : ℕ) (θ : ℕ → ℝ) (x y : Pt) : wdist2 dim θ x y = ssq dim θ (fun d => x d - y d) := rfl

/-- Closed-form covariance entries of a radial kernel as a function of the difference `r = x - y`. -/
def radKG (φ φ1 φ2 : ℝ → ℝ) (dim : ℕ) (θ : ℕ → ℝ) (r : ℕ → ℝ) : Option ℕ → Option ℕ → ℝ
  | none, none => φ (ssq dim θ r)
  | some i, none => 2 * θ i * r i * φ1 (ssq dim θ r)
  | none, some j => -(2 * θ j * r j * φ1 (ssq dim θ r))
  | some i, some j =>
    -(2 * θ i * kron i j * φ1 (ssq dim θ r)) - 4 * θ i * θ j * r i * r j * φ2 (ssq dim θ r)

theorem hasDerivAt_ssq_x {dim : ℕ} (θ : ℕ → ℝ) (x y : Pt) {i : ℕ} (hi : i < dim) (t : ℝ) :
    HasDerivAt (fun s => wdist2 dim θ (Function.update x i s) y) (2 * θ i * (t - y i)) t := by
  unfold wdist2
  have h : ∀ d ∈ Finset.range dim, HasDerivAt (fun s => θ d * (Function.update x i s d - y d) ^ 2)
      (if d = i then 2 * θ i * (t - y i) else 0) t := by
    intro d _
    by_cases hd : d = i
    · subst hd
      simp only [Function.update_self, if_true]
      have := (((hasDerivAt_id' t).sub_const (y d)).fun_pow 2).const_mul (θ d)
      exact this.congr_deriv (by push_cast; ring)
    · simp only [Function.update_of_ne hd, hd, if_false]
      exact hasDerivAt_const t _
  have := HasDerivAt.fun_sum h
  rw [Finset.sum_ite_eq' (Finset.range dim) i] at this
  simpa [hi] using this

theorem wdist2_comm (dim : ℕ) (θ : ℕ → ℝ) (x y : Pt) : wdist2 dim θ x y = wdist2 dim θ y x := by
  unfold wdist2; congr 1; funext d; ring

theorem hasDerivAt_ssq_y {dim : ℕ} (θ : ℕ → ℝ) (x y : Pt) {j : ℕ} (hj : j < dim) (t : ℝ) :
    HasDerivAt (fun s => wdist2 dim θ x (Function.update y j s)) (-(2 * θ j * (x j - t))) t := by
  have := hasDerivAt_ssq_x θ y x hj t
  simp only [wdist2_comm dim θ x]
  convert this using 1
  ring

/-- Chain rule for a function with a one-sided derivative composed with a nonnegative function. -/
theorem comp_within {φ φ1 : ℝ → ℝ} {h : ℝ → ℝ} {h' t : ℝ} (hφ : HasDerivWithinAt φ (φ1 (h t)) (Ici 0) (h t))
    (hh : HasDerivAt h h' t) (hpos : ∀ s, 0 ≤ h s) : HasDerivAt (fun s => φ (h s)) (φ1 (h t) * h') t :=
  hφ.comp_hasDerivAt t hh (Filter.Eventually.of_forall hpos)

theorem wdist2_nonneg {dim : ℕ} {θ : ℕ → ℝ} (hθ : ∀ d < dim, 0 ≤ θ d) (x y : Pt) : 0 ≤ wdist2 dim θ x y :=
  ssq_nonneg hθ _

/-- Closed forms are the covariances between values and partial derivatives. -/
theorem radKG_isCov {φ φ1 φ2 : ℝ → ℝ} (P : Profile φ φ1 φ2) {dim : ℕ} {θ : ℕ → ℝ}
    (hθ : ∀ d < dim, 0 ≤ θ d) (x y : Pt) (ox oy : Option ℕ)
    (hx : ∀ i ∈ ox, i < dim) (hy : ∀ j ∈ oy, j < dim) :
    IsCov (radial φ dim θ) x ox y oy (radKG φ φ1 φ2 dim θ (fun d => x d - y d) ox oy) := by
  match ox, oy with
  | none, none => rfl
  | some i, none =>
    have hi : i < dim := hx i rfl
    have := comp_within (P.d1 _ (wdist2_nonneg hθ _ y)) (hasDerivAt_ssq_x θ x y hi (x i))
      (fun s => wdist2_nonneg hθ _ y)
    simp only [Function.update_eq_self] at this
    simp only [IsCov, radKG, radial]
    convert this using 1
    rw [wdist2_eq]; ring
  | none, some j =>
    have hj : j < dim := hy j rfl
    have := comp_within (P.d1 _ (wdist2_nonneg hθ x _)) (hasDerivAt_ssq_y θ x y hj (y j))
      (fun s => wdist2_nonneg hθ x _)
    simp only [Function.update_eq_self] at this
    simp only [IsCov, radKG, radial]
    convert this using 1
    rw [wdist2_eq]; ring
  | some i, some j =>
    have hi : i < dim := hx i rfl
    have hj : j < dim := hy j rfl
    simp only [IsCov, radKG, radial]
    refine ⟨fun t => 2 * θ i * (x i - Function.update y j t i) * φ1 (wdist2 dim θ x (Function.update y j t)), ?_, ?_⟩
    · intro t
      have := comp_within (P.d1 _ (wdist2_nonneg hθ _ (Function.update y j t)))
        (hasDerivAt_ssq_x θ x (Function.update y j t) hi (x i)) (fun s => wdist2_nonneg hθ _ _)
      simp only [Function.update_eq_self] at this
      convert this using 1
      ring
    · have h1 := comp_within (P.d2 _ (wdist2_nonneg hθ x _)) (hasDerivAt_ssq_y θ x y hj (y j))
        (fun s => wdist2_nonneg hθ x _)
      have h2 : HasDerivAt (fun t => 2 * θ i * (x i - Function.update y j t i)) (-(2 * θ i * kron i j)) (y j) := by
        by_cases hij : i = j
        · subst hij
          simp only [Function.update_self, kron_self]
          have := ((hasDerivAt_id' (y i)).const_sub (x i)).const_mul (2 * θ i)
          exact this.congr_deriv (by ring)
        · simp only [Function.update_of_ne hij, kron_ne hij]
          exact (hasDerivAt_const (y j) (2 * θ i * (x i - y i))).congr_deriv (by ring)
      have := h2.fun_mul h1
      simp only [Function.update_eq_self] at this
      refine this.congr_deriv ?_
      rw [wdist2_eq]; ring

end Spec
