import Verif.Model.LinAlg
import Mathlib.Analysis.Calculus.Deriv.Mul
import Mathlib.Analysis.Calculus.Deriv.Inv
import Mathlib.Analysis.Calculus.Deriv.Add
import Mathlib.Analysis.SpecialFunctions.Log.Deriv
import Mathlib.LinearAlgebra.Matrix.Adjugate

/-! Derivatives of determinants and inverses of matrix-valued functions of a real variable. -/

open GP Matrix

noncomputable section

namespace MD

variable {n m k : ℕ}

/-- Entrywise derivative. -/
def MDeriv (M : ℝ → Mat n m) (M' : Mat n m) (t : ℝ) : Prop := ∀ i j, HasDerivAt (fun s => M s i j) (M' i j) t

theorem MDeriv.mul {A : ℝ → Mat n m} {B : ℝ → Mat m k} {A' : Mat n m} {B' : Mat m k} {t : ℝ} (hA : MDeriv A A' t)
    (hB : MDeriv B B' t) : MDeriv (fun s => A s * B s) (A' * B t + A t * B') t := by
  intro i j
  simp only [Matrix.mul_apply, Matrix.add_apply, ← Finset.sum_add_distrib]
  exact HasDerivAt.fun_sum fun l _ => (hA i l).fun_mul (hB l j)

theorem MDeriv.transpose {A : ℝ → Mat n m} {A' : Mat n m} {t : ℝ} (hA : MDeriv A A' t) : MDeriv (fun s => (A s)ᵀ) A'ᵀ t :=
  fun i j => hA j i

theorem MDeriv.add {A B : ℝ → Mat n m} {A' B' : Mat n m} {t : ℝ} (hA : MDeriv A A' t) (hB : MDeriv B B' t) :
    MDeriv (fun s => A s + B s) (A' + B') t := fun i j => (hA i j).fun_add (hB i j)

theorem MDeriv.const (A : Mat n m) (t : ℝ) : MDeriv (fun _ => A) 0 t := fun _ _ => hasDerivAt_const _ _

theorem MDeriv.smul {c : ℝ → ℝ} {c' : ℝ} {A : ℝ → Mat n m} {A' : Mat n m} {t : ℝ} (hc : HasDerivAt c c' t) (hA : MDeriv A A' t) :
    MDeriv (fun s => c s • A s) (c' • A t + c t • A') t := fun i j => hc.fun_mul (hA i j)

theorem MDeriv.unique {A : ℝ → Mat n m} {A' A'' : Mat n m} {t : ℝ} (h : MDeriv A A' t) (h2 : MDeriv A A'' t) : A' = A'' := by
  ext i j; exact (h i j).unique (h2 i j)

theorem MDeriv.mulVec {A : ℝ → Mat n m} {A' : Mat n m} {t : ℝ} (hA : MDeriv A A' t) {x : ℝ → Vec m} {x' : Vec m}
    (hx : ∀ j, HasDerivAt (fun s => x s j) (x' j) t) (i : Fin n) :
    HasDerivAt (fun s => (A s *ᵥ x s) i) ((A' *ᵥ x t + A t *ᵥ x') i) t := by
  simp only [Matrix.mulVec, dotProduct, Pi.add_apply, ← Finset.sum_add_distrib]
  exact HasDerivAt.fun_sum fun l _ => (hA i l).fun_mul (hx l)

theorem dot_deriv {x y : ℝ → Vec n} {x' y' : Vec n} {t : ℝ} (hx : ∀ j, HasDerivAt (fun s => x s j) (x' j) t)
    (hy : ∀ j, HasDerivAt (fun s => y s j) (y' j) t) :
    HasDerivAt (fun s => x s ⬝ᵥ y s) (x' ⬝ᵥ y t + x t ⬝ᵥ y') t := by
  simp only [dotProduct, ← Finset.sum_add_distrib]
  exact HasDerivAt.fun_sum fun l _ => (hx l).fun_mul (hy l)

/-- Jacobi's formula. -/
theorem det_deriv {M : ℝ → Mat n n} {M' : Mat n n} {t : ℝ} (h : MDeriv M M' t) :
    HasDerivAt (fun s => (M s).det) (trace (adjugate (M t) * M')) t := by
  have h1 : HasDerivAt (fun s => (M s).det) (∑ σ : Equiv.Perm (Fin n), (Equiv.Perm.sign σ : ℤ) *
      ∑ i, (∏ j ∈ Finset.univ.erase i, M t (σ j) j) * M' (σ i) i) t := by
    simp only [det_apply']
    refine HasDerivAt.fun_sum fun σ _ => HasDerivAt.const_mul _ ?_
    have := HasDerivAt.fun_finsetProd (u := Finset.univ) (f := fun i s => M s (σ i) i) (f' := fun i => M' (σ i) i) (x := t)
      (fun i _ => h (σ i) i)
    simpa [smul_eq_mul] using this
  refine h1.congr_deriv ?_
  have h2 : ∀ i, (adjugate (M t) * M') i i = ∑ σ : Equiv.Perm (Fin n), (Equiv.Perm.sign σ : ℤ) *
      ((∏ j ∈ Finset.univ.erase i, M t (σ j) j) * M' (σ i) i) := by
    intro i
    have e : (adjugate (M t) * M') i i = (adjugate (M t) *ᵥ fun l => M' l i) i := rfl
    rw [e, ← cramer_eq_adjugate_mulVec, cramer_apply, det_apply']
    refine Finset.sum_congr rfl fun σ _ => ?_
    congr 1
    rw [← Finset.mul_prod_erase _ _ (Finset.mem_univ i), mul_comm]
    congr 1
    · refine Finset.prod_congr rfl fun j hj => ?_
      rw [updateCol_ne (Finset.ne_of_mem_erase hj)]
    · rw [updateCol_self]
  simp only [trace, diag_apply, h2, Finset.mul_sum]
  rw [Finset.sum_comm]

/-- `d log det M = tr (M⁻¹ dM)`. -/
theorem logdet_deriv {M : ℝ → Mat n n} {M' : Mat n n} {t : ℝ} (h : MDeriv M M' t) (hd : (M t).det ≠ 0) :
    HasDerivAt (fun s => Real.log (M s).det) (trace ((M t)⁻¹ * M')) t := by
  refine ((det_deriv h).log hd).congr_deriv ?_
  rw [inv_def, smul_mul, trace_smul, smul_eq_mul, Ring.inverse_eq_inv']
  field_simp

theorem inv_differentiable {M : ℝ → Mat n n} {M' : Mat n n} {t : ℝ} (h : MDeriv M M' t) (hd : (M t).det ≠ 0) (i j : Fin n) :
    ∃ e, HasDerivAt (fun s => (M s)⁻¹ i j) e t := by
  have hadj : ∃ e, HasDerivAt (fun s => adjugate (M s) i j) e t := by
    simp only [adjugate_apply]
    refine ⟨_, det_deriv (M := fun s => (M s).updateRow j (Pi.single i 1)) (M' := M'.updateRow j 0) ?_⟩
    intro a b
    by_cases ha : a = j
    · subst ha
      simp only [updateRow_self]
      exact hasDerivAt_const _ _
    · simp only [updateRow_ne ha]
      exact h a b
  obtain ⟨e, he⟩ := hadj
  refine ⟨_, (((det_deriv h).inv hd).mul he).congr_of_eventuallyEq (Filter.Eventually.of_forall fun s => ?_)⟩
  simp only [inv_def, Ring.inverse_eq_inv', Matrix.smul_apply, smul_eq_mul]
  rfl

/-- `d M⁻¹ = - M⁻¹ dM M⁻¹`. -/
theorem inv_deriv {M : ℝ → Mat n n} {M' : Mat n n} {t : ℝ} (h : MDeriv M M' t) (hd : (M t).det ≠ 0) :
    MDeriv (fun s => (M s)⁻¹) (-((M t)⁻¹ * M' * (M t)⁻¹)) t := by
  choose E hE using fun i j => inv_differentiable h hd i j
  have hE' : MDeriv (fun s => (M s)⁻¹) (of E) t := fun i j => hE i j
  have hp := h.mul hE'
  have hone : MDeriv (fun s => M s * (M s)⁻¹) 0 t := by
    intro i j
    have hc : ContinuousAt (fun s => (M s).det) t := (det_deriv h).continuousAt
    have hev : ∀ᶠ s in nhds t, (M s).det ≠ 0 := hc.eventually_ne hd
    refine (hasDerivAt_const t ((1 : Mat n n) i j)).congr_of_eventuallyEq ?_
    filter_upwards [hev] with s hs
    rw [mul_nonsing_inv _ (isUnit_iff_ne_zero.mpr hs)]
  have heq := hp.unique hone
  have hu : IsUnit (M t).det := isUnit_iff_ne_zero.mpr hd
  have : of E = -((M t)⁻¹ * M' * (M t)⁻¹) := by
    have h1 : M t * of E = -(M' * (M t)⁻¹) := by
      rw [eq_neg_iff_add_eq_zero, add_comm]; exact heq
    have h2 := congrArg (fun X => (M t)⁻¹ * X) h1
    rw [← Matrix.mul_assoc, nonsing_inv_mul _ hu, Matrix.one_mul] at h2
    rw [h2, Matrix.mul_neg, Matrix.mul_assoc]
  rwa [this] at hE'

end MD
