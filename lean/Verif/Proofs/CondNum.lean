import Verif.Proofs.CovCore
import Mathlib.LinearAlgebra.Matrix.Gershgorin

/-! Bounds on the condition number of `v (M + η I)`. -/

open Np Spec Matrix

noncomputable section

namespace GP

variable {n : ℕ}

/-- Eigenvalues of a matrix are bounded by its absolute row sums. -/
theorem eig_le_rowsum {M : Mat n n} {m : ℝ} (hm : ∀ i, ∑ j, |M i j| ≤ m) {μ : ℝ} {x : Vec n} (hx : x ≠ 0)
    (he : M *ᵥ x = μ • x) : μ ≤ m := by
  have hev : Module.End.HasEigenvalue (Matrix.toLin' M) μ :=
    Module.End.hasEigenvalue_of_hasEigenvector (x := x)
      ⟨Module.End.mem_eigenspace_iff.mpr (by rw [Matrix.toLin'_apply, he]), hx⟩
  obtain ⟨k, hk⟩ := eigenvalue_mem_ball hev
  rw [Metric.mem_closedBall, Real.dist_eq] at hk
  have h1 := hm k
  rw [← Finset.add_sum_erase _ _ (Finset.mem_univ k)] at h1
  have h2 := abs_sub_abs_le_abs_sub μ (M k k)
  have h3 := le_abs_self μ
  simp only [Real.norm_eq_abs] at hk
  linarith

/-- Eigenvalues of a positive semidefinite matrix are nonnegative. -/
theorem eig_nonneg {M : Mat n n} (hM : M.PosSemidef) {μ : ℝ} {x : Vec n} (hx : x ≠ 0) (he : M *ᵥ x = μ • x) : 0 ≤ μ := by
  have h := hM.dotProduct_mulVec_nonneg x
  rw [he, dotProduct_smul, smul_eq_mul] at h
  have hpos : 0 < star x ⬝ᵥ x := by
    simpa using (dotProduct_star_self_pos_iff (v := x)).mpr hx
  exact nonneg_of_mul_nonneg_left h hpos

theorem cond2_le {M : Mat n n} (hn : 0 < n) (hM : M.PosSemidef) {m : ℝ} (hm : ∀ i, ∑ j, |M i j| ≤ m) {v η : ℝ} (hv : 0 < v)
    (hη : 0 < η) : cond2 (v • (M + η • (1 : Mat n n))) ≤ (m + η) / η := by
  have hA : (v • (M + η • (1 : Mat n n))).IsHermitian := by
    have h1 : (M + η • (1 : Mat n n)).IsHermitian := hM.isHermitian.add (by
      unfold IsHermitian; rw [conjTranspose_smul, conjTranspose_one, star_trivial])
    unfold IsHermitian; rw [conjTranspose_smul, h1.eq, star_trivial]
  haveI : Nonempty (Fin n) := ⟨⟨0, hn⟩⟩
  unfold cond2
  rw [dif_pos hA]
  have hb : ∀ i, v * η ≤ hA.eigenvalues i ∧ hA.eigenvalues i ≤ v * (m + η) := by
    intro i
    have he := hA.mulVec_eigenvectorBasis i
    set x : Vec n := ⇑(hA.eigenvectorBasis i) with hx
    have hx0 : x ≠ 0 := by
      intro h0
      have := hA.eigenvectorBasis.orthonormal.ne_zero i
      apply this
      ext j
      exact congrFun h0 j
    have hMx : M *ᵥ x = (hA.eigenvalues i / v - η) • x := by
      have h1 : v • (M *ᵥ x + η • x) = hA.eigenvalues i • x := by
        rw [← he, smul_mulVec, add_mulVec, smul_mulVec, one_mulVec]
      have h2 : M *ᵥ x + η • x = (hA.eigenvalues i / v) • x := by
        have := congrArg (fun y => v⁻¹ • y) h1
        simp only [smul_smul, inv_mul_cancel₀ hv.ne', one_smul] at this
        rw [this]; congr 1; ring
      rw [sub_smul, ← h2]; simp
    have h1 := eig_nonneg hM hx0 hMx
    have h2 := eig_le_rowsum hm hx0 hMx
    rw [sub_nonneg, le_div_iff₀ hv] at h1
    have h2' : hA.eigenvalues i / v ≤ m + η := by linarith
    rw [div_le_iff₀ hv] at h2'
    constructor <;> linarith
  have hmη : 0 ≤ m := le_trans (Finset.sum_nonneg fun j _ => abs_nonneg _) (hm ⟨0, hn⟩)
  have hvη : 0 < v * η := by positivity
  have hsup : (⨆ i, |hA.eigenvalues i|) ≤ v * (m + η) := ciSup_le fun i => by
    rw [abs_of_nonneg (by linarith [(hb i).1])]; exact (hb i).2
  have hinf : v * η ≤ ⨅ i, |hA.eigenvalues i| := le_ciInf fun i => by
    rw [abs_of_nonneg (by linarith [(hb i).1])]; exact (hb i).1
  calc (⨆ i, |hA.eigenvalues i|) / (⨅ i, |hA.eigenvalues i|) ≤ (v * (m + η)) / (v * η) :=
        div_le_div₀ (by positivity) hsup hvη hinf
    _ = (m + η) / η := by field_simp

/-- With the nugget `m/(c-1)` the bound is `c`. -/
theorem cond2_le_target {M : Mat n n} (hn : 0 < n) (hM : M.PosSemidef) {m : ℝ} (hm0 : 0 < m) (hm : ∀ i, ∑ j, |M i j| ≤ m)
    {v c : ℝ} (hv : 0 < v) (hc : 1 < c) : cond2 (v • (M + (m / (c - 1)) • (1 : Mat n n))) ≤ c := by
  have hc' : 0 < c - 1 := by linarith
  refine (cond2_le hn hM hm hv (by positivity)).trans (le_of_eq ?_)
  field_simp
  ring

/-- Rayleigh quotients of a symmetric matrix are bounded by its absolute row sums. -/
theorem rayleigh_le {M : Mat n n} (hS : ∀ i j, M i j = M j i) {m : ℝ} (hm : ∀ i, ∑ j, |M i j| ≤ m) (x : Vec n) :
    x ⬝ᵥ M *ᵥ x ≤ m * (x ⬝ᵥ x) := by
  have e1 : x ⬝ᵥ M *ᵥ x = ∑ i, ∑ j, x i * M i j * x j := by
    simp only [dotProduct, mulVec, Finset.mul_sum, mul_assoc]
  have h1 : ∀ i j, x i * M i j * x j ≤ |M i j| * x i ^ 2 / 2 + |M j i| * x j ^ 2 / 2 := by
    intro i j
    rw [← hS i j]
    have hb : x i * M i j * x j ≤ |M i j| * |x i * x j| := by
      calc x i * M i j * x j = M i j * (x i * x j) := by ring
        _ ≤ |M i j * (x i * x j)| := le_abs_self _
        _ = _ := abs_mul _ _
    have hc : |x i * x j| ≤ (x i ^ 2 + x j ^ 2) / 2 := by
      rw [abs_le]; constructor <;> nlinarith [sq_nonneg (x i - x j), sq_nonneg (x i + x j)]
    have := mul_le_mul_of_nonneg_left hc (abs_nonneg (M i j))
    linarith
  rw [e1]
  have h2 : ∑ i, ∑ j, x i * M i j * x j ≤ ∑ i, ∑ j, (|M i j| * x i ^ 2 / 2 + |M j i| * x j ^ 2 / 2) :=
    Finset.sum_le_sum fun i _ => Finset.sum_le_sum fun j _ => h1 i j
  refine h2.trans ?_
  simp only [Finset.sum_add_distrib]
  rw [Finset.sum_comm (f := fun i j => |M j i| * x j ^ 2 / 2)]
  rw [← Finset.sum_add_distrib, dotProduct, Finset.mul_sum]
  refine Finset.sum_le_sum fun i _ => ?_
  rw [← Finset.sum_add_distrib]
  calc ∑ j, (|M i j| * x i ^ 2 / 2 + |M i j| * x i ^ 2 / 2) = (∑ j, |M i j|) * x i ^ 2 := by
        rw [Finset.sum_mul]; exact Finset.sum_congr rfl fun j _ => by ring
    _ ≤ m * x i ^ 2 := mul_le_mul_of_nonneg_right (hm i) (sq_nonneg _)
    _ = m * (x i * x i) := by ring

end GP
