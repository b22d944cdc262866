import Verif.Spec.CondNumSpec
import Verif.Spec.CondSpec
import Verif.Proofs.EigDeriv
import Verif.Proofs.CovCore

/-! The values of `np.linalg.cond` are condition numbers in the sense of the specification, which do not change when the matrix is
multiplied by a positive number. -/

open Np Matrix Spec

noncomputable section

namespace GP

variable {n : ℕ}

theorem isCondNum_condNum {o : CondOpts} {A : Mat n n} (hn : 0 < n) (hA : A.PosDef) : IsCondNum o.fro A (condNum o A) := by
  unfold IsCondNum condNum
  cases o.fro with
  | true =>
    have hu : IsUnit A.det := (Matrix.isUnit_iff_isUnit_det A).mp hA.isUnit
    exact ⟨A⁻¹, Matrix.mul_nonsing_inv A hu, Matrix.nonsing_inv_mul A hu, rfl⟩
  | false =>
    have hh := hA.isHermitian
    obtain ⟨u, hu⟩ := ED.isTop_sup hh hn
    obtain ⟨w, hw⟩ := ED.isTop_inf hh hn
    have ne : ∀ {x : Vec n}, x ⬝ᵥ x = 1 → x ≠ 0 := fun h h0 => by rw [h0] at h; simp at h
    have hmin : IsMinEig A (⨅ i, hh.eigenvalues i) := by
      refine ⟨⟨w, ne hw.unit, ?_⟩, fun x => ?_⟩
      · have := hw.eig
        rw [neg_mulVec, neg_smul] at this
        exact neg_inj.mp this
      · have := hw.le x
        rw [neg_mulVec, dotProduct_neg] at this
        linarith
    have hpos : ∀ i, 0 < hh.eigenvalues i := hA.eigenvalues_pos
    refine ⟨_, _, hmin, ⟨⟨u, ne hu.unit, hu.eig⟩, hu.le⟩, ?_, ?_⟩
    · haveI : Nonempty (Fin n) := ⟨⟨0, hn⟩⟩
      obtain ⟨i, hi⟩ := exists_eq_ciInf_of_finite (f := hh.eigenvalues)
      rw [← hi]; exact hpos i
    · simp only [Bool.false_eq_true, if_false]
      unfold cond2
      rw [dif_pos hh]
      simp only [abs_of_pos (hpos _)]

theorem isCondNum_smul {fro : Bool} {A : Mat n n} {κ c : ℝ} (hc : 0 < c) (h : IsCondNum fro A κ) : IsCondNum fro (c • A) κ := by
  unfold IsCondNum at *
  cases fro with
  | true =>
    simp only [if_true] at *
    obtain ⟨B, h1, h2, h3⟩ := h
    refine ⟨c⁻¹ • B, ?_, ?_, ?_⟩
    · rw [smul_mul_smul_comm, mul_inv_cancel₀ hc.ne', one_smul, h1]
    · rw [smul_mul_smul_comm, inv_mul_cancel₀ hc.ne', one_smul, h2]
    · have e : ∀ (d : ℝ) (M : Mat n n), 0 < d → Real.sqrt (∑ i, ∑ j, (d • M) i j ^ 2) = d * Real.sqrt (∑ i, ∑ j, M i j ^ 2) := by
        intro d M hd
        have : ∑ i, ∑ j, (d • M) i j ^ 2 = d ^ 2 * ∑ i, ∑ j, M i j ^ 2 := by
          simp only [Finset.mul_sum, Matrix.smul_apply, smul_eq_mul, mul_pow]
        rw [this, Real.sqrt_mul (by positivity), Real.sqrt_sq hd.le]
      rw [e c A hc, e c⁻¹ B (inv_pos.mpr hc), h3]
      field_simp
  | false =>
    simp only [Bool.false_eq_true, if_false] at *
    obtain ⟨lo, hi, ⟨⟨x, hx, ex⟩, h2⟩, ⟨⟨y, hy, ey⟩, h4⟩, h5, h6⟩ := h
    refine ⟨c * lo, c * hi, ⟨⟨x, hx, ?_⟩, fun z => ?_⟩, ⟨⟨y, hy, ?_⟩, fun z => ?_⟩, by positivity, ?_⟩
    · rw [smul_mulVec, ex, smul_smul]
    · rw [smul_mulVec, dotProduct_smul, smul_eq_mul, mul_assoc]
      exact mul_le_mul_of_nonneg_left (h2 z) hc.le
    · rw [smul_mulVec, ey, smul_smul]
    · rw [smul_mulVec, dotProduct_smul, smul_eq_mul, mul_assoc]
      exact mul_le_mul_of_nonneg_left (h4 z) hc.le
    · rw [h6, mul_div_mul_left _ _ hc.ne']

theorem isCondNum_unique {fro : Bool} {A : Mat n n} {κ κ' : ℝ} (h : IsCondNum fro A κ) (h' : IsCondNum fro A κ') : κ = κ' := by
  unfold IsCondNum at *
  cases fro with
  | true =>
    simp only [if_true] at *
    obtain ⟨B, h1, h2, h3⟩ := h
    obtain ⟨B', h1', h2', h3'⟩ := h'
    have : B = B' := by
      calc B = B * (A * B') := by rw [h1', Matrix.mul_one]
        _ = B' := by rw [← Matrix.mul_assoc, h2, Matrix.one_mul]
    rw [h3, h3', this]
  | false =>
    simp only [Bool.false_eq_true, if_false] at *
    obtain ⟨lo, hi, ⟨⟨x, hx, ex⟩, h2⟩, ⟨⟨y, hy, ey⟩, h4⟩, h5, h6⟩ := h
    obtain ⟨lo', hi', ⟨⟨x', hx', ex'⟩, h2'⟩, ⟨⟨y', hy', ey'⟩, h4'⟩, h5', h6'⟩ := h'
    have pos : ∀ {z : Vec n}, z ≠ 0 → 0 < z ⬝ᵥ z := fun {z} hz => by
      simpa using (dotProduct_star_self_pos_iff (v := z)).mpr hz
    have l1 : lo' ≤ lo := by
      have := h2' x
      rw [ex, dotProduct_smul, smul_eq_mul] at this
      exact le_of_mul_le_mul_right this (pos hx)
    have l2 : lo ≤ lo' := by
      have := h2 x'
      rw [ex', dotProduct_smul, smul_eq_mul] at this
      exact le_of_mul_le_mul_right this (pos hx')
    have l3 : hi ≤ hi' := by
      have := h4' y
      rw [ey, dotProduct_smul, smul_eq_mul] at this
      exact le_of_mul_le_mul_right this (pos hy)
    have l4 : hi' ≤ hi := by
      have := h4 y'
      rw [ey', dotProduct_smul, smul_eq_mul] at this
      exact le_of_mul_le_mul_right this (pos hy')
    rw [h6, h6', le_antisymm l1 l2, le_antisymm l3 l4]

end GP
