import Verif.Spec.InexactFacSpec
import Verif.Proofs.Cholesky
import Verif.Proofs.LkdCore
import Verif.Proofs.Native
import Verif.Proofs.CondVal
import Mathlib.Analysis.Matrix.Spectrum

/-! Determinants and quadratic forms of nearby positive definite matrices. -/

open Np GP Spec Matrix

noncomputable section

namespace Props

variable {n b : ℕ}

theorem quad_near {M M' : Mat n n} {κ u : ℝ} (hM : IsCondNum false M κ) (h : NearMat u M M') (hu : 0 ≤ u) (x : Vec n) :
    |x ⬝ᵥ (M' - M) *ᵥ x| ≤ u * κ * (x ⬝ᵥ M *ᵥ x) := by
  unfold IsCondNum at hM
  simp only [Bool.false_eq_true, if_false] at hM
  obtain ⟨lo, hi, h1, h2, h3, rfl⟩ := hM
  have hx : 0 ≤ x ⬝ᵥ x := by simpa using dotProduct_star_self_nonneg x
  have hx0 : ∃ z : Vec n, z ≠ 0 := h1.1.imp fun _ h => h.1
  have hhi : lo ≤ hi := by
    obtain ⟨z, hz⟩ := hx0
    have hzz : 0 < z ⬝ᵥ z := by
      have := dotProduct_star_self_pos_iff.mpr hz
      simpa using this
    exact le_of_mul_le_mul_right ((h1.2 z).trans (h2.2 z)) hzz
  calc |x ⬝ᵥ (M' - M) *ᵥ x| ≤ u * hi * (x ⬝ᵥ x) := h.near hi h2 x
    _ = u * (hi / lo) * (lo * (x ⬝ᵥ x)) := by field_simp
    _ ≤ u * (hi / lo) * (x ⬝ᵥ M *ᵥ x) :=
      mul_le_mul_of_nonneg_left (h1.2 x) (mul_nonneg hu (div_nonneg (h3.le.trans hhi) h3.le))

theorem pd_of_quad {K K' : Mat n n} (hK : K.PosDef) (hs : K'.IsHermitian) {a : ℝ} (ha : 0 < a) (h : ∀ x, a * (x ⬝ᵥ K *ᵥ x) ≤ x ⬝ᵥ K' *ᵥ x) : K'.PosDef := by
  refine PosDef.of_dotProduct_mulVec_pos hs fun x hx => ?_
  have h1 := hK.dotProduct_mulVec_pos hx
  have h2 := h x
  rw [star_trivial] at h1 ⊢
  exact (mul_pos ha h1).trans_le h2

theorem det_sandwich {K K' : Mat n n} (hK : K.PosDef) (hs : K'.IsHermitian) {a c : ℝ} (ha : 0 ≤ a) (h1 : ∀ x, a * (x ⬝ᵥ K *ᵥ x) ≤ x ⬝ᵥ K' *ᵥ x)
    (h2 : ∀ x, x ⬝ᵥ K' *ᵥ x ≤ c * (x ⬝ᵥ K *ᵥ x)) : a ^ n * K.det ≤ K'.det ∧ K'.det ≤ c ^ n * K.det := by
  obtain ⟨L, hL⟩ := chol_exists hK
  have hd : 0 < L.det := hL.det_pos
  have hu : IsUnit L.det := hd.ne'.isUnit
  set S := L⁻¹ with hS
  have hSL : S * L = 1 := nonsing_inv_mul _ hu
  have hSK : S * K * Sᵀ = 1 := by
    rw [← hL.eq, ← Matrix.mul_assoc, hSL, Matrix.one_mul, ← transpose_mul, hSL, transpose_one]
  set C := S * K' * Sᵀ with hC
  have hCh : C.IsHermitian := by
    have := isHermitian_mul_mul_conjTranspose S hs
    rwa [conjTranspose_eq_transpose_of_trivial] at this
  have hq : ∀ (A : Mat n n) (x : Vec n), x ⬝ᵥ (S * A * Sᵀ) *ᵥ x = (Sᵀ *ᵥ x) ⬝ᵥ A *ᵥ (Sᵀ *ᵥ x) := by
    intro A x
    rw [← mulVec_mulVec, ← mulVec_mulVec, dotProduct_mulVec, ← mulVec_transpose]
  have hdC : C.det = S.det ^ 2 * K'.det := by rw [hC, det_mul, det_mul, det_transpose]; ring
  have hdK : S.det ^ 2 * K.det = 1 := by
    have := congrArg det hSK
    rw [det_mul, det_mul, det_transpose, det_one] at this
    linarith
  have hev : ∀ i, a ≤ hCh.eigenvalues i ∧ hCh.eigenvalues i ≤ c := by
    intro i
    set w : Vec n := (hCh.eigenvectorBasis i).ofLp with hw
    have hww : w ⬝ᵥ w = 1 := by
      have h := (hCh.eigenvectorBasis.orthonormal.1 i)
      have h' : ‖hCh.eigenvectorBasis i‖ ^ 2 = 1 := by rw [h]; norm_num
      rw [EuclideanSpace.norm_sq_eq] at h'
      simp only [Real.norm_eq_abs, sq_abs] at h'
      rw [← h']
      simp only [dotProduct, hw, sq]
    have he : C *ᵥ w = hCh.eigenvalues i • w := hCh.mulVec_eigenvectorBasis i
    have hval : w ⬝ᵥ C *ᵥ w = hCh.eigenvalues i := by rw [he, dotProduct_smul, hww, smul_eq_mul, mul_one]
    have hone : (Sᵀ *ᵥ w) ⬝ᵥ K *ᵥ (Sᵀ *ᵥ w) = 1 := by rw [← hq, hSK, one_mulVec, hww]
    have e1 := h1 (Sᵀ *ᵥ w)
    have e2 := h2 (Sᵀ *ᵥ w)
    rw [hone, mul_one, ← hq, ← hC, hval] at e1 e2
    exact ⟨e1, e2⟩
  have hprod : C.det = ∏ i, hCh.eigenvalues i := by
    have := hCh.det_eq_prod_eigenvalues
    simpa using this
  have l1 : a ^ n ≤ C.det := by
    rw [hprod]
    calc a ^ n = ∏ _i : Fin n, a := by simp
      _ ≤ _ := Finset.prod_le_prod (fun _ _ => ha) fun i _ => (hev i).1
  have l2 : C.det ≤ c ^ n := by
    rw [hprod]
    calc ∏ i, hCh.eigenvalues i ≤ ∏ _i : Fin n, c := Finset.prod_le_prod (fun i _ => ha.trans (hev i).1) fun i _ => (hev i).2
      _ = c ^ n := by simp
  have hKd := hK.det_pos
  have hCK : C.det * K.det = K'.det := by
    rw [hdC]
    calc S.det ^ 2 * K'.det * K.det = (S.det ^ 2 * K.det) * K'.det := by ring
      _ = _ := by rw [hdK, one_mul]
  rw [← hCK]
  exact ⟨mul_le_mul_of_nonneg_right l1 hKd.le, mul_le_mul_of_nonneg_right l2 hKd.le⟩

theorem maha_le_of_quad {K K' : Mat n n} (hK : K.PosDef) (hK' : K'.PosDef) {a : ℝ} (ha : 0 ≤ a) (h : ∀ x, x ⬝ᵥ K *ᵥ x ≤ a * (x ⬝ᵥ K' *ᵥ x)) (z : Vec n) :
    maha K' z ≤ a * maha K z := by
  have hdet : IsUnit K.det := hK.det_pos.ne'.isUnit
  have hdet' : IsUnit K'.det := hK'.det_pos.ne'.isUnit
  have hT : Kᵀ = K := by simpa [conjTranspose_eq_transpose_of_trivial] using hK.1.eq
  set x := K'⁻¹ *ᵥ z with hx
  have hz : K' *ᵥ x = z := by rw [hx, mulVec_mulVec, mul_nonsing_inv _ hdet', one_mulVec]
  have h1 : maha K' z = z ⬝ᵥ x := rfl
  have h2 : x ⬝ᵥ K' *ᵥ x = maha K' z := by rw [hz, dotProduct_comm, h1]
  have h3 := inv_cs hK z (K *ᵥ x)
  have e1 : K⁻¹ *ᵥ (K *ᵥ x) = x := by rw [mulVec_mulVec, nonsing_inv_mul _ hdet, one_mulVec]
  rw [e1, ← h1] at h3
  have e2 : (K *ᵥ x) ⬝ᵥ x = x ⬝ᵥ K *ᵥ x := dotProduct_comm _ _
  rw [e2] at h3
  have h4 := h x
  rw [h2] at h4
  have h5 := maha_nonneg hK z
  have h6 := maha_nonneg hK' z
  have h7 : maha K' z ^ 2 ≤ maha K z * (a * maha K' z) := h3.trans (mul_le_mul_of_nonneg_left h4 h5)
  by_cases h0 : maha K' z = 0
  · rw [h0]; exact mul_nonneg ha h5
  · have hp : 0 < maha K' z := lt_of_le_of_ne h6 (Ne.symm h0)
    nlinarith

theorem rss_le_of_quad {K K' : Mat n n} (hK : K.PosDef) (hK' : K'.PosDef) {a : ℝ} (ha : 0 ≤ a) (h : ∀ x, x ⬝ᵥ K *ᵥ x ≤ a * (x ⬝ᵥ K' *ᵥ x))
    {V : Mat n b} (hV : FullRank V) (y : Vec n) : rss K' V y ≤ a * rss K V y := by
  have h1 := maha_split hK' hV y (gls K V y)
  have h2 := maha_nonneg hK' (V *ᵥ (gls K' V y - gls K V y))
  have h3 := maha_le_of_quad hK hK' ha h (y - V *ᵥ gls K V y)
  have e1 : rss K' V y = maha K' (y - V *ᵥ gls K' V y) := rfl
  have e2 : rss K V y = maha K (y - V *ᵥ gls K V y) := rfl
  rw [e1, e2]
  linarith

end Props
