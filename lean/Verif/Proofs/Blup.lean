import Verif.Proofs.MoreData
import Verif.Proofs.LkdCore

/-! The best linear unbiased prediction with one unknown mean coefficient. -/

open Np GP Matrix

noncomputable section

variable {n : ℕ}

theorem inv_swap {M : Mat n n} (hM : M.PosDef) (a b : Vec n) : a ⬝ᵥ M⁻¹ *ᵥ b = b ⬝ᵥ M⁻¹ *ᵥ a := by
  have hT : (M⁻¹)ᵀ = M⁻¹ := by
    rw [transpose_nonsing_inv]
    have := hM.isHermitian.eq
    rw [conjTranspose_eq_transpose_of_trivial] at this
    rw [this]
  rw [dotProduct_comm, dotProduct_mulVec, ← mulVec_transpose, hT, dotProduct_comm, dotProduct_comm]

theorem mat_swap {M : Mat n n} (hM : M.PosDef) (a b : Vec n) : a ⬝ᵥ M *ᵥ b = b ⬝ᵥ M *ᵥ a := by
  have hT : Mᵀ = M := by
    have := hM.isHermitian.eq
    rwa [conjTranspose_eq_transpose_of_trivial] at this
  rw [dotProduct_mulVec, ← mulVec_transpose, hT, dotProduct_comm]

/-- The weights of the best linear unbiased prediction: data covariance `M`, covariances `k` with the predicted value, means `m`. -/
def blupW (M : Mat n n) (m k : Vec n) : Vec n := M⁻¹ *ᵥ k + ((1 - k ⬝ᵥ M⁻¹ *ᵥ m) / (m ⬝ᵥ M⁻¹ *ᵥ m)) • (M⁻¹ *ᵥ m)

theorem mul_inv_vec {M : Mat n n} (hM : M.PosDef) (k : Vec n) : M *ᵥ (M⁻¹ *ᵥ k) = k := by
  rw [mulVec_mulVec, mul_nonsing_inv _ hM.det_pos.ne'.isUnit, one_mulVec]

theorem inv_quad_pos {M : Mat n n} (hM : M.PosDef) {m : Vec n} (hm : m ≠ 0) : 0 < m ⬝ᵥ M⁻¹ *ᵥ m := by
  simpa using hM.inv.dotProduct_mulVec_pos hm

theorem blup_unbiased {M : Mat n n} (hM : M.PosDef) {m : Vec n} (hm : m ≠ 0) (k : Vec n) : blupW M m k ⬝ᵥ m = 1 := by
  have hq := inv_quad_pos hM hm
  unfold blupW
  rw [add_dotProduct, smul_dotProduct, smul_eq_mul, dotProduct_comm, inv_swap hM m k, dotProduct_comm (M⁻¹ *ᵥ m)]
  field_simp
  ring

theorem blup_mul {M : Mat n n} (hM : M.PosDef) (m k : Vec n) :
    M *ᵥ blupW M m k = k + ((1 - k ⬝ᵥ M⁻¹ *ᵥ m) / (m ⬝ᵥ M⁻¹ *ᵥ m)) • m := by
  unfold blupW
  rw [mulVec_add, mulVec_smul, mul_inv_vec hM, mul_inv_vec hM]

theorem blup_k {M : Mat n n} (hM : M.PosDef) (m k : Vec n) :
    blupW M m k ⬝ᵥ k = k ⬝ᵥ M⁻¹ *ᵥ k + (1 - k ⬝ᵥ M⁻¹ *ᵥ m) / (m ⬝ᵥ M⁻¹ *ᵥ m) * (k ⬝ᵥ M⁻¹ *ᵥ m) := by
  unfold blupW
  rw [add_dotProduct, smul_dotProduct, smul_eq_mul, dotProduct_comm _ k, dotProduct_comm _ k]

/-- The error of the best linear unbiased prediction. -/
theorem blup_mse {M : Mat n n} (hM : M.PosDef) {m : Vec n} (hm : m ≠ 0) (k : Vec n) :
    1 - (2 * (blupW M m k ⬝ᵥ k) - blupW M m k ⬝ᵥ M *ᵥ blupW M m k) =
      1 - k ⬝ᵥ M⁻¹ *ᵥ k + (1 - k ⬝ᵥ M⁻¹ *ᵥ m) ^ 2 * (m ⬝ᵥ M⁻¹ *ᵥ m)⁻¹ := by
  have hq := inv_quad_pos hM hm
  rw [blup_mul hM, dotProduct_add, dotProduct_smul, blup_unbiased hM hm, blup_k hM, smul_eq_mul]
  field_simp
  ring

/-- No other unbiased weights have a smaller error. -/
theorem blup_best {M : Mat n n} (hM : M.PosDef) {m : Vec n} (hm : m ≠ 0) (k w : Vec n) (hw : w ⬝ᵥ m = 1) :
    2 * (w ⬝ᵥ k) - w ⬝ᵥ M *ᵥ w ≤ 2 * (blupW M m k ⬝ᵥ k) - blupW M m k ⬝ᵥ M *ᵥ blupW M m k := by
  set b := blupW M m k with hb
  set lam := (1 - k ⬝ᵥ M⁻¹ *ᵥ m) / (m ⬝ᵥ M⁻¹ *ᵥ m) with hlam
  have hbm : b ⬝ᵥ m = 1 := blup_unbiased hM hm k
  have hMb : M *ᵥ b = k + lam • m := blup_mul hM m k
  have h0 : 0 ≤ (w - b) ⬝ᵥ M *ᵥ (w - b) := by simpa using hM.posSemidef.dotProduct_mulVec_nonneg (w - b)
  have e1 : w ⬝ᵥ M *ᵥ b = w ⬝ᵥ k + lam := by rw [hMb, dotProduct_add, dotProduct_smul, hw, smul_eq_mul, mul_one]
  have e2 : b ⬝ᵥ M *ᵥ b = b ⬝ᵥ k + lam := by rw [hMb, dotProduct_add, dotProduct_smul, hbm, smul_eq_mul, mul_one]
  have e3 : b ⬝ᵥ M *ᵥ w = w ⬝ᵥ k + lam := by rw [mat_swap hM, e1]
  rw [mulVec_sub, sub_dotProduct, dotProduct_sub, dotProduct_sub, e1, e2, e3] at h0
  rw [e2]
  linarith

/-- The prediction with the estimated mean coefficient uses these weights. -/
theorem blup_pred {M : Mat n n} (hM : M.PosDef) {m : Vec n} (_hm : m ≠ 0) (k y : Vec n) :
    let β := (m ⬝ᵥ M⁻¹ *ᵥ y) / (m ⬝ᵥ M⁻¹ *ᵥ m)
    β + k ⬝ᵥ M⁻¹ *ᵥ (y - β • m) = blupW M m k ⬝ᵥ y := by
  intro β
  unfold blupW
  rw [add_dotProduct, smul_dotProduct, smul_eq_mul, dotProduct_comm _ y, dotProduct_comm _ y, inv_swap hM y k, inv_swap hM y m, mulVec_sub, dotProduct_sub,
    mulVec_smul, dotProduct_smul, smul_eq_mul]
  simp only [β]
  ring

/-- The generalised least squares estimate with one column. -/
theorem gls_one {b : ℕ} (hb : b = 1) {M : Mat n n} (hM : M.PosDef) {m : Vec n} (hm : m ≠ 0) (V : Mat n b) (hV : ∀ i j, V i j = m i) (y : Vec n) (j : Fin b) :
    gls M V y j = (m ⬝ᵥ M⁻¹ *ᵥ y) / (m ⬝ᵥ M⁻¹ *ᵥ m) := by
  subst hb
  have e : Vᵀ * (M⁻¹ * V) = diagonal fun _ => m ⬝ᵥ M⁻¹ *ᵥ m := by
    ext i i'
    rw [Subsingleton.elim i' i, diagonal_apply_eq, mul_apply]
    refine Finset.sum_congr rfl fun l _ => ?_
    rw [transpose_apply, hV, mul_apply]
    exact congrArg _ (Finset.sum_congr rfl fun l' _ => by rw [hV])
  have e2 : ∀ i, (Vᵀ *ᵥ (M⁻¹ *ᵥ y)) i = m ⬝ᵥ M⁻¹ *ᵥ y := fun i => by
    simp only [mulVec, dotProduct, transpose_apply, hV]
  unfold gls
  rw [e]
  have e3 : (diagonal (fun _ : Fin 1 => m ⬝ᵥ M⁻¹ *ᵥ m))⁻¹ = diagonal fun _ => (m ⬝ᵥ M⁻¹ *ᵥ m)⁻¹ := by
    refine inv_eq_right_inv ?_
    rw [diagonal_mul_diagonal, ← diagonal_one]
    exact congrArg diagonal (funext fun _ => mul_inv_cancel₀ (inv_quad_pos hM hm).ne')
  rw [e3, mulVec_diagonal, e2, div_eq_inv_mul]
