import Verif.Model.LinAlg
import Mathlib.Analysis.Matrix.LDL
import Mathlib.Analysis.Matrix.PosDef
import Mathlib.LinearAlgebra.Matrix.Block
import Mathlib.LinearAlgebra.Matrix.Gershgorin
import Mathlib.Algebra.Order.Star.Real

/-! Exact Cholesky factorisation: exists exactly for positive definite matrices. -/

open Np Matrix

noncomputable section

namespace GP

variable {n : ℕ}

theorem conjT_eq (A : Mat n n) : Aᴴ = Aᵀ := by
  ext i j; simp [conjTranspose]

theorem IsChol.det_pos {A L : Mat n n} (h : IsChol A L) : 0 < L.det := by
  rw [Matrix.det_of_lowerTriangular L (by
    intro i j hij
    exact h.lower i j (by simpa using hij))]
  exact Finset.prod_pos fun i _ => h.diag i

theorem IsChol.posDef {A L : Mat n n} (h : IsChol A L) : A.PosDef := by
  rw [← h.eq, ← conjT_eq]
  apply PosDef.mul_conjTranspose_self
  rw [Matrix.vecMul_injective_iff_isUnit, Matrix.isUnit_iff_isUnit_det]
  exact h.det_pos.ne'.isUnit

theorem chol_exists {A : Mat n n} (hA : A.PosDef) : ∃ L, IsChol A L := by
  have h1 := LDL.lower_conj_diag hA
  set W := LDL.lower hA with hW
  have htri : W.BlockTriangular OrderDual.toDual := by
    rw [hW, LDL.lower]
    have : Invertible (LDL.lowerInv hA) := LDL.invertibleLowerInv hA
    apply Matrix.blockTriangular_inv_of_blockTriangular
    intro i j hij
    exact LDL.lowerInv_triangular hA (by simpa using hij)
  have hWl : ∀ i j, i < j → W i j = 0 := fun i j hij => htri (by simpa using hij)
  have hAdet : A.det ≠ 0 := hA.det_pos.ne'
  have hWdet : W.det ≠ 0 := by
    intro h0
    apply hAdet
    rw [← h1, det_mul, det_mul, h0]; simp
  have hWd : ∀ i, W i i ≠ 0 := by
    intro i hi
    apply hWdet
    rw [Matrix.det_of_lowerTriangular W htri]
    exact Finset.prod_eq_zero (Finset.mem_univ i) hi
  -- the diagonal of D is positive
  have hDp : (LDL.diag hA).PosDef := by
    rw [LDL.diag_eq_lowerInv_conj]
    apply hA.mul_mul_conjTranspose_same
    rw [Matrix.vecMul_injective_iff_isUnit]
    have : Invertible (LDL.lowerInv hA) := LDL.invertibleLowerInv hA
    exact isUnit_of_invertible _
  have hd : ∀ i, 0 < LDL.diagEntries hA i := by
    have := hDp
    unfold LDL.diag at this
    exact Matrix.posDef_diagonal_iff.mp this
  set d := LDL.diagEntries hA with hdd
  -- sign-corrected scaling
  let s : Fin n → ℝ := fun i => SignType.sign (W i i) * Real.sqrt (d i)
  have hs : ∀ i, s i * s i = d i := by
    intro i
    have h2 : (SignType.sign (W i i) : ℝ) * SignType.sign (W i i) = 1 := by
      rcases lt_or_gt_of_ne (hWd i) with h | h
      · rw [sign_neg h]; simp
      · rw [sign_pos h]; simp
    calc s i * s i = ((SignType.sign (W i i) : ℝ) * SignType.sign (W i i)) * (Real.sqrt (d i) * Real.sqrt (d i)) := by
          simp only [s]; ring
      _ = d i := by rw [h2, one_mul, Real.mul_self_sqrt (hd i).le]
  refine ⟨W * Matrix.diagonal s, ?_, ?_, ?_⟩
  · intro i j hij
    rw [Matrix.mul_diagonal, hWl i j hij, zero_mul]
  · intro i
    rw [Matrix.mul_diagonal]
    have : W i i * s i = |W i i| * Real.sqrt (d i) := by
      simp only [s]
      rw [← mul_assoc, self_mul_sign]
    rw [this]
    exact mul_pos (abs_pos.mpr (hWd i)) (Real.sqrt_pos.mpr (hd i))
  · rw [Matrix.transpose_mul, Matrix.diagonal_transpose, Matrix.mul_assoc, ← Matrix.mul_assoc (diagonal s),
      Matrix.diagonal_mul_diagonal]
    rw [show (fun i => s i * s i) = d from funext hs, ← Matrix.mul_assoc]
    rw [← conjT_eq]
    exact h1

theorem choFactor_some {A : Mat n n} {b : Bool} {F : ChoFac n} (h : choFactor A b = some F) :
    ∃ L, IsChol A L ∧ F.lower = b ∧ F.c = if b then L else Lᵀ := by
  unfold choFactor at h
  split at h
  · next hex =>
    obtain rfl := Option.some.inj h
    exact ⟨_, hex.choose_spec, rfl, rfl⟩
  · cases h

theorem choFactor_isSome_iff {A : Mat n n} {b : Bool} : (∃ F, choFactor A b = some F) ↔ A.PosDef := by
  constructor
  · rintro ⟨F, hF⟩
    obtain ⟨L, hL, -⟩ := choFactor_some hF
    exact hL.posDef
  · intro h
    have := chol_exists h
    unfold choFactor
    rw [dif_pos this]
    exact ⟨_, rfl⟩

theorem choFactor_mat {A : Mat n n} {b : Bool} {F : ChoFac n} (h : choFactor A b = some F) : F.mat = A := by
  obtain ⟨L, hL, h1, h2⟩ := choFactor_some h
  unfold ChoFac.mat
  rw [h1, h2]
  cases b
  · simp [hL.eq]
  · simp [hL.eq]

theorem choFactor_logDet {A : Mat n n} {b : Bool} {F : ChoFac n} (h : choFactor A b = some F) :
    choLogDet F = Real.log A.det := by
  obtain ⟨L, hL, h1, h2⟩ := choFactor_some h
  have hc : ∀ i, F.c i i = L i i := by
    intro i; rw [h2]; cases b <;> simp
  have hdet : A.det = (∏ i, L i i) ^ 2 := by
    rw [← hL.eq, det_mul, det_transpose, Matrix.det_of_lowerTriangular L (by
      intro i j hij; exact hL.lower i j (by simpa using hij))]
    ring
  unfold choLogDet
  rw [hdet, Real.log_pow, Real.log_prod (fun i _ => (hL.diag i).ne')]
  simp only [hc]
  norm_num

/-- The Cholesky factor is unique. -/
theorem IsChol.unique {A L M : Mat n n} (h1 : IsChol A L) (h2 : IsChol A M) : L = M := by
  -- entrywise induction on (column, row)
  have hLA : ∀ i j, A i j = ∑ k, L i k * L j k := by
    intro i j; rw [← h1.eq]; simp [Matrix.mul_apply]
  have hMA : ∀ i j, A i j = ∑ k, M i k * M j k := by
    intro i j; rw [← h2.eq]; simp [Matrix.mul_apply]
  have key : ∀ (k : ℕ) (hk : k < n), ∀ i, L i ⟨k, hk⟩ = M i ⟨k, hk⟩ := by
    intro k
    induction k using Nat.strong_induction_on with
    | _ k ih =>
      intro hk
      -- split the sum at column k
      have split : ∀ (W : Mat n n), (∀ i j, i < j → W i j = 0) → ∀ i, (∑ l, W i l * W ⟨k, hk⟩ l) =
          (∑ l ∈ Finset.univ.filter (fun l : Fin n => l.1 < k), W i l * W ⟨k, hk⟩ l) + W i ⟨k, hk⟩ * W ⟨k, hk⟩ ⟨k, hk⟩ := by
        intro W hW i
        rw [← Finset.sum_filter_add_sum_filter_not Finset.univ (fun l : Fin n => l.1 < k)]
        congr 1
        rw [Finset.sum_eq_single_of_mem ⟨k, hk⟩ (by simp)]
        intro l hl hne
        have : k < l.1 := by
          simp only [Finset.mem_filter, Finset.mem_univ, true_and, not_lt] at hl
          exact lt_of_le_of_ne hl (fun h => hne (Fin.ext h.symm))
        rw [hW ⟨k, hk⟩ l this, mul_zero]
      have eqs : ∀ i, (∑ l ∈ Finset.univ.filter (fun l : Fin n => l.1 < k), L i l * L ⟨k, hk⟩ l) =
          ∑ l ∈ Finset.univ.filter (fun l : Fin n => l.1 < k), M i l * M ⟨k, hk⟩ l := by
        intro i
        apply Finset.sum_congr rfl
        intro l hl
        simp only [Finset.mem_filter, Finset.mem_univ, true_and] at hl
        rw [ih l.1 hl l.2 i, ih l.1 hl l.2 ⟨k, hk⟩]
      have e : ∀ i, L i ⟨k, hk⟩ * L ⟨k, hk⟩ ⟨k, hk⟩ = M i ⟨k, hk⟩ * M ⟨k, hk⟩ ⟨k, hk⟩ := by
        intro i
        have a1 := hLA i ⟨k, hk⟩
        have a2 := hMA i ⟨k, hk⟩
        rw [split L h1.lower] at a1
        rw [split M h2.lower] at a2
        have a3 := eqs i
        linarith
      have ed : L ⟨k, hk⟩ ⟨k, hk⟩ = M ⟨k, hk⟩ ⟨k, hk⟩ := by
        have p1 := h1.diag ⟨k, hk⟩
        have p2 := h2.diag ⟨k, hk⟩
        have := e ⟨k, hk⟩
        nlinarith
      intro i
      have := e i
      rw [ed] at this
      exact mul_right_cancel₀ (h2.diag ⟨k, hk⟩).ne' this
  ext i j
  exact key j.1 j.2 i

end GP
