import Verif.Spec.CondGauss
import Verif.Proofs.LkdCore
import Mathlib.LinearAlgebra.Matrix.SchurComplement

/-! The conditional normal distribution in closed form. -/

open GP Matrix Spec

noncomputable section

namespace GP

variable {n : ℕ}

@[simp] theorem border_cc (C : Mat n n) (k : Vec n) (v : ℝ) (i j : Fin n) : border C k v i.castSucc j.castSucc = C i j := by
  simp [border]
@[simp] theorem border_cl (C : Mat n n) (k : Vec n) (v : ℝ) (i : Fin n) : border C k v i.castSucc (Fin.last n) = k i := by
  simp [border]
@[simp] theorem border_lc (C : Mat n n) (k : Vec n) (v : ℝ) (j : Fin n) : border C k v (Fin.last n) j.castSucc = k j := by
  simp [border]
@[simp] theorem border_ll (C : Mat n n) (k : Vec n) (v : ℝ) : border C k v (Fin.last n) (Fin.last n) = v := by
  simp [border]

@[simp] theorem snocV_c (m : Vec n) (t : ℝ) (i : Fin n) : snocV m t i.castSucc = m i := by simp [snocV]
@[simp] theorem snocV_l (m : Vec n) (t : ℝ) : snocV m t (Fin.last n) = t := by simp [snocV]

theorem border_mulVec (C : Mat n n) (k : Vec n) (v : ℝ) (u : Vec n) (s : ℝ) :
    border C k v *ᵥ snocV u s = snocV (C *ᵥ u + s • k) (k ⬝ᵥ u + v * s) := by
  funext i
  refine Fin.lastCases ?_ (fun i => ?_) i
  · simp only [mulVec, dotProduct, Fin.sum_univ_castSucc, snocV_c, snocV_l, border_lc, border_ll]
  · simp only [mulVec, dotProduct, Fin.sum_univ_castSucc, snocV_c, snocV_l, border_cc, border_cl, Pi.add_apply,
      Pi.smul_apply, smul_eq_mul]
    ring

theorem snocV_dot (u w : Vec n) (s t : ℝ) : snocV u s ⬝ᵥ snocV w t = u ⬝ᵥ w + s * t := by
  simp [dotProduct, Fin.sum_univ_castSucc]

theorem border_det {C : Mat n n} (hC : C.PosDef) (k : Vec n) (v : ℝ) :
    (border C k v).det = C.det * (v - k ⬝ᵥ C⁻¹ *ᵥ k) := by
  have hu : IsUnit C.det := (posDef_detne hC).isUnit
  letI : Invertible C := Matrix.invertibleOfIsUnitDet C hu
  have e : border C k v = (fromBlocks C (of fun i (_ : Fin 1) => k i) (of fun (_ : Fin 1) j => k j)
      (of fun (_ : Fin 1) (_ : Fin 1) => v)).submatrix (finSumFinEquiv (m := n) (n := 1)).symm (finSumFinEquiv (m := n) (n := 1)).symm := by
    have h1 : ∀ i : Fin n, (finSumFinEquiv (m := n) (n := 1)).symm i.castSucc = Sum.inl i := fun i =>
      finSumFinEquiv_symm_apply_castAdd i
    have h2 : (finSumFinEquiv (m := n) (n := 1)).symm (Fin.last n) = Sum.inr 0 := finSumFinEquiv_symm_last
    ext i j
    refine Fin.lastCases ?_ (fun i => ?_) i <;> refine Fin.lastCases ?_ (fun j => ?_) j <;>
      simp [h1, h2]
  rw [e, det_submatrix_equiv_self, det_fromBlocks₁₁, det_fin_one]
  congr 1
  simp only [Matrix.sub_apply, of_apply, invOf_eq_nonsing_inv]
  congr 1
  rw [Matrix.mul_assoc]
  simp only [mul_apply, of_apply, dotProduct, mulVec]

theorem border_sym {C : Mat n n} (hC : C.PosDef) (k : Vec n) (v : ℝ) : (border C k v).IsHermitian := by
  have hs : ∀ i j, C i j = C j i := fun i j => by
    have := hC.isHermitian.apply i j
    simpa using this.symm
  ext i j
  simp only [conjTranspose_apply, star_trivial]
  refine Fin.lastCases ?_ (fun i => ?_) i <;> refine Fin.lastCases ?_ (fun j => ?_) j <;> simp
  exact hs _ _

/-- Completing the square. -/
theorem border_quad {C : Mat n n} (hC : C.PosDef) (k : Vec n) (v : ℝ) (u : Vec n) (s : ℝ) :
    snocV u s ⬝ᵥ border C k v *ᵥ snocV u s =
      (u + s • (C⁻¹ *ᵥ k)) ⬝ᵥ C *ᵥ (u + s • (C⁻¹ *ᵥ k)) + (v - k ⬝ᵥ C⁻¹ *ᵥ k) * s ^ 2 := by
  have hu : IsUnit C.det := (posDef_detne hC).isUnit
  have hCk : C *ᵥ (C⁻¹ *ᵥ k) = k := by rw [mulVec_mulVec, mul_nonsing_inv _ hu, one_mulVec]
  have hsym : Cᵀ = C := by have := hC.isHermitian; rwa [IsHermitian, conjT_eq] at this
  have h1 : (C⁻¹ *ᵥ k) ⬝ᵥ C *ᵥ u = k ⬝ᵥ u := by
    rw [dotProduct_mulVec, ← mulVec_transpose, hsym, hCk]
  rw [border_mulVec, snocV_dot]
  rw [mulVec_add, mulVec_smul, hCk]
  simp only [dotProduct_add, add_dotProduct, smul_dotProduct, dotProduct_smul, smul_eq_mul]
  rw [h1, dotProduct_comm u k, dotProduct_comm (C⁻¹ *ᵥ k) k]
  ring

theorem border_posDef {C : Mat n n} (hC : C.PosDef) {k : Vec n} {v : ℝ} (hs : 0 < v - k ⬝ᵥ C⁻¹ *ᵥ k) :
    (border C k v).PosDef := by
  refine Matrix.PosDef.of_dotProduct_mulVec_pos (border_sym hC k v) fun x hx => ?_
  obtain ⟨u, s, rfl⟩ : ∃ u s, x = snocV u s := ⟨fun i => x i.castSucc, x (Fin.last n), by
    funext i; refine Fin.lastCases ?_ (fun i => ?_) i <;> simp⟩
  rw [star_trivial, border_quad hC]
  by_cases h0 : s = 0
  · subst h0
    have hu : u ≠ 0 := by
      rintro rfl
      exact hx (by funext i; refine Fin.lastCases ?_ (fun i => ?_) i <;> simp)
    have := hC.dotProduct_mulVec_pos hu
    simpa using this
  · have h1 := hC.posSemidef.dotProduct_mulVec_nonneg (u + s • (C⁻¹ *ᵥ k))
    rw [star_trivial] at h1
    have : 0 < (v - k ⬝ᵥ C⁻¹ *ᵥ k) * s ^ 2 := mul_pos hs (by positivity)
    linarith

/-- The conditional distribution has mean `m0 + kᵀC⁻¹(y-m)` and variance `v - kᵀC⁻¹k`. -/
theorem condNormal_of {C : Mat n n} (hC : C.PosDef) {k : Vec n} {v : ℝ} (hs : 0 < v - k ⬝ᵥ C⁻¹ *ᵥ k) (m : Vec n) (m0 : ℝ)
    (y : Vec n) : CondNormal C k v m m0 y (m0 + k ⬝ᵥ C⁻¹ *ᵥ (y - m)) (v - k ⬝ᵥ C⁻¹ *ᵥ k) := by
  set s := v - k ⬝ᵥ C⁻¹ *ᵥ k with hsdef
  have hB := border_posDef hC hs
  refine ⟨hs, hB, fun t => ?_⟩
  have hu : IsUnit C.det := (posDef_detne hC).isUnit
  have hdet : (border C k v).det = C.det * s := border_det hC k v
  have hsub : snocV y t - snocV m m0 = snocV (y - m) (t - m0) := by
    funext i; refine Fin.lastCases ?_ (fun i => ?_) i <;> simp
  -- solve the bordered system
  set r := y - m with hr
  set τ := (t - m0 - k ⬝ᵥ C⁻¹ *ᵥ r) / s with hτ
  have hsol : border C k v *ᵥ snocV (C⁻¹ *ᵥ r - τ • (C⁻¹ *ᵥ k)) τ = snocV r (t - m0) := by
    rw [border_mulVec]
    have h1 : C *ᵥ (C⁻¹ *ᵥ r - τ • (C⁻¹ *ᵥ k)) + τ • k = r := by
      rw [mulVec_sub, mulVec_smul, mulVec_mulVec, mulVec_mulVec, mul_nonsing_inv _ hu, one_mulVec, one_mulVec]
      abel
    have h2 : k ⬝ᵥ (C⁻¹ *ᵥ r - τ • (C⁻¹ *ᵥ k)) + v * τ = t - m0 := by
      rw [dotProduct_sub, dotProduct_smul, smul_eq_mul]
      have : τ * s = t - m0 - k ⬝ᵥ C⁻¹ *ᵥ r := by rw [hτ]; field_simp
      have e : v = s + k ⬝ᵥ C⁻¹ *ᵥ k := by rw [hsdef]; ring
      rw [e]; linarith
    rw [h1, h2]
  have hinv : (border C k v)⁻¹ *ᵥ snocV r (t - m0) = snocV (C⁻¹ *ᵥ r - τ • (C⁻¹ *ᵥ k)) τ := by
    rw [← hsol, mulVec_mulVec, nonsing_inv_mul _ (posDef_detne hB).isUnit, one_mulVec]
  have hmaha : maha (border C k v) (snocV r (t - m0)) = maha C r + (t - m0 - k ⬝ᵥ C⁻¹ *ᵥ r) ^ 2 / s := by
    unfold maha
    rw [hinv, snocV_dot, dotProduct_sub, dotProduct_smul, smul_eq_mul]
    have h3 : r ⬝ᵥ C⁻¹ *ᵥ k = k ⬝ᵥ C⁻¹ *ᵥ r := by rw [dot_inv_comm hC, dotProduct_comm]
    rw [h3, hτ]
    field_simp
    ring
  unfold gaussLog normLog
  rw [hsub, hmaha, hdet, Real.log_mul (posDef_detne hC) hs.ne']
  push_cast
  field_simp
  ring

end GP
