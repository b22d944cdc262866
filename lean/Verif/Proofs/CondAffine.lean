import Verif.Proofs.CondGauss
import Mathlib.Tactic.FieldSimp

/-! Conditional normal distributions under changes of units. -/

open Np GP Matrix Spec

noncomputable section

namespace GP

variable {n : ℕ}

theorem diag_conj_entry (C : Mat n n) (w : Vec n) (i j : Fin n) : (diagonal w * C * diagonal w) i j = w i * C i j * w j := by
  rw [mul_diagonal, diagonal_mul]

/-- A change of units of every variable and a shift change the log density by the log of the Jacobian. -/
theorem gaussLog_affine {C : Mat n n} (hC : C.PosDef) {w : Vec n} (hw : ∀ i, 0 < w i) (b m y : Vec n) :
    gaussLog (diagonal w * C * diagonal w) (w * m + b) (w * y + b) = gaussLog C m y - ∑ i, Real.log (w i) := by
  have hdet : (diagonal w * C * diagonal w).det = (∏ i, w i) ^ 2 * C.det := by
    rw [det_mul, det_mul, det_diagonal]; ring
  have hp : 0 < ∏ i, w i := Finset.prod_pos fun i _ => hw i
  have hlog : Real.log ((∏ i, w i) ^ 2 * C.det) = 2 * ∑ i, Real.log (w i) + Real.log C.det := by
    rw [Real.log_mul (by positivity) hC.det_pos.ne', Real.log_pow, Real.log_prod (fun i _ => (hw i).ne')]
    push_cast; ring
  have hinv : (diagonal w * C * diagonal w)⁻¹ = diagonal w⁻¹ * C⁻¹ * diagonal w⁻¹ := by
    have hu : IsUnit C.det := hC.det_pos.ne'.isUnit
    refine inv_eq_right_inv ?_
    have h1 : diagonal w * diagonal w⁻¹ = (1 : Mat n n) := by
      rw [diagonal_mul_diagonal, ← diagonal_one]
      congr 1; funext i; exact mul_inv_cancel₀ (hw i).ne'
    have h2 : C * C⁻¹ = 1 := mul_nonsing_inv _ hu
    calc diagonal w * C * diagonal w * (diagonal w⁻¹ * C⁻¹ * diagonal w⁻¹)
        = diagonal w * C * (diagonal w * diagonal w⁻¹) * C⁻¹ * diagonal w⁻¹ := by simp only [Matrix.mul_assoc]
      _ = diagonal w * (C * C⁻¹) * diagonal w⁻¹ := by rw [h1, Matrix.mul_one]; simp only [Matrix.mul_assoc]
      _ = 1 := by rw [h2, Matrix.mul_one, h1]
  have hz : w * y + b - (w * m + b) = fun i => w i * (y - m) i := by
    funext i; simp only [Pi.sub_apply, Pi.add_apply, Pi.mul_apply]; ring
  have hmaha : maha (diagonal w * C * diagonal w) (w * y + b - (w * m + b)) = maha C (y - m) := by
    unfold maha
    rw [hinv, hz]
    have h3 : diagonal w⁻¹ *ᵥ (fun i => w i * (y - m) i) = y - m := by
      funext i; rw [mulVec_diagonal, Pi.inv_apply, ← mul_assoc, inv_mul_cancel₀ (hw i).ne', one_mul]
    rw [← mulVec_mulVec, h3, ← mulVec_mulVec]
    simp only [dotProduct, mulVec_diagonal, Pi.inv_apply]
    refine Finset.sum_congr rfl fun i _ => ?_
    have := (hw i).ne'
    field_simp
  unfold gaussLog
  rw [hmaha, hdet, hlog]
  ring

theorem normLog_affine {a s : ℝ} (ha : 0 < a) (hs : 0 < s) (b μ t : ℝ) :
    normLog (a * μ + b) (a ^ 2 * s) (a * t + b) = normLog μ s t - Real.log a := by
  unfold normLog
  rw [Real.log_mul (by positivity) hs.ne', Real.log_pow]
  have h : -(a * t + b - (a * μ + b)) ^ 2 / (2 * (a ^ 2 * s)) = -(t - μ) ^ 2 / (2 * s) := by
    have := ha.ne'; have := hs.ne'
    field_simp
    ring
  rw [h]
  push_cast
  ring

theorem border_units (C : Mat n n) (k : Vec n) (v : ℝ) (w : Vec n) (a : ℝ) :
    border (diagonal w * C * diagonal w) (fun i => w i * k i * a) (a ^ 2 * v) = diagonal (snocV w a) * border C k v * diagonal (snocV w a) := by
  ext i j
  rw [diag_conj_entry]
  refine Fin.lastCases ?_ (fun i => ?_) i <;> refine Fin.lastCases ?_ (fun j => ?_) j
  · simp; ring
  · simp; ring
  · simp
  · simp only [border_cc, snocV_c, diag_conj_entry]

/-- A conditional distribution in other units: every datum is multiplied by a positive factor and shifted, and so is the variable. -/
theorem condNormal_affine {C : Mat n n} {k : Vec n} {v : ℝ} {m : Vec n} {m0 : ℝ} {y : Vec n} {μ s : ℝ} (hC : C.PosDef)
    (h : CondNormal C k v m m0 y μ s) {w : Vec n} (hw : ∀ i, 0 < w i) {a : ℝ} (ha : 0 < a) (b : Vec n) (b0 : ℝ) :
    CondNormal (diagonal w * C * diagonal w) (fun i => w i * k i * a) (a ^ 2 * v) (w * m + b) (a * m0 + b0) (w * y + b) (a * μ + b0)
      (a ^ 2 * s) := by
  obtain ⟨hs, hB, hf⟩ := h
  have hwa : ∀ i, 0 < snocV w a i := fun i => by
    refine Fin.lastCases ?_ (fun i => ?_) i
    · rw [snocV_l]; exact ha
    · rw [snocV_c]; exact hw i
  refine ⟨by positivity, ?_, fun t => ?_⟩
  · rw [border_units]
    have hd : (diagonal (snocV w a) * border C k v * diagonal (snocV w a)) = (diagonal (snocV w a))ᴴ * border C k v * diagonal (snocV w a) := by
      rw [diagonal_conjTranspose]; congr 2
    rw [hd]
    refine hB.conjTranspose_mul_mul_same ?_
    intro x y hxy
    funext i
    have := congrFun hxy i
    simp only [mulVec_diagonal] at this
    exact mul_left_cancel₀ (hwa i).ne' this
  · have e1 : ∀ (u : Vec n) (r : ℝ), snocV (w * u + b) (a * r + b0) = snocV w a * snocV u r + snocV b b0 := by
      intro u r
      funext i
      refine Fin.lastCases ?_ (fun i => ?_) i <;> simp
    obtain ⟨t', rfl⟩ : ∃ t', t = a * t' + b0 := ⟨(t - b0) / a, by field_simp; ring⟩
    rw [border_units, e1, e1, gaussLog_affine hB hwa, hf t', gaussLog_affine hC hw, normLog_affine ha hs, Fin.sum_univ_castSucc]
    simp only [snocV_c, snocV_l]
    ring

end GP
