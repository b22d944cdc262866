import Verif.Proofs.PsdLink

/-! Properties C13, C14: positive semidefiniteness of the kernel matrices. -/

open Np Spec GP

noncomputable section

namespace Props

/-- **C13.** The gradient-free kernel matrix of any point set with itself is computed and positive semidefinite. -/
theorem C13_base_posSemidef (k : KType) (X : Arr2) (theta : Arr1) (hn : theta.n = X.c)
    (hθ : ∀ d < X.c, 0 ≤ theta.get d) (hp : Option ℝ) (hhp : HpOk k hp) :
    ∃ R A, calcRtensor X X = .ok R ∧ calcKernBase k R theta hp = .ok A ∧ A.r = X.r ∧ A.c = X.r ∧
      (toMat X.r X.r A).PosSemidef ∧
      ∀ c : ℕ → ℝ, 0 ≤ ∑ p ∈ Finset.range X.r, ∑ q ∈ Finset.range X.r, c p * c q * A.get p q := by
  obtain ⟨R, A, hR, hA, hr, hc, -⟩ := C05_base_entries k X X rfl theta hn hp hhp
  have h := kernBase_posSemidef k hR hn hθ hhp hA
  refine ⟨R, A, hR, hA, hr, hc, h, fun c => ?_⟩
  have := h.dotProduct_mulVec_nonneg (fun i : Fin X.r => c i)
  refine this.trans_eq ?_
  rw [Finset.sum_range fun p => ∑ q ∈ Finset.range X.r, c p * c q * A.get p q]
  simp only [dotProduct, Matrix.mulVec, Pi.star_apply, star_trivial, Finset.mul_sum, toMat, Matrix.of_apply]
  refine Finset.sum_congr rfl fun i _ => ?_
  rw [Finset.sum_range fun q => c i * c q * A.get i q]
  refine Finset.sum_congr rfl fun j _ => ?_
  ring

/-- **C14.** The gradient-enhanced kernel matrix of any point set with itself, with any mask, is computed and positive
semidefinite. -/
theorem C14_grad_posSemidef (k : KType) (X : Arr2) (theta : Arr1) (hn : theta.n = X.c)
    (hθ : ∀ d < X.c, 0 ≤ theta.get d) (hp : Option ℝ) (hhp : HpOk k hp) (m : Option (List Bool)) (hm : maskOk m X.r) :
    ∃ R A, calcRtensor X X = .ok R ∧ calcKernGrad k R theta hp m m = .ok A ∧
      A.r = X.r + gN m X.r * X.c ∧ A.c = A.r ∧ (toMat A.r A.r A).PosSemidef ∧
      ∀ c : ℕ → ℝ, 0 ≤ ∑ p ∈ Finset.range A.r, ∑ q ∈ Finset.range A.r, c p * c q * A.get p q := by
  obtain ⟨R, A, hR, hA, hr, hc, -⟩ := kernGrad_jointCov k X X rfl theta hn hθ hp hhp m m hm hm
    (fun _ => by cases m with
      | none => exact .inl rfl
      | some l => exact .inr (by simp))
  have h := kernGrad_posSemidef k hR hn hθ hhp hm hA
  rw [← hr] at h
  refine ⟨R, A, hR, hA, hr, by rw [hc, hr], h, fun c => ?_⟩
  have := h.dotProduct_mulVec_nonneg (fun i : Fin A.r => c i)
  refine this.trans_eq ?_
  rw [Finset.sum_range fun p => ∑ q ∈ Finset.range A.r, c p * c q * A.get p q]
  simp only [dotProduct, Matrix.mulVec, Pi.star_apply, star_trivial, Finset.mul_sum, toMat, Matrix.of_apply]
  refine Finset.sum_congr rfl fun i _ => ?_
  rw [Finset.sum_range fun q => c i * c q * A.get i q]
  refine Finset.sum_congr rfl fun j _ => ?_
  ring

-- two distinct points in the plane, gradient at the second one only
example : exTheta.n = exX.c ∧ (∀ d < exX.c, 0 ≤ exTheta.get d) ∧ HpOk .ratQuad (some 2) ∧
    maskOk (some [false, true]) exX.r ∧ exX.get 0 ≠ exX.get 1 :=
  ⟨rfl, fun d hd => (exTheta_pos d hd).le, fun _ => ⟨2, by norm_num, rfl⟩, (by intro l h; simp at h; subst h; rfl),
    fun h => by have := congrFun h 0; simp [exX] at this⟩

/-! The theorems applied to `exX`, `exTheta`. -/
example := C13_base_posSemidef .ratQuad exX exTheta rfl exTheta_nonneg (some 2) exAlpha_ok
example := C14_grad_posSemidef .ratQuad exX exTheta rfl exTheta_nonneg (some 2) exAlpha_ok (some [false, true]) exMask_ok

end Props
