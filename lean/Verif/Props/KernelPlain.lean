import Verif.Props.KernelDerivs
import Verif.Proofs.KernelPlain

/-! Property C97: the gradient-kernel classes without masks (`KernelSqExpGrad`, `KernelMatern5f2Grad`,
`KernelRatQuadGrad`). -/

open Np Spec GP

noncomputable section

namespace Props

theorem plainKernGrad_eq (k : KType) {R : Arr3} {theta : Arr1} (hθ : R.d ≤ theta.n) (hp : Option ℝ) :
    plainKernGrad k R theta hp = calcKernGrad k R theta hp none none := by
  cases k with
  | sqExp => exact sqExpPlainKernGrad_eq hθ
  | matern => exact maternPlainKernGrad_eq hθ
  | ratQuad =>
    cases hp with
    | none => rfl
    | some α => exact ratQuadPlainKernGrad_eq hθ α

theorem plainGradX_eq (k : KType) {R : Arr3} {theta : Arr1} (hθ : R.d ≤ theta.n) (hp : Option ℝ) :
    plainGradX k R theta hp = calcKernGradGradX k R theta hp none := by
  cases k with
  | sqExp => exact sqExpPlainGradX_eq hθ
  | matern => exact maternPlainGradX_eq R theta
  | ratQuad =>
    cases hp with
    | none => rfl
    | some α => exact ratQuadPlainGradX_eq hθ α

theorem plainGradTh_eq (k : KType) {R : Arr3} {theta : Arr1} (hθ : R.d ≤ theta.n) (hS : SelfR R) (hp : Option ℝ) :
    plainGradTh k R theta hp = calcKernGradGradTh k R theta hp none := by
  cases k with
  | sqExp => exact sqExpPlainGradTh_eq hθ hS
  | matern => exact maternPlainGradTh_eq hθ hS
  | ratQuad =>
    cases hp with
    | none => exact Eq.trans (b := .error .typeError) rfl (by rfl)
    | some α => exact (show _ = _ from (ratQuadPlainGradTh_eq α)).trans rfl

theorem plainGradAlpha_eq (k : KType) {R : Arr3} {theta : Arr1} (hθ : R.d ≤ theta.n) (hS : SelfR R) (hp : Option ℝ) :
    plainGradAlpha k R theta hp = calcKernGradGradAlpha k R theta hp none := by
  cases k with
  | sqExp => rfl
  | matern => rfl
  | ratQuad =>
    cases hp with
    | none => exact Eq.trans (b := .error .typeError) rfl (by rfl)
    | some α => exact (show _ = _ from (ratQuadPlainGradAlpha_eq hθ hS α)).trans rfl

/-- **C97.** For every two point sets the unmasked classes return exactly the arrays of the methods the
library uses, called without a mask. -/
theorem C97_same_arrays (k : KType) (X Y : Arr2) (hc : X.c = Y.c) (theta : Arr1) (hn : theta.n = X.c) (hp : Option ℝ) :
    ∃ R, calcRtensor X Y = .ok R ∧
      plainKernGrad k R theta hp = calcKernGrad k R theta hp none none ∧
      plainGradX k R theta hp = calcKernGradGradX k R theta hp none := by
  obtain ⟨R, hR, -⟩ := calcRtensor_ok hc
  have hI := (calcRtensor_isR hR).2
  have hθ : R.d ≤ theta.n := by rw [hI.d, hn]
  exact ⟨R, hR, plainKernGrad_eq k hθ hp, plainGradX_eq k hθ hp⟩

/-- **C97.** The same for the hyperparameter derivatives of a point set against itself. -/
theorem C97_same_derivatives (k : KType) (X : Arr2) (theta : Arr1) (hn : theta.n = X.c) (hp : Option ℝ) :
    ∃ R, calcRtensor X X = .ok R ∧
      plainGradTh k R theta hp = calcKernGradGradTh k R theta hp none ∧
      plainGradAlpha k R theta hp = calcKernGradGradAlpha k R theta hp none := by
  obtain ⟨R, hR, -⟩ := calcRtensor_ok (X := X) (Y := X) rfl
  have hI := (calcRtensor_isR hR).2
  have hθ : R.d ≤ theta.n := by rw [hI.d, hn]
  exact ⟨R, hR, plainGradTh_eq k hθ (calcRtensor_self hR) hp, plainGradAlpha_eq k hθ (calcRtensor_self hR) hp⟩

/-- **C97.** The unmasked `calc_KernGrad` is the joint covariance of values and gradients. -/
theorem C97_joint_covariance (k : KType) (X Y : Arr2) (hc : X.c = Y.c) (theta : Arr1) (hn : theta.n = X.c)
    (hθ : ∀ d < X.c, 0 ≤ theta.get d) (hp : Option ℝ) (hhp : HpOk k hp) :
    ∃ R A, calcRtensor X Y = .ok R ∧ plainKernGrad k R theta hp = .ok A ∧
      A.r = X.r * (X.c + 1) ∧ A.c = Y.r * (X.c + 1) ∧
      JointCov (kernOf k hp X.c theta) X.c X.r X.r Y.r Y.r X.get id Y.get id A.get := by
  obtain ⟨R, A, hR, hA, h1, h2, h3⟩ := kernGrad_jointCov k X Y hc theta hn hθ hp hhp none none
    (by simp [maskOk]) (by simp [maskOk]) (fun _ => .inl rfl)
  have hI := (calcRtensor_isR hR).2
  refine ⟨R, A, hR, ?_, h1.trans (shift1s _ _).symm, h2.trans (shift1s _ _).symm, h3⟩
  rw [plainKernGrad_eq k (by rw [hI.d, hn]) hp, hA]

/-- **C97.** The unmasked `calc_KernGrad_grad_th` is the entrywise derivative of the unmasked
`calc_KernGrad`. -/
theorem C97_theta_derivative (k : KType) (X : Arr2) (theta : Arr1) (hn : theta.n = X.c)
    (hθ : ∀ d < X.c, 0 < theta.get d) (hp : Option ℝ) (hhp : HpOk k hp) (hsep : k = .matern → Separated X X theta) :
    ∃ R G, calcRtensor X X = .ok R ∧ plainGradTh k R theta hp = .ok G ∧
      G.r = X.r * (X.c + 1) ∧ G.c = X.r * (X.c + 1) ∧
      IsThetaDeriv (fun th => plainKernGrad k R th hp) theta X.c G := by
  obtain ⟨R, G, hR, hG, h1, h2, h3, h4⟩ := C07_grad_theta_derivative_partial k X theta hn hθ hp hhp hsep
  have hI := (calcRtensor_isR hR).2
  refine ⟨R, G, hR, ?_, h1.trans (shift1s _ _).symm, h2.trans (shift1s _ _).symm, h3, fun d hd => ?_⟩
  · rw [plainGradTh_eq k (by rw [hI.d, hn]) (calcRtensor_self hR) hp, hG]
  · obtain ⟨A, a1, a2⟩ := h4 d hd
    exact ⟨A, fun t => (plainKernGrad_eq k (by rw [setTheta_n, hI.d, hn]) hp).trans (a1 t), a2⟩

/-- **C97.** The unmasked `calc_KernGrad_grad_alpha` of the rational quadratic kernel is the derivative of the
unmasked `calc_KernGrad` wrt the shape; the other two classes raise. -/
theorem C97_alpha_derivative (X : Arr2) (theta : Arr1) (hn : theta.n = X.c)
    (hθ : ∀ d < X.c, 0 ≤ theta.get d) (α : ℝ) (hα : 0 < α) :
    (∃ R G, calcRtensor X X = .ok R ∧ plainGradAlpha .ratQuad R theta (some α) = .ok G ∧
      G.r = X.r * (X.c + 1) ∧ G.c = X.r * (X.c + 1) ∧
      IsAlphaDeriv (fun a => plainKernGrad .ratQuad R theta (some a)) α G) ∧
    ∀ k, k ≠ .ratQuad → ∀ R hp, plainGradAlpha k R theta hp = .error .raised := by
  refine ⟨?_, fun k hk R hp => by cases k <;> first | rfl | exact absurd rfl hk⟩
  obtain ⟨R, G, hR, hG, h1, h2, h3⟩ := C09_grad_alpha_derivative X theta hn hθ α hα none (by simp [maskOk])
  have hI := (calcRtensor_isR hR).2
  refine ⟨R, G, hR, ?_, h1.trans (shift1s _ _).symm, h2.trans (shift1s _ _).symm, ?_⟩
  · rw [plainGradAlpha_eq _ (by rw [hI.d, hn]) (calcRtensor_self hR), hG]
  · have e : (fun a => plainKernGrad .ratQuad R theta (some a)) = fun a => calcKernGrad .ratQuad R theta (some a) none none :=
      funext fun a => plainKernGrad_eq _ (by rw [hI.d, hn]) _
    rw [e]; exact h3

/-- **C97.** The unmasked `calc_KernGrad_grad_x` holds the derivatives of the gradient rows wrt the first
point set. -/
theorem C97_grad_x (k : KType) (X Y : Arr2) (hc : X.c = Y.c) (theta : Arr1) (hn : theta.n = X.c)
    (hθ : ∀ d < X.c, 0 < theta.get d) (hp : Option ℝ) (hhp : HpOk k hp) (hsep : k = .matern → Separated X Y theta) :
    ∃ R H, calcRtensor X Y = .ok R ∧ plainGradX k R theta hp = .ok H ∧
      H.d = X.c ∧ H.r = X.r * X.c ∧ H.c = Y.r * (1 + X.c) ∧
      (∀ e < X.c, ∀ i < X.c, ∀ a < X.r, ∀ b < Y.r,
        IsCovDx (kernOf k hp X.c theta) (X.get a) e i (Y.get b) none (H.get e (i * X.r + a) b)) ∧
      (∀ e < X.c, ∀ i < X.c, ∀ a < X.r, ∀ j < X.c, ∀ b < Y.r,
        IsCovDx (kernOf k hp X.c theta) (X.get a) e i (Y.get b) (some j) (H.get e (i * X.r + a) ((j + 1) * Y.r + b))) := by
  obtain ⟨R, H, hR, hH, h1, h2, h3, h4, h5⟩ := C11_grad_x_partial k X Y hc theta hn hθ hp hhp hsep
  have hI := (calcRtensor_isR hR).2
  refine ⟨R, H, hR, ?_, h1, h2, h3.trans (shift1c _ _).symm, h4, ?_⟩
  · rw [plainGradX_eq k (by rw [hI.d, hn]) hp, hH]
  · intro e he i hi a ha j hj b hb
    rw [shift1]
    exact h5 e he i hi a ha j hj b hb

-- the hypotheses are met by two distinct points in the plane with distinct positive weights, for every kernel
example (k : KType) : exX.c = exX.c ∧ exTheta.n = exX.c ∧ (∀ d < exX.c, 0 < exTheta.get d) ∧ HpOk k (some 2)
    ∧ Separated exX exX exTheta :=
  ⟨rfl, rfl, exTheta_pos, fun _ => ⟨2, two_pos, rfl⟩, exX_separated⟩

end Props
