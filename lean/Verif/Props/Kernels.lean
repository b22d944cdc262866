import Verif.Spec.HpSpec
import Verif.Proofs.Joint
import Verif.Proofs.MaskSel

/-! Properties C01-C05, C12: the kernel matrices. -/

open Np Spec GP

noncomputable section

namespace Props

theorem hp_elim {k : KType} {hp : Option ℝ} (h : HpOk k hp) : ∃ α : ℝ, 0 < α ∧
    (∀ dim theta, kernOf k hp dim theta = kern k α dim theta.get) ∧
    (∀ R th, calcKernBase k R th hp = calcKernBase k R th (some α)) ∧
    (∀ R th m1 m2, calcKernGrad k R th hp m1 m2 = calcKernGrad k R th (some α) m1 m2) ∧
    (∀ R th, calcKernBaseGradTh k R th hp = calcKernBaseGradTh k R th (some α)) ∧
    (∀ R th m, calcKernGradGradTh k R th hp m = calcKernGradGradTh k R th (some α) m) ∧
    (∀ R th, calcKernBaseHessX k R th hp = calcKernBaseHessX k R th (some α)) ∧
    (∀ R th m, calcKernGradGradX k R th hp m = calcKernGradGradX k R th (some α) m) := by
  cases k with
  | sqExp => exact ⟨1, one_pos, fun _ _ => rfl, fun _ _ => rfl, fun _ _ _ _ => rfl, fun _ _ => rfl,
      fun _ _ _ => rfl, fun _ _ => rfl, fun _ _ _ => rfl⟩
  | matern => exact ⟨1, one_pos, fun _ _ => rfl, fun _ _ => rfl, fun _ _ _ _ => rfl, fun _ _ => rfl,
      fun _ _ _ => rfl, fun _ _ => rfl, fun _ _ _ => rfl⟩
  | ratQuad =>
    obtain ⟨α, hα, rfl⟩ := h rfl
    exact ⟨α, hα, fun _ _ => rfl, fun _ _ => rfl, fun _ _ _ _ => rfl, fun _ _ => rfl,
      fun _ _ _ => rfl, fun _ _ => rfl, fun _ _ _ => rfl⟩

/-- Two points in the plane; used in the non-vacuity examples. -/
def exX : Arr2 := ⟨2, 2, fun p d => if p = 0 then (if d = 0 then 0 else 1) else (if d = 0 then 2 else 5)⟩
/-- Weights 1 and 3. -/
def exTheta : Arr1 := ⟨2, fun d => if d = 0 then 1 else 3⟩

theorem exTheta_pos : ∀ d < exX.c, 0 < exTheta.get d := by
  intro d _; simp only [exTheta]; split_ifs <;> norm_num

/-- General form of C01-C04: with any admissible masks the kernel returns the joint covariance of the
values and the selected partial derivatives. The rational quadratic kernel called with a mask for the
first point set only is excluded (see `C04_ratQuad_mask1_only_broken`). -/
theorem kernGrad_jointCov (k : KType) (X Y : Arr2) (hc : X.c = Y.c) (theta : Arr1) (hn : theta.n = X.c)
    (hθ : ∀ d < X.c, 0 ≤ theta.get d) (hp : Option ℝ) (hhp : HpOk k hp)
    (m1 m2 : Option (List Bool)) (h1 : maskOk m1 X.r) (h2 : maskOk m2 Y.r)
    (hm : k = .ratQuad → m1 = none ∨ m2 ≠ none ∨ fullMask m1 X.r) :
    ∃ R A, calcRtensor X Y = .ok R ∧ calcKernGrad k R theta hp m1 m2 = .ok A ∧
      A.r = X.r + gN m1 X.r * X.c ∧ A.c = Y.r + gN m2 Y.r * X.c ∧
      JointCov (kernOf k hp X.c theta) X.c X.r (gN m1 X.r) Y.r (gN m2 Y.r) X.get (gSel m1) Y.get (gSel m2) A.get := by
  obtain ⟨α, hα, e1, -, e2, -⟩ := hp_elim hhp
  obtain ⟨R, hR, -⟩ := calcRtensor_ok hc
  have hIR := (calcRtensor_isR hR).2
  obtain ⟨A, hA, hrep⟩ := calcKernGrad_ok k (α := α) (R := R) (theta := theta) (m1 := m1) (m2 := m2)
    (by rw [hIR.d, hn]) (by rw [hIR.r]; exact h1) (by rw [hIR.c]; exact h2) (by rw [hIR.r]; exact hm)
  refine ⟨R, A, hR, by rw [e2]; exact hA, ?_, ?_, ?_⟩
  · rw [hrep.r, hIR.r, hIR.d]
  · rw [hrep.c, hIR.c, hIR.d]
  · rw [e1]; exact rep_jointCov hα hIR hc hθ h1 h2 hrep

/-- **C01.** The gradient-enhanced squared-exponential matrix without masks is the joint covariance of all
values and all partial derivatives. -/
theorem C01_sqExp_joint_covariance (X Y : Arr2) (hc : X.c = Y.c) (theta : Arr1) (hn : theta.n = X.c)
    (hθ : ∀ d < X.c, 0 ≤ theta.get d) (hp : Option ℝ) :
    ∃ R A, calcRtensor X Y = .ok R ∧ calcKernGrad .sqExp R theta hp none none = .ok A ∧
      A.r = X.r + X.r * X.c ∧ A.c = Y.r + Y.r * X.c ∧
      JointCov (kSqExp X.c theta.get) X.c X.r X.r Y.r Y.r X.get id Y.get id A.get :=
  kernGrad_jointCov .sqExp X Y hc theta hn hθ hp (by intro h; cases h) none none (by simp [maskOk]) (by simp [maskOk])
    (by intro h; cases h)

/-- **C02.** The same for the Matérn 5/2 kernel, coincident points included. -/
theorem C02_matern_joint_covariance (X Y : Arr2) (hc : X.c = Y.c) (theta : Arr1) (hn : theta.n = X.c)
    (hθ : ∀ d < X.c, 0 ≤ theta.get d) (hp : Option ℝ) :
    ∃ R A, calcRtensor X Y = .ok R ∧ calcKernGrad .matern R theta hp none none = .ok A ∧
      A.r = X.r + X.r * X.c ∧ A.c = Y.r + Y.r * X.c ∧
      JointCov (kMatern X.c theta.get) X.c X.r X.r Y.r Y.r X.get id Y.get id A.get :=
  kernGrad_jointCov .matern X Y hc theta hn hθ hp (by intro h; cases h) none none (by simp [maskOk]) (by simp [maskOk])
    (by intro h; cases h)

/-- **C03.** The same for the rational quadratic kernel with any shape `α > 0`. -/
theorem C03_ratQuad_joint_covariance (X Y : Arr2) (hc : X.c = Y.c) (theta : Arr1) (hn : theta.n = X.c)
    (hθ : ∀ d < X.c, 0 ≤ theta.get d) (α : ℝ) (hα : 0 < α) :
    ∃ R A, calcRtensor X Y = .ok R ∧ calcKernGrad .ratQuad R theta (some α) none none = .ok A ∧
      A.r = X.r + X.r * X.c ∧ A.c = Y.r + Y.r * X.c ∧
      JointCov (kRatQuad α X.c theta.get) X.c X.r X.r Y.r Y.r X.get id Y.get id A.get :=
  kernGrad_jointCov .ratQuad X Y hc theta hn hθ (some α) (fun _ => ⟨α, hα, rfl⟩) none none
    (by simp [maskOk]) (by simp [maskOk]) (fun _ => .inl rfl)

-- the hypotheses of C01-C03 are met by two distinct points in the plane with distinct positive weights
example : exX.c = exX.c ∧ exTheta.n = exX.c ∧ (∀ d < exX.c, 0 ≤ exTheta.get d) ∧ (0 : ℝ) < 2 ∧
    exX.get 0 ≠ exX.get 1 :=
  ⟨rfl, rfl, fun d hd => (exTheta_pos d hd).le, by norm_num, fun h => by
    have := congrFun h 0; simp [exX] at this⟩

/-- `B` restricted to the rows kept by `l1` and the columns kept by `l2`, as numpy's
`B[l1, :][:, l2]` does it. -/
def subMat (B : Arr2) (l1 l2 : List Bool) : Py Arr2 := do
  let C ← B.maskRows l1
  C.maskCols l2

/-- Two arrays agree: same shape and same entries inside of the shape. -/
def SameArr (A B : Arr2) : Prop := A.r = B.r ∧ A.c = B.c ∧ ∀ p < A.r, ∀ q < A.c, A.get p q = B.get p q

/-- **C04.** A masked kernel matrix is the unmasked one restricted to all value rows and, in every gradient
block, the rows of the selected points (likewise columns), in unchanged order. Partial: the rational
quadratic kernel with a mask for the first point set only that leaves out a point is excluded, there the code is wrong
(`C04_ratQuad_mask1_only_broken`). -/
theorem C04_mask_selects_partial (k : KType) (X Y : Arr2) (hc : X.c = Y.c) (theta : Arr1) (hn : theta.n = X.c)
    (hθ : ∀ d < X.c, 0 ≤ theta.get d) (hp : Option ℝ) (hhp : HpOk k hp)
    (m1 m2 : Option (List Bool)) (h1 : maskOk m1 X.r) (h2 : maskOk m2 Y.r)
    (hm : k = .ratQuad → m1 = none ∨ m2 ≠ none ∨ fullMask m1 X.r) :
    ∃ R A B C, calcRtensor X Y = .ok R ∧ calcKernGrad k R theta hp m1 m2 = .ok A ∧
      calcKernGrad k R theta hp none none = .ok B ∧
      subMat B (keepRows X.r X.c m1) (keepRows Y.r X.c m2) = .ok C ∧ SameArr A C := by
  obtain ⟨R, A, hR, hA, hAr, hAc, hAj⟩ := kernGrad_jointCov k X Y hc theta hn hθ hp hhp m1 m2 h1 h2 hm
  obtain ⟨R', B, hR', hB, hBr, hBc, hBj⟩ := kernGrad_jointCov k X Y hc theta hn hθ hp hhp none none
    (by simp [maskOk]) (by simp [maskOk]) (fun _ => .inl rfl)
  rw [hR] at hR'
  obtain rfl : R = R' := by simpa using hR'
  have hB1 : (keepRows X.r X.c m1).length = B.r := by rw [keep_len h1, hBr]; rfl
  have hB2 : (keepRows Y.r X.c m2).length = B.c := by rw [keep_len h2, hBc]; rfl
  refine ⟨R, A, B, _, hR, hA, hB, by unfold subMat; rw [Arr2.maskRows_ok hB1]; simp only [ok_bind]; exact Arr2.maskCols_ok hB2, ?_⟩
  refine ⟨by rw [hAr]; exact keep_nTrue.symm, by rw [hAc]; exact keep_nTrue.symm, ?_⟩
  intro p hp' q hq'
  rw [hAr] at hp'
  rw [hAc] at hq'
  simp only
  have g1 : ∀ a < gN m1 X.r, gSel m1 a < X.r := fun a ha => gSel_lt h1 ha
  have g2 : ∀ a < gN m2 Y.r, gSel m2 a < Y.r := fun a ha => gSel_lt h2 ha
  rcases row_cases hp' with h | ⟨i, a, hi, ha, rfl⟩ <;> rcases row_cases hq' with h' | ⟨j, b, hj, hb, rfl⟩
  · rw [keep_sel_v h, keep_sel_v h', hAj.val_val p h q h', hBj.val_val p h q h']
  · rw [keep_sel_v h, keep_sel_g h2 hj hb]
    exact (hAj.val_der p h j hj b hb).unique (hBj.val_der p h j hj (gSel m2 b) (g2 b hb))
  · rw [keep_sel_v h', keep_sel_g h1 hi ha]
    exact (hAj.der_val i hi a ha q h').unique (hBj.der_val i hi (gSel m1 a) (g1 a ha) q h')
  · rw [keep_sel_g h1 hi ha, keep_sel_g h2 hj hb]
    exact (hAj.der_der i hi a ha j hj b hb).unique
      (hBj.der_der i hi (gSel m1 a) (g1 a ha) j hj (gSel m2 b) (g2 b hb))

-- a mask that selects one of the two points
example : maskOk (some [false, true]) exX.r ∧ gN (some [false, true]) exX.r = 1 := by
  refine ⟨?_, rfl⟩
  intro l h; simp at h; subst h; rfl

/-- **C05.** Gradient-free kernel matrices have the documented entries. -/
theorem C05_base_entries (k : KType) (X Y : Arr2) (hc : X.c = Y.c) (theta : Arr1) (hn : theta.n = X.c)
    (hp : Option ℝ) (hhp : HpOk k hp) :
    ∃ R A, calcRtensor X Y = .ok R ∧ calcKernBase k R theta hp = .ok A ∧ A.r = X.r ∧ A.c = Y.r ∧
      ∀ p < X.r, ∀ q < Y.r, A.get p q = kernOf k hp X.c theta (X.get p) (Y.get q) := by
  obtain ⟨α, hα, e1, e2, -⟩ := hp_elim hhp
  obtain ⟨R, hR, -⟩ := calcRtensor_ok hc
  have hIR := (calcRtensor_isR hR).2
  refine ⟨R, _, hR, by rw [e2]; exact calcKernBase_ok k (by rw [hIR.d, hn]), hIR.r, hIR.c, ?_⟩
  intro p hp' q hq
  rw [e1, kern_eq]
  simp only [radial, wdist2_eq, hIR.d]
  congr 1
  apply ssq_congr
  intro d hd
  exact hIR.get d hd p hp' q hq

/-- Each profile is 1 at zero and in (0,1] on the nonnegative reals. -/
theorem prφ_zero (k : KType) (α : ℝ) : prφ k α 0 = 1 := by
  cases k
  · simp [prφ, seφ]
  · simp [prφ, maφ]
  · simp [prφ, rqφ]

theorem prφ_pos (k : KType) {α : ℝ} (hα : 0 < α) {s : ℝ} (hs : 0 ≤ s) : 0 < prφ k α s := by
  cases k
  · exact Real.exp_pos _
  · simp only [prφ, maφ]; positivity
  · exact Real.rpow_pos_of_pos (rq_base_pos hα hs) _

theorem prφ_le_one (k : KType) {α : ℝ} (hα : 0 < α) {s : ℝ} (hs : 0 ≤ s) : prφ k α s ≤ 1 := by
  cases k
  · simp only [prφ, seφ]; rw [Real.exp_le_one_iff]; linarith
  · simp only [prφ, maφ]
    set u := Real.sqrt 5 * Real.sqrt s with hu
    have hu0 : 0 ≤ u := by positivity
    have h1 : (1 + Real.sqrt 5 * Real.sqrt s + 5 / 3 * Real.sqrt s ^ 2) = 1 + u + u ^ 2 / 3 := by
      rw [hu, mul_pow, five_sq]; ring
    rw [h1, show -Real.sqrt 5 * Real.sqrt s = -u by rw [hu]; ring, Real.exp_neg]
    rw [← div_eq_mul_inv, div_le_one (Real.exp_pos _)]
    have := Real.quadratic_le_exp_of_nonneg hu0
    nlinarith [sq_nonneg u]
  · simp only [prφ, rqφ]
    apply Real.rpow_le_one_of_one_le_of_nonpos
    · have : 0 ≤ s / α := by positivity
      linarith
    · linarith

/-- **C05.** Every entry is a correlation: in (0,1], 1 for coincident points, and the matrix of a set with
itself is symmetric. -/
theorem C05_base_correlation (k : KType) (X : Arr2) (theta : Arr1) (hn : theta.n = X.c)
    (hθ : ∀ d < X.c, 0 ≤ theta.get d) (hp : Option ℝ) (hhp : HpOk k hp) :
    ∃ R A, calcRtensor X X = .ok R ∧ calcKernBase k R theta hp = .ok A ∧
      (∀ p < X.r, ∀ q < X.r, 0 < A.get p q ∧ A.get p q ≤ 1 ∧ A.get p q = A.get q p) ∧
      (∀ p < X.r, ∀ q < X.r, (∀ d < X.c, X.get p d = X.get q d) → A.get p q = 1) := by
  obtain ⟨R, A, hR, hA, -, -, hg⟩ := C05_base_entries k X X rfl theta hn hp hhp
  obtain ⟨α, hα, e1, -⟩ := hp_elim hhp
  refine ⟨R, A, hR, hA, ?_, ?_⟩
  · intro p hp' q hq
    rw [hg p hp' q hq, hg q hq p hp', e1, kern_eq]
    simp only [radial]
    have := wdist2_nonneg hθ (X.get p) (X.get q)
    exact ⟨prφ_pos k hα this, prφ_le_one k hα this, by rw [wdist2_comm]⟩
  · intro p hp' q hq h
    rw [hg p hp' q hq, e1, kern_eq]
    simp only [radial]
    rw [wdist2_eq, ssq_congr (r' := fun _ => 0) (fun d hd => by rw [h d hd]; ring)]
    simp only [ssq, ne_eq, OfNat.ofNat_ne_zero, not_false_eq_true, zero_pow, mul_zero, Finset.sum_const_zero]
    exact prφ_zero k α

/-- **C12.** A gradient-enhanced matrix of a set with itself is symmetric, with ones on the value diagonal
and `theta2gamma(theta_i)^2` on the diagonal of gradient block `i`. -/
theorem C12_symmetric_with_gamma_diagonal (k : KType) (X : Arr2) (theta : Arr1) (hn : theta.n = X.c)
    (hθ : ∀ d < X.c, 0 ≤ theta.get d) (hp : Option ℝ) (hhp : HpOk k hp) (m : Option (List Bool)) (hm : maskOk m X.r) :
    ∃ R A, calcRtensor X X = .ok R ∧ calcKernGrad k R theta hp m m = .ok A ∧
      (∀ p < A.r, ∀ q < A.r, A.get p q = A.get q p) ∧
      (∀ p < X.r, A.get p p = 1) ∧
      (∀ i < X.c, ∀ a < gN m X.r, A.get (X.r + i * gN m X.r + a) (X.r + i * gN m X.r + a)
        = theta2gamma k (theta.get i) ^ 2) := by
  obtain ⟨α, hα, e1, -, e2, -⟩ := hp_elim hhp
  obtain ⟨R, hR, -⟩ := calcRtensor_ok (X := X) (Y := X) rfl
  have hIR := (calcRtensor_isR hR).2
  have hS := calcRtensor_self hR
  obtain ⟨A, hA, hrep⟩ := calcKernGrad_ok k (α := α) (R := R) (theta := theta) (m1 := m) (m2 := m)
    (by rw [hIR.d, hn]) (by rw [hIR.r]; exact hm) (by rw [hIR.c]; exact hm)
    (fun _ => by cases m with
      | none => exact .inl rfl
      | some l => exact .inr (by simp))
  rw [← hS.1] at hrep
  have z0 : ∀ p, ssq R.d theta.get (diffAt R p p) = 0 := by
    intro p
    unfold ssq diffAt
    apply Finset.sum_eq_zero
    intro d _
    have := hS.2 d p p
    have : R.get d p p = 0 := by linarith
    rw [this]; ring
  refine ⟨R, A, hR, by rw [e2]; exact hA, ?_, ?_, ?_⟩
  · intro p hp' q hq
    rw [hrep.r] at hp' hq
    obtain ⟨x, hx, rfl⟩ := Ix.pos_surj hp'
    obtain ⟨y, hy, rfl⟩ := Ix.pos_surj hq
    rw [hrep.get x y hx hy, hrep.get y x hy hx]
    unfold kgF
    have hs := hS.ssq R.d theta.get (x.pt m) (y.pt m)
    have hd : ∀ d, diffAt R (x.pt m) (y.pt m) d = - diffAt R (y.pt m) (x.pt m) d := fun d => hS.2 d _ _
    match x.coord, y.coord with
    | none, none => simp only [radKG, hs]
    | some i, none => simp only [radKG, hs, hd]; ring
    | none, some j => simp only [radKG, hs, hd]; ring
    | some i, some j =>
      simp only [radKG, hs, hd]
      by_cases hij : i = j
      · subst hij; ring
      · rw [kron_ne hij, kron_ne (Ne.symm hij)]; ring
  · intro p hp'
    have := hrep.get (.v p) (.v p) (by rw [hIR.r]; exact hp') (by rw [hIR.r]; exact hp')
    simp only [Ix.pos_v, kgF, Ix.pt_v, Ix.coord_v, radKG, z0] at this
    rw [this]; exact prφ_zero k α
  · intro i hi a ha
    have := hrep.get (.g i a) (.g i a) (by rw [hIR.r, hIR.d]; exact ⟨hi, ha⟩) (by rw [hIR.r, hIR.d]; exact ⟨hi, ha⟩)
    simp only [Ix.pos_g, kgF, Ix.pt_g, Ix.coord_g, radKG, z0, kron_self] at this
    rw [hIR.r] at this
    rw [this]
    have hz : diffAt R (gSel m a) (gSel m a) i = 0 := by
      have := hS.2 i (gSel m a) (gSel m a)
      simp only [diffAt]; linarith
    rw [hz]
    have hti := hθ i hi
    cases k
    · simp only [prφ1, seφ1, theta2gamma, sqExpTheta2gamma]
      rw [Real.sq_sqrt (by linarith)]; simp
    · simp only [prφ1, maφ1, theta2gamma, maternTheta2gamma]
      rw [Real.sq_sqrt (by linarith)]; simp; ring
    · simp only [prφ1, rqφ1, theta2gamma, ratQuadTheta2gamma]
      rw [Real.sq_sqrt (by linarith)]; simp

example : HpOk .ratQuad (some 2) ∧ HpOk .sqExp none ∧ HpOk .matern none :=
  ⟨fun _ => ⟨2, by norm_num, rfl⟩, (fun h => by cases h), (fun h => by cases h)⟩

theorem exTheta_nonneg : ∀ d < exX.c, 0 ≤ exTheta.get d := fun d hd => (exTheta_pos d hd).le
theorem exMask_ok : maskOk (some [false, true]) exX.r := by intro l h; simp at h; subst h; rfl
theorem exAlpha_ok : HpOk .ratQuad (some 2) := fun _ => ⟨2, by norm_num, rfl⟩

/-! The theorems of this file applied to the two points `exX` of the plane with the weights `exTheta`, the mask that
selects the second point and the shape parameter 2. -/
example := C01_sqExp_joint_covariance exX exX rfl exTheta rfl exTheta_nonneg none
example := C02_matern_joint_covariance exX exX rfl exTheta rfl exTheta_nonneg none
example := C03_ratQuad_joint_covariance exX exX rfl exTheta rfl exTheta_nonneg 2 two_pos
example := C04_mask_selects_partial .matern exX exX rfl exTheta rfl exTheta_nonneg none (by intro h; cases h)
  (some [false, true]) none exMask_ok (by simp [maskOk]) (by intro h; cases h)
example := C04_mask_selects_partial .ratQuad exX exX rfl exTheta rfl exTheta_nonneg (some 2) exAlpha_ok
  none (some [false, true]) (by simp [maskOk]) exMask_ok (fun _ => .inl rfl)
example := C05_base_entries .ratQuad exX exX rfl exTheta rfl (some 2) exAlpha_ok
example := C05_base_correlation .ratQuad exX exTheta rfl exTheta_nonneg (some 2) exAlpha_ok
example := C12_symmetric_with_gamma_diagonal .ratQuad exX exTheta rfl exTheta_nonneg (some 2) exAlpha_ok (some [false, true]) exMask_ok

end Props
