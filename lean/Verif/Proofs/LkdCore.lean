import Verif.Model.Lkd
import Verif.Spec.LkdSpec
import Verif.Proofs.MatDeriv
import Verif.Proofs.Cholesky

/-! Generalised least squares and the derivative of the profile likelihood. -/

open Np Spec Matrix MD GP

noncomputable section

namespace GP

variable {n b m : ℕ}

theorem facOf_choFactor {K : Mat n n} {lower : Bool} {F : ChoFac n} (h : choFactor K lower = some F) : FacOf F K :=
  ⟨choFactor_mat h, choFactor_isSome_iff.mp ⟨F, h⟩, choFactor_logDet h⟩

/-- The symmetric inverse. -/
theorem inv_sym {K : Mat n n} (hK : K.PosDef) : (K⁻¹)ᵀ = K⁻¹ := by
  have := hK.inv.isHermitian
  rw [← conjT_eq]; exact this

theorem posDef_detne {K : Mat n n} (hK : K.PosDef) : K.det ≠ 0 := hK.det_pos.ne'

/-- `VᵀK⁻¹V` is positive definite. -/
theorem gram_posDef {K : Mat n n} (hK : K.PosDef) {V : Mat n b} (hV : FullRank V) : (Vᵀ * (K⁻¹ * V)).PosDef := by
  have h := hK.inv.conjTranspose_mul_mul_same (B := V) (by
    intro x y hxy
    have h0 : V *ᵥ (x - y) = 0 := by rw [mulVec_sub, sub_eq_zero]; exact hxy
    exact sub_eq_zero.mp (hV _ h0))
  rw [Matrix.mul_assoc] at h
  simpa [conjT_eq] using h

/-- Generalised least squares coefficients. -/
def gls (K : Mat n n) (V : Mat n b) (y : Vec n) : Vec b := (Vᵀ * (K⁻¹ * V))⁻¹ *ᵥ (Vᵀ *ᵥ (K⁻¹ *ᵥ y))

theorem gls_normal {K : Mat n n} (hK : K.PosDef) {V : Mat n b} (hV : FullRank V) (y : Vec n) :
    (Vᵀ * (K⁻¹ * V)) *ᵥ gls K V y = Vᵀ *ᵥ (K⁻¹ *ᵥ y) := by
  unfold gls
  rw [mulVec_mulVec, mul_nonsing_inv _ (isUnit_iff_ne_zero.mpr (posDef_detne (gram_posDef hK hV))), one_mulVec]

/-- The weighted residual is orthogonal to the basis. -/
theorem gls_orth {K : Mat n n} (hK : K.PosDef) {V : Mat n b} (hV : FullRank V) (y : Vec n) :
    Vᵀ *ᵥ (K⁻¹ *ᵥ (y - V *ᵥ gls K V y)) = 0 := by
  have h := gls_normal hK hV y
  have e : (Vᵀ * (K⁻¹ * V)) *ᵥ gls K V y = Vᵀ *ᵥ (K⁻¹ *ᵥ (V *ᵥ gls K V y)) := by simp only [mulVec_mulVec]
  rw [mulVec_sub, mulVec_sub, ← e, h, sub_self]

theorem orth_dot {K : Mat n n} (hK : K.PosDef) {V : Mat n b} (hV : FullRank V) (y : Vec n) (c : Vec b) :
    (K⁻¹ *ᵥ (y - V *ᵥ gls K V y)) ⬝ᵥ (V *ᵥ c) = 0 := by
  rw [dotProduct_mulVec, ← mulVec_transpose, gls_orth hK hV, zero_dotProduct]

theorem dot_inv_comm {K : Mat n n} (hK : K.PosDef) (u w : Vec n) : u ⬝ᵥ K⁻¹ *ᵥ w = (K⁻¹ *ᵥ u) ⬝ᵥ w := by
  rw [dotProduct_mulVec, ← mulVec_transpose, inv_sym hK]

theorem maha_nonneg {K : Mat n n} (hK : K.PosDef) (z : Vec n) : 0 ≤ maha K z := by
  have := hK.inv.posSemidef.dotProduct_mulVec_nonneg z
  simpa [maha] using this

theorem maha_pos {K : Mat n n} (hK : K.PosDef) {z : Vec n} (hz : z ≠ 0) : 0 < maha K z := by
  have := hK.inv.dotProduct_mulVec_pos hz
  simpa [maha] using this

/-- Pythagoras for the weighted norm. -/
theorem maha_split {K : Mat n n} (hK : K.PosDef) {V : Mat n b} (hV : FullRank V) (y : Vec n) (c : Vec b) :
    maha K (y - V *ᵥ c) = maha K (y - V *ᵥ gls K V y) + maha K (V *ᵥ (gls K V y - c)) := by
  set β := gls K V y
  have e : y - V *ᵥ c = (y - V *ᵥ β) + V *ᵥ (β - c) := by rw [mulVec_sub]; abel
  have h1 : (y - V *ᵥ β) ⬝ᵥ K⁻¹ *ᵥ (V *ᵥ (β - c)) = 0 := by
    rw [dot_inv_comm hK]; exact orth_dot hK hV y _
  have h2 : (V *ᵥ (β - c)) ⬝ᵥ K⁻¹ *ᵥ (y - V *ᵥ β) = 0 := by
    rw [dotProduct_comm]; exact orth_dot hK hV y _
  unfold maha
  rw [e, mulVec_add, dotProduct_add, add_dotProduct, add_dotProduct, h1, h2]
  ring

/-! ### Result of the fit -/

/-- `term1` of the code. -/
def glsT (K : Mat n n) (V : Mat n b) : Mat b n := (Vᵀ * (K⁻¹ * V))⁻¹ * (K⁻¹ * V)ᵀ

theorem glsT_mulVec {K : Mat n n} (hK : K.PosDef) (V : Mat n b) (z : Vec n) :
    glsT K V *ᵥ z = (Vᵀ * (K⁻¹ * V))⁻¹ *ᵥ (Vᵀ *ᵥ (K⁻¹ *ᵥ z)) := by
  unfold glsT
  rw [transpose_mul, inv_sym hK]
  simp only [mulVec_mulVec, Matrix.mul_assoc]

theorem calcModelMaxLkd_none {F : ChoFac n} {K : Mat n n} (hF : FacOf F K) {V : Mat n b} (hV : FullRank V) (y : Vec n) :
    calcModelMaxLkd (m := m) F V y none = .ok ⟨V *ᵥ gls K V y, none, gls K V y, none⟩ := by
  have hd := posDef_detne (gram_posDef hF.pos hV)
  unfold calcModelMaxLkd
  simp only [choSolve, hF.mat, hd, if_false]
  have := glsT_mulVec hF.pos V y
  unfold glsT at this
  rw [this]; rfl

/-- The derivative of the coefficients when the matrix moves in the direction `D`. -/
def glsGrad (K : Mat n n) (V : Mat n b) (y : Vec n) (D : Mat n n) : Vec b :=
  glsT K V *ᵥ (D *ᵥ ((K⁻¹ * V) *ᵥ gls K V y - K⁻¹ *ᵥ y))

theorem calcModelMaxLkd_some {F : ChoFac n} {K : Mat n n} (hF : FacOf F K) {V : Mat n b} (hV : FullRank V) (y : Vec n)
    (dK : Fin m → Mat n n) :
    calcModelMaxLkd F V y (some dK) = .ok ⟨V *ᵥ gls K V y, some (V * of fun i k => glsGrad K V y (dK k) i), gls K V y,
      some (of fun i k => glsGrad K V y (dK k) i)⟩ := by
  have hd := posDef_detne (gram_posDef hF.pos hV)
  unfold calcModelMaxLkd
  simp only [choSolve, choSolveV, hF.mat, hd, if_false]
  have h1 := glsT_mulVec hF.pos V y
  have h2 : glsT K V *ᵥ y = gls K V y := h1
  have e : (Vᵀ * (K⁻¹ * V))⁻¹ * (K⁻¹ * V)ᵀ = glsT K V := rfl
  rw [e, h2]
  have h3 : (of fun i k => ∑ j, ∑ l, glsT K V i j * dK k j l * ((K⁻¹ * V) *ᵥ gls K V y - K⁻¹ *ᵥ y) l : Mat b m) =
      of fun i k => glsGrad K V y (dK k) i := by
    ext i k
    simp only [of_apply, glsGrad, mulVec, dotProduct, Finset.mul_sum, mul_assoc]
  rw [h3]

/-! ### Derivatives along a path of matrices -/

section path

variable {K : ℝ → Mat n n} {K' : Mat n n} {t : ℝ}

theorem kinv_vec_deriv (hK : MDeriv K K' t) (hp : (K t).PosDef) {z : ℝ → Vec n} {z' : Vec n}
    (hz : ∀ j, HasDerivAt (fun s => z s j) (z' j) t) (i : Fin n) :
    HasDerivAt (fun s => ((K s)⁻¹ *ᵥ z s) i) (((K t)⁻¹ *ᵥ (z' - K' *ᵥ ((K t)⁻¹ *ᵥ z t))) i) t := by
  refine ((inv_deriv hK (posDef_detne hp)).mulVec hz i).congr_deriv ?_
  simp only [mulVec_sub, mulVec_mulVec, Matrix.mul_assoc, neg_mulVec, Pi.add_apply, Pi.neg_apply, Pi.sub_apply]
  ring

theorem gls_deriv (hK : MDeriv K K' t) (hp : (K t).PosDef) {V : Mat n b} (hV : FullRank V) (y : Vec n) (i : Fin b) :
    HasDerivAt (fun s => gls (K s) V y i) (glsGrad (K t) V y K' i) t := by
  have hinv := inv_deriv hK (posDef_detne hp)
  have hG : MDeriv (fun s => Vᵀ * ((K s)⁻¹ * V)) (Vᵀ * (-((K t)⁻¹ * K' * (K t)⁻¹) * V)) t := by
    have h1 := hinv.mul (MDeriv.const V t)
    have h2 := (MDeriv.const Vᵀ t).mul h1
    refine fun i j => (h2 i j).congr_deriv ?_
    simp
  have hGinv := inv_deriv hG (posDef_detne (gram_posDef hp hV))
  have hy : ∀ j, HasDerivAt (fun s => ((K s)⁻¹ *ᵥ y) j) (((K t)⁻¹ *ᵥ (0 - K' *ᵥ ((K t)⁻¹ *ᵥ y))) j) t :=
    fun j => kinv_vec_deriv hK hp (z := fun _ => y) (z' := 0) (fun _ => hasDerivAt_const _ _) j
  have hVy := fun j => (MDeriv.const Vᵀ t).mulVec hy j
  have := hGinv.mulVec hVy i
  refine this.congr_deriv ?_
  -- algebra
  unfold glsGrad
  rw [glsT_mulVec hp]
  have hgl : gls (K t) V y = (Vᵀ * ((K t)⁻¹ * V))⁻¹ *ᵥ (Vᵀ *ᵥ ((K t)⁻¹ *ᵥ y)) := rfl
  have e1 : (-((Vᵀ * ((K t)⁻¹ * V))⁻¹ * (Vᵀ * (-((K t)⁻¹ * K' * (K t)⁻¹) * V)) * (Vᵀ * ((K t)⁻¹ * V))⁻¹)) *ᵥ
      (Vᵀ *ᵥ ((K t)⁻¹ *ᵥ y)) = (Vᵀ * ((K t)⁻¹ * V))⁻¹ *ᵥ (Vᵀ *ᵥ ((K t)⁻¹ *ᵥ (K' *ᵥ (((K t)⁻¹ * V) *ᵥ gls (K t) V y)))) := by
    rw [hgl]
    simp only [mulVec_mulVec, Matrix.mul_assoc, Matrix.neg_mul, Matrix.mul_neg, neg_neg]
  rw [Pi.add_apply, e1]
  simp only [zero_mulVec, zero_add, mulVec_sub, mulVec_neg, zero_sub, Pi.sub_apply, Pi.neg_apply]
  ring

/-- The residual quadratic form of the fitted model. -/
def rss (K : Mat n n) (V : Mat n b) (y : Vec n) : ℝ := maha K (y - V *ᵥ gls K V y)

/-- Its derivative, in the form the code uses. -/
theorem rss_deriv' (hK : MDeriv K K' t) (hp : (K t).PosDef) {V : Mat n b} (hV : FullRank V) (y : Vec n) :
    HasDerivAt (fun s => rss (K s) V y)
      (-(((K t)⁻¹ *ᵥ (y - V *ᵥ gls (K t) V y)) ⬝ᵥ K' *ᵥ ((K t)⁻¹ *ᵥ (y - V *ᵥ gls (K t) V y)))) t := by
  have hr : ∀ j, HasDerivAt (fun s => (y - V *ᵥ gls (K s) V y) j) ((-(V *ᵥ glsGrad (K t) V y K')) j) t := by
    intro j
    have h1 := (MDeriv.const V t).mulVec (fun i => gls_deriv hK hp hV y i) j
    have h2 := (hasDerivAt_const t (y j)).fun_sub h1
    refine h2.congr_deriv ?_
    simp
  have hw := fun j => kinv_vec_deriv hK hp hr j
  have := dot_deriv hr hw
  refine this.congr_deriv ?_
  set r := y - V *ᵥ gls (K t) V y with hrdef
  set w := (K t)⁻¹ *ᵥ r with hwdef
  have o1 : (-(V *ᵥ glsGrad (K t) V y K')) ⬝ᵥ w = 0 := by
    rw [neg_dotProduct, dotProduct_comm, orth_dot hp hV, neg_zero]
  have o2 : w ⬝ᵥ (V *ᵥ glsGrad (K t) V y K') = 0 := orth_dot hp hV y _
  rw [o1, zero_add, dot_inv_comm hp, ← hwdef, dotProduct_sub, dotProduct_neg, o2]
  simp

end path

end GP
