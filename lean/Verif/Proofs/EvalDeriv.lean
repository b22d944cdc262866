import Verif.Proofs.EvalCore3

/-! Derivatives of the predictions. -/

open Np Spec Matrix

noncomputable section

namespace GP

theorem dot_deriv {n : ℕ} {u w : ℝ → Vec n} {u' w' : Vec n} {t : ℝ} (hu : ∀ i, HasDerivAt (fun s => u s i) (u' i) t)
    (hw : ∀ i, HasDerivAt (fun s => w s i) (w' i) t) : HasDerivAt (fun s => u s ⬝ᵥ w s) (u' ⬝ᵥ w t + u t ⬝ᵥ w') t := by
  have h := HasDerivAt.fun_sum (u := Finset.univ) (fun i _ => (hu i).fun_mul (hw i))
  simp only [dotProduct]
  refine h.congr_deriv ?_
  rw [Finset.sum_add_distrib]

theorem mulVec_deriv {n : ℕ} (A : Mat n n) {w : ℝ → Vec n} {w' : Vec n} {t : ℝ}
    (hw : ∀ i, HasDerivAt (fun s => w s i) (w' i) t) (i : Fin n) : HasDerivAt (fun s => (A *ᵥ w s) i) ((A *ᵥ w') i) t := by
  simp only [mulVec, dotProduct]
  exact HasDerivAt.fun_sum (u := Finset.univ) (fun j _ => (hw j).const_mul (A i j))

section
variable {g : Gp} {hp : HpVals}

theorem muF_deriv (hg : GpOk g) (hh : HpAdm g hp) (w : Vec g.nData) (β : ℝ) (x : Pt) {i : ℕ} (hi : i < g.dim) :
    HasDerivAt (fun t => muF g hp w β (Function.update x i t)) (dmuF g hp w x i) (x i) := by
  have h := dot_deriv (w := fun _ => w) (w' := 0) (kv_deriv hg hh x hi) (fun q => hasDerivAt_const _ (w q))
  simp only [muF]
  refine (h.const_add β).congr_deriv ?_
  rw [dotProduct_zero, add_zero]; rfl

theorem dmuF_deriv (hg : GpOk g) (hh : HpAdm g hp) (w : Vec g.nData) (x : Pt) {e i : ℕ} (he : e < g.dim) (hi : i < g.dim) :
    HasDerivAt (fun t => dmuF g hp w (Function.update x e t) i) (d2muF g hp w x e i) (x e) := by
  have h := dot_deriv (w := fun _ => w) (w' := 0) (kd_deriv hg hh x he hi) (fun q => hasDerivAt_const _ (w q))
  simp only [dmuF]
  refine h.congr_deriv ?_
  rw [dotProduct_zero, add_zero]; rfl

theorem s2F_deriv (hg : GpOk g) (hh : HpAdm g hp) {M : Mat g.nData g.nData} (hM : M.PosDef) (x : Pt) {i : ℕ} (hi : i < g.dim) :
    HasDerivAt (fun t => s2F g hp M (Function.update x i t)) (-2 * (kd g hp x i ⬝ᵥ M⁻¹ *ᵥ kv g hp x)) (x i) := by
  have h := dot_deriv (kv_deriv hg hh x hi) (mulVec_deriv M⁻¹ (kv_deriv hg hh x hi))
  simp only [s2F]
  refine (h.const_sub 1).congr_deriv ?_
  simp only [Function.update_eq_self]
  have : kv g hp x ⬝ᵥ M⁻¹ *ᵥ kd g hp x i = kd g hp x i ⬝ᵥ M⁻¹ *ᵥ kv g hp x := by
    rw [dot_inv_comm hM, dotProduct_comm]
  show -(kd g hp x i ⬝ᵥ M⁻¹ *ᵥ kv g hp x + kv g hp x ⬝ᵥ M⁻¹ *ᵥ kd g hp x i) = _
  rw [this]; ring

theorem sgF_deriv (hg : GpOk g) (hh : HpAdm g hp) {M : Mat g.nData g.nData} (hM : M.PosDef) {v : ℝ} (hv : 0 < v) (x : Pt)
    {i : ℕ} (hi : i < g.dim) (hx : 0 < s2F g hp M x) :
    HasDerivAt (fun t => sgF g hp M v (Function.update x i t)) (dsgF g hp M v x i) (x i) := by
  have h := s2F_deriv hg hh hM x hi
  have h2 : HasDerivAt (fun t => Real.sqrt (s2F g hp M (Function.update x i t))) _ (x i) :=
    h.sqrt (by simp only [Function.update_eq_self]; exact hx.ne')
  have h3 := h2.mul_const (Real.sqrt v)
  refine HasDerivAt.congr_deriv (f := fun t => sgF g hp M v (Function.update x i t)) h3 ?_
  simp only [Function.update_eq_self]
  have hs : 0 < Real.sqrt (s2F g hp M x) := Real.sqrt_pos.mpr hx
  have hsv : 0 < Real.sqrt v := Real.sqrt_pos.mpr hv
  have hne : sgF g hp M v x ≠ 0 := (mul_pos hs hsv).ne'
  rw [dsgF, if_pos hne, sgF]
  have hvv : v = Real.sqrt v * Real.sqrt v := (Real.mul_self_sqrt hv.le).symm
  generalize kd g hp x i ⬝ᵥ M⁻¹ *ᵥ kv g hp x = κ
  have e : κ * v = κ * (Real.sqrt v * Real.sqrt v) := by rw [← hvv]
  rw [e]
  field_simp

theorem dsgF_deriv (hg : GpOk g) (hh : HpAdm g hp) {M : Mat g.nData g.nData} (hM : M.PosDef) {v : ℝ} (hv : 0 < v) (x : Pt)
    {e i : ℕ} (he : e < g.dim) (hi : i < g.dim) (hx : 0 < s2F g hp M x) :
    HasDerivAt (fun t => dsgF g hp M v (Function.update x e t) i) (d2sgF g hp M v x e i) (x e) := by
  have hs : 0 < sgF g hp M v x := mul_pos (Real.sqrt_pos.mpr hx) (Real.sqrt_pos.mpr hv)
  have h1 := sgF_deriv hg hh hM hv x he hx
  have h2 := dot_deriv (kd_deriv hg hh x he hi) (mulVec_deriv M⁻¹ (kv_deriv hg hh x he))
  have hne : sgF g hp M v (Function.update x e (x e)) ≠ 0 := by rw [Function.update_eq_self]; exact hs.ne'
  have h3 := (h2.mul_const v).fun_neg.fun_div h1 hne
  simp only [Function.update_eq_self] at h3
  have hev : (fun t => dsgF g hp M v (Function.update x e t) i) =ᶠ[nhds (x e)]
      fun t => -(kd g hp (Function.update x e t) i ⬝ᵥ M⁻¹ *ᵥ kv g hp (Function.update x e t) * v) /
        sgF g hp M v (Function.update x e t) := by
    filter_upwards [h1.continuousAt.eventually_ne hne] with t ht
    rw [dsgF, if_pos ht]
    ring
  refine (h3.congr_of_eventuallyEq hev).congr_deriv ?_
  have hsym : kd g hp x i ⬝ᵥ M⁻¹ *ᵥ kd g hp x e = kd g hp x e ⬝ᵥ M⁻¹ *ᵥ kd g hp x i := by
    rw [dot_inv_comm hM, dotProduct_comm]
  have hkh : ((fun q => kh g hp x e i q) ⬝ᵥ M⁻¹ *ᵥ kv g hp x + kd g hp x i ⬝ᵥ fun q => (M⁻¹ *ᵥ fun q => kd g hp x e q) q) =
      kh g hp x e i ⬝ᵥ M⁻¹ *ᵥ kv g hp x + kd g hp x e ⬝ᵥ M⁻¹ *ᵥ kd g hp x i := by
    rw [← hsym]
  rw [hkh, d2sgF]
  have hd : dsgF g hp M v x i = -(kd g hp x i ⬝ᵥ M⁻¹ *ᵥ kv g hp x * v) / sgF g hp M v x := by
    rw [dsgF, if_pos hs.ne']; ring
  rw [hd]
  field_simp

end

end GP
