import Verif.Proofs.EvalCore3

/-! `eval_model` with Hessians, whatever second-derivative covariances the kernel routine returns. -/

open Np Spec Matrix

noncomputable section

namespace GP

/-- Hessian of the standard deviation, computed from second-derivative covariances `L`. -/
def d2sgL (g : Gp) (hp : HpVals) (M : Mat g.nData g.nData) (v : ℝ) (x : Pt) (L : ℕ → ℕ → Vec g.nData) (e i : ℕ) : ℝ :=
  1 / (2 * sgF g hp M v x) * (-2 * v * (L e i ⬝ᵥ M⁻¹ *ᵥ kv g hp x + kd g hp x e ⬝ᵥ M⁻¹ *ᵥ kd g hp x i)
    - 2 * (dsgF g hp M v x e * dsgF g hp M v x i))

open Classical in
theorem evalModel_hess {g : Gp} (hg : GpOk g) {hp : HpVals} (hh : HpAdm g hp) {v : ℝ} (hv : 0 < v) (hvk : hp.varK = some v)
    {beta : Arr1} (hbeta : hp.beta = some beta) (hb : beta.n = 1) {cc : Bool} {N : Vec g.nData} {K : Mat g.nData g.nData}
    {st : EvalState g.nData} (hs : SetupSpec g hp (beta.get 0) cc N K st) (hη : 0 ≤ st.etaK) {F : ChoFac g.nData}
    (hF : st.chofac = some F) {X : Arr2} (hX : X.c = g.dim) (h1 : X.r = 1) (hq : g.kernel = .ratQuad → fullMask g.bvec g.nEval)
    {H : Arr3} {L : ℕ → ℕ → Vec g.nData} (hH : crossHess g hp X = .ok H) (H1 : H.d = g.dim) (H2 : H.r = g.dim)
    (H3 : H.c = hessNData g) (H4 : H.c = g.nData) (H5 : ∀ (e i : Fin g.dim) (q : Fin g.nData), H.get e i q = L e i q) :
    evalModel g st hp X true true = .ok
      { evalClosed g hp st.KernEta (st.KernEta⁻¹ *ᵥ (st.dataVec - priorMean g (beta.get 0))) (beta.get 0) v X true false with
        d2mu := some (of fun (e i : Fin g.dim) => L e i ⬝ᵥ (st.KernEta⁻¹ *ᵥ (st.dataVec - priorMean g (beta.get 0))))
        d2sig := some (if sgF g hp st.KernEta v (X.get 0) = 0 then none else
          some (of fun (e i : Fin g.dim) => d2sgL g hp st.KernEta v (X.get 0) L e i)) } := by
  have hXr : 0 < X.r := by omega
  obtain ⟨hFm, hpd⟩ := hs.fac F hF
  obtain ⟨A, dK, hA, hAr, hAc, hAg, hD⟩ := crossKern_ok hg hh hX hq true
  obtain ⟨vv, G, h, hmf, hv1, hv2, hG1, hG2, hG3⟩ := mean_ok (X := X) hX (m := none) (by simp [maskOk]) hb true true
  have hW := hs.w F hF
  set w := st.KernEta⁻¹ *ᵥ (st.dataVec - priorMean g (beta.get 0)) with hw
  have hcol : ∀ a : Fin X.r, (fun q => toMat g.nData X.r A q a) = kv g hp (X.get a) := fun a => funext fun q => hAg q a
  have hkinv : ∀ a : Fin X.r, (fun q => choSolve F (toMat g.nData X.r A) q a) = st.KernEta⁻¹ *ᵥ kv g hp (X.get a) := by
    intro a
    funext q
    simp only [choSolve, hFm, mul_apply, mulVec, dotProduct]
    refine Finset.sum_congr rfl fun p _ => ?_
    rw [← hAg p a]; rfl
  have hs2 : ∀ a : Fin X.r, 1 - ((toMat g.nData X.r A)ᵀ * choSolve F (toMat g.nData X.r A)) a a = s2F g hp st.KernEta (X.get a) := by
    intro a
    rw [s2F, ← hkinv a, ← hcol a]
    rfl
  have hmu : ∀ a : Fin X.r, vv.get a + ((toMat g.nData X.r A)ᵀ *ᵥ w) a = muF g hp w (beta.get 0) (X.get a) := by
    intro a
    rw [hv2 a a.2, muF, ← hcol a]
    rfl
  have hnn : ∀ a : Fin X.r, ¬ s2F g hp st.KernEta (X.get a) < 0 := fun a => not_lt.mpr (s2_nonneg hg hh hs hη hpd _).1
  have hsq : Real.sqrt v ^ 2 = v := Real.sq_sqrt hv.le
  unfold evalModel
  simp only [hF, hs.hp_eq, ne_eq, not_true_eq_false, if_false, hbeta, hvk, need, ok_bind]
  rw [pyAssert_true (show True → True from fun _ => trivial)]
  simp only [ok_bind, hA, hAr, hAc, and_self, if_true, hW, hmf, if_neg hXr.ne', hs2, hmu]
  rw [pyAssert_true (fun a => (s2_nonneg hg hh hs hη hpd _).1)]
  simp only [ok_bind, hnn, if_false]
  obtain ⟨D, rfl, hDr, hDc, hDg⟩ := hD rfl
  have hdmu : (calcDmu D w G : Mat X.r g.dim) = of fun (a : Fin X.r) (i : Fin g.dim) => dmuF g hp w (X.get a) i := by
    ext a i
    simp only [calcDmu, of_apply, hDg, dmuF]
    rw [hG3 a a.2 i i.2, add_zero]
  have hdsig : (calcDsig D (choSolve F (toMat g.nData X.r A)) (fun a => Real.sqrt (s2F g hp st.KernEta (X.get a)) * Real.sqrt v)
      (Real.sqrt v) : Mat X.r g.dim) = of fun (a : Fin X.r) (i : Fin g.dim) => dsgF g hp st.KernEta v (X.get a) i := by
    ext a i
    simp only [calcDsig, of_apply, hDg, hkinv, hsq]
    rfl
  unfold evalDerivs
  simp only [if_true, need, ok_bind, hDr, hDc, and_self, hdmu, hdsig]
  simp only [if_true, hH, ok_bind]
  rw [pyAssert_true ⟨H1, H2, H3⟩, ok_bind, dif_pos ⟨h1, H4⟩]
  have hd2mu : (calcD2mu H w : Mat g.dim g.dim) = of fun (e i : Fin g.dim) => L e i ⬝ᵥ w := by
    ext e i
    simp only [calcD2mu, of_apply, dotProduct, H5]
  have hk0 := hkinv ⟨0, by omega⟩
  have hk0' : ∀ q, choSolve F (toMat g.nData X.r A) q ⟨0, by omega⟩ = (st.KernEta⁻¹ *ᵥ kv g hp (X.get 0)) q := fun q => congrFun hk0 q
  have hD0 : ∀ i : Fin g.dim, (dkRow D 1 g.dim 0 i : Vec g.nData) = kd g hp (X.get 0) i := by
    intro i
    rw [← hDg ⟨0, by omega⟩ i]
    funext q
    simp only [dkRow, h1]
    rfl
  have hd2sig : calcD2sig H F D (of fun q _ => choSolve F (toMat g.nData X.r A) q ⟨0, by omega⟩)
      (Real.sqrt (s2F g hp st.KernEta (X.get 0)) * Real.sqrt v)
      (of fun _ i => dsgF g hp st.KernEta v (X.get 0) i) (Real.sqrt v) =
      if sgF g hp st.KernEta v (X.get 0) = 0 then none else
        some (of fun (e i : Fin g.dim) => d2sgL g hp st.KernEta v (X.get 0) L e i) := by
    unfold calcD2sig
    simp only [hsq]
    by_cases h0 : sgF g hp st.KernEta v (X.get 0) = 0
    · rw [if_pos h0]
      exact if_pos h0
    · rw [if_neg h0]
      refine (if_neg h0).trans (congrArg some ?_)
      ext e i
      simp only [Matrix.smul_apply, Matrix.sub_apply, Matrix.add_apply, of_apply, smul_eq_mul, d2sgL, hk0', H5]
      have ht2 : ((of fun (i : Fin g.dim) (q : Fin g.nData) => dkRow (n := g.nData) D 1 g.dim 0 i q) *
          choSolve F (of fun (i : Fin g.dim) (q : Fin g.nData) => dkRow (n := g.nData) D 1 g.dim 0 i q)ᵀ) e i =
          kd g hp (X.get 0) e ⬝ᵥ st.KernEta⁻¹ *ᵥ kd g hp (X.get 0) i := by
        simp only [choSolve, hFm, mul_apply, of_apply, transpose_apply, dotProduct, mulVec, hD0]
      rw [ht2]
      rfl
  simp only [of_apply] at hd2sig ⊢
  rw [hd2mu, hd2sig]
  rfl

end GP
