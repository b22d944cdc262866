import Verif.Proofs.EvalCore
import Verif.Proofs.CondGauss
import Verif.Spec.EvalSpec
import Verif.Props.Cov
import Verif.Props.Mean

/-! Closed forms of predictions. -/

open Np Spec Matrix

noncomputable section

namespace GP

theorem dIx_val {g : Gp} {q : ℕ} (h : q < g.nEval) : dIx g q = .v q := by simp [dIx, h]

theorem dIx_grad {g : Gp} {i a : ℕ} (hi : i < g.dim) (ha : a < g.nGrad) : dIx g (g.nEval + i * g.nGrad + a) = .g i a := by
  have := dIx_pos (n := g.nEval) (gr := g.nGrad) (dim := g.dim) (x := .g i a) ⟨hi, ha⟩
  exact this

section
variable {g : Gp} {hp : HpVals}

/-- The closed-form covariance of two data. -/
def kk (g : Gp) (hp : HpVals) (p q : ℕ) : ℝ := radKG (prφ g.kernel (alphaOf g.kernel hp.kernel))
  (prφ1 g.kernel (alphaOf g.kernel hp.kernel)) (prφ2 g.kernel (alphaOf g.kernel hp.kernel)) g.dim (thF hp)
  (fun d => dpt g p d - dpt g q d) (dco g p) (dco g q)

theorem isKern_entry (hg : GpOk g) (hh : HpAdm g hp) {K : Mat g.nData g.nData} (hK : IsKern g hp K) (p q : Fin g.nData) :
    K p q = kk g hp p q := by
  obtain ⟨A, hA, hKA⟩ := hK
  rw [hKA]
  have P := prProfile g.kernel (alphaOf_pos hh.kernel)
  have hθ : ∀ d < g.dim, 0 ≤ thF hp d := fun d hd => (thF_pos hh d hd).le
  have hB : JointCov (gpKern g hp) g.dim g.nEval g.nGrad g.nEval g.nGrad g.x.get (gSel g.bvec) g.x.get (gSel g.bvec) (kk g hp) := by
    rw [gpKern_canon hh]
    have hv : ∀ p < g.nEval, dpt g p = g.x.get p ∧ dco g p = none := fun p h => by simp [dpt, dco, dIx_val h]
    have hd : ∀ i < g.dim, ∀ a < g.nGrad, dpt g (g.nEval + i * g.nGrad + a) = g.x.get (gSel g.bvec a) ∧
        dco g (g.nEval + i * g.nGrad + a) = some i := fun i hi a ha => by simp [dpt, dco, dIx_grad hi ha]
    refine ⟨?_, ?_, ?_, ?_⟩
    · intro p h q h'
      have := radKG_isCov P hθ (dpt g p) (dpt g q) none none (by simp) (by simp)
      rw [kk, (hv p h).2, (hv q h').2, this, (hv p h).1, (hv q h').1]
    · intro i hi a ha q hq
      have := radKG_isCov P hθ (g.x.get (gSel g.bvec a)) (g.x.get q) (some i) none (by simpa using hi) (by simp)
      rw [kk, (hd i hi a ha).1, (hd i hi a ha).2, (hv q hq).1, (hv q hq).2]
      exact this
    · intro p h j hj b hb
      have := radKG_isCov P hθ (g.x.get p) (g.x.get (gSel g.bvec b)) none (some j) (by simp) (by simpa using hj)
      rw [kk, (hd j hj b hb).1, (hd j hj b hb).2, (hv p h).1, (hv p h).2]
      exact this
    · intro i hi a ha j hj b hb
      have := radKG_isCov P hθ (g.x.get (gSel g.bvec a)) (g.x.get (gSel g.bvec b)) (some i) (some j) (by simpa using hi)
        (by simpa using hj)
      rw [kk, (hd i hi a ha).1, (hd i hi a ha).2, (hd j hj b hb).1, (hd j hj b hb).2]
      exact this
  exact hA.unique hB (by rw [← hg.nData]; exact p.2) (by rw [← hg.nData]; exact q.2)

theorem kv_isCross (hh : HpAdm g hp) (x : Pt) : IsCross g hp x (kv g hp x) := by
  have P := prProfile g.kernel (alphaOf_pos hh.kernel)
  have hθ : ∀ d < g.dim, 0 ≤ thF hp d := fun d hd => (thF_pos hh d hd).le
  refine ⟨fun p _ => radKG (prφ g.kernel (alphaOf g.kernel hp.kernel)) (prφ1 g.kernel (alphaOf g.kernel hp.kernel))
    (prφ2 g.kernel (alphaOf g.kernel hp.kernel)) g.dim (thF hp) (fun d => dpt g p d - x d) (dco g p) none, ?_, fun i => rfl⟩
  rw [gpKern_canon hh]
  refine ⟨?_, ?_, ?_, ?_⟩
  · intro p h q _
    have e1 : dpt g p = g.x.get p := by simp [dpt, dIx_val h]
    have e2 : dco g p = none := by simp [dco, dIx_val h]
    rw [e1, e2]
    exact radKG_isCov P hθ (g.x.get p) x none none (by simp) (by simp)
  · intro i hi a ha q _
    have e1 : dpt g (g.nEval + i * g.nGrad + a) = g.x.get (gSel g.bvec a) := by simp [dpt, dIx_grad hi ha]
    have e2 : dco g (g.nEval + i * g.nGrad + a) = some i := by simp [dco, dIx_grad hi ha]
    simp only [e1, e2]
    exact radKG_isCov P hθ (g.x.get (gSel g.bvec a)) x (some i) none (by simpa using hi) (by simp)
  · intro p _ j _ b hb; omega
  · intro i _ a _ j _ b hb; omega

theorem isCross_eq (hg : GpOk g) (hh : HpAdm g hp) {x : Pt} {k : Vec g.nData} (h : IsCross g hp x k) : k = kv g hp x := by
  obtain ⟨A, hA, hk⟩ := h
  obtain ⟨B, hB, hk'⟩ := kv_isCross (g := g) hh x
  funext i
  rw [hk, hk']
  exact hA.unique hB (by rw [← hg.nData]; exact i.2) (by omega)

/-- The bordered kernel matrix is positive semidefinite. -/
theorem border_nonneg (hg : GpOk g) (hh : HpAdm g hp) {K : Mat g.nData g.nData} (hK : IsKern g hp K) (x : Pt)
    (c : Vec g.nData) (s : ℝ) : 0 ≤ c ⬝ᵥ K *ᵥ c + 2 * s * (c ⬝ᵥ kv g hp x) + s ^ 2 := by
  have P := prProfile g.kernel (alphaOf_pos hh.kernel)
  have hV := valPsd_pr g.kernel (alphaOf_pos hh.kernel)
  have hθ : ∀ d < g.dim, 0 ≤ thF hp d := fun d hd => (thF_pos hh d hd).le
  have h := fnl_psd P hV hθ (g.nData + 1) (Fin.snoc (α := fun _ => Pt) (fun q : Fin g.nData => dpt g q) x)
    (Fin.snoc (α := fun _ => Option ℕ) (fun q : Fin g.nData => dco g q) none) (by
      intro a
      refine Fin.lastCases ?_ (fun q => ?_) a
      · simp
      · simpa using dco_lt hg q) (snocV c s)
  simp only [Fin.sum_univ_castSucc, Fin.snoc_castSucc, Fin.snoc_last, snocV_c, snocV_l] at h
  refine h.trans_eq ?_
  have e1 : ∀ q : Fin g.nData, radKG (prφ g.kernel (alphaOf g.kernel hp.kernel)) (prφ1 g.kernel (alphaOf g.kernel hp.kernel))
      (prφ2 g.kernel (alphaOf g.kernel hp.kernel)) g.dim (thF hp) (fun d => x d - dpt g q d) none (dco g q) = kv g hp x q :=
    fun q => radKG_symm (fun d => by ring) _ _
  have e2 : radKG (prφ g.kernel (alphaOf g.kernel hp.kernel)) (prφ1 g.kernel (alphaOf g.kernel hp.kernel))
      (prφ2 g.kernel (alphaOf g.kernel hp.kernel)) g.dim (thF hp) (fun d => x d - x d) none none = 1 := by
    simp only [radKG, sub_self]
    rw [show ssq g.dim (thF hp) (fun _ => 0) = 0 by simp [ssq]]
    exact Props.prφ_zero g.kernel _
  simp only [e1, e2]
  have e3 : c ⬝ᵥ K *ᵥ c = ∑ a, ∑ b, c a * c b * kk g hp a b := by
    simp only [dotProduct, mulVec, Finset.mul_sum]
    refine Finset.sum_congr rfl fun a _ => Finset.sum_congr rfl fun b _ => ?_
    rw [isKern_entry hg hh hK]; ring
  rw [e3, Finset.sum_add_distrib]
  have e4 : ∑ a : Fin g.nData, c a * s * radKG (prφ g.kernel (alphaOf g.kernel hp.kernel)) (prφ1 g.kernel (alphaOf g.kernel hp.kernel))
      (prφ2 g.kernel (alphaOf g.kernel hp.kernel)) g.dim (thF hp) (fun d => dpt g a d - x d) (dco g a) none = s * (c ⬝ᵥ kv g hp x) := by
    simp only [dotProduct, Finset.mul_sum]
    refine Finset.sum_congr rfl fun a _ => ?_
    show _ = s * (c a * radKG _ _ _ _ _ _ _ _); ring
  have e5 : ∑ b : Fin g.nData, s * c b * kv g hp x b = s * (c ⬝ᵥ kv g hp x) := by
    simp only [dotProduct, Finset.mul_sum]
    refine Finset.sum_congr rfl fun a _ => ?_
    ring
  rw [e4, e5]
  simp only [kk]
  ring

/-- The relative variance reduction is at most one. -/
theorem reduction_le (hg : GpOk g) (hh : HpAdm g hp) {K M : Mat g.nData g.nData} (hK : IsKern g hp K) {d : Vec g.nData}
    (hd : ∀ i, 0 ≤ d i) (hM : M = K + diagonal d) (hpd : M.PosDef) (x : Pt) :
    0 ≤ kv g hp x ⬝ᵥ M⁻¹ *ᵥ kv g hp x ∧ kv g hp x ⬝ᵥ M⁻¹ *ᵥ kv g hp x ≤ 1 ∧
      ((∀ i, 0 < d i) → kv g hp x ⬝ᵥ M⁻¹ *ᵥ kv g hp x < 1) := by
  set k := kv g hp x with hk
  have hu : IsUnit M.det := (posDef_detne hpd).isUnit
  set c : Vec g.nData := M⁻¹ *ᵥ k with hc
  have hMc : M *ᵥ c = k := by rw [hc, mulVec_mulVec, mul_nonsing_inv _ hu, one_mulVec]
  have h0 : 0 ≤ k ⬝ᵥ c := maha_nonneg hpd k
  have h1 := border_nonneg hg hh hK x c (-1)
  rw [← hk, dotProduct_comm c k] at h1
  have h2 : c ⬝ᵥ M *ᵥ c = c ⬝ᵥ K *ᵥ c + ∑ i, d i * c i ^ 2 := by
    rw [hM, add_mulVec, dotProduct_add]
    congr 1
    simp only [dotProduct, mulVec_diagonal]
    refine Finset.sum_congr rfl fun i _ => by ring
  rw [hMc, dotProduct_comm] at h2
  have h3 : 0 ≤ ∑ i, d i * c i ^ 2 := Finset.sum_nonneg fun i _ => mul_nonneg (hd i) (sq_nonneg _)
  refine ⟨h0, by nlinarith, fun hpos => ?_⟩
  by_cases hc0 : c = 0
  · rw [hc0, dotProduct_zero]; norm_num
  · obtain ⟨i, hi⟩ : ∃ i, c i ≠ 0 := by
      by_contra h; push Not at h; exact hc0 (funext h)
    have h4 : 0 < ∑ i, d i * c i ^ 2 := Finset.sum_pos' (fun i _ => mul_nonneg (hd i) (sq_nonneg _))
      ⟨i, Finset.mem_univ _, mul_pos (hpos i) (by positivity)⟩
    nlinarith

theorem kv_deriv (hg : GpOk g) (hh : HpAdm g hp) (x : Pt) {i : ℕ} (hi : i < g.dim) (q : Fin g.nData) :
    HasDerivAt (fun t => kv g hp (Function.update x i t) q) (kd g hp x i q) (x i) := by
  have P := prProfile g.kernel (alphaOf_pos hh.kernel)
  have hθ : ∀ d < g.dim, 0 ≤ thF hp d := fun d hd => (thF_pos hh d hd).le
  exact fK_hasDeriv P hθ ⟨dpt g q, dco g q, 0⟩ (dco_lt hg q) x hi 0

theorem kd_deriv (hg : GpOk g) (hh : HpAdm g hp) (x : Pt) {e i : ℕ} (he : e < g.dim) (hi : i < g.dim) (q : Fin g.nData) :
    HasDerivAt (fun t => kd g hp (Function.update x e t) i q) (kh g hp x e i q) (x e) := by
  have P := prProfile g.kernel (alphaOf_pos hh.kernel)
  have Q := prProfile3 g.kernel (alphaOf_pos hh.kernel)
  obtain ⟨D, h1, h2⟩ := radKGx_isCovDx P Q (thF_pos hh) x (dpt g q) he hi (dco g q) (dco_lt hg q)
  have hθ : ∀ d < g.dim, 0 ≤ thF hp d := fun d hd => (thF_pos hh d hd).le
  have hD : D = fun t => kd g hp (Function.update x e t) i q := by
    funext t
    have h3 := radKG_isCov P hθ (Function.update x e t) (dpt g q) (some i) (dco g q) (by simpa using hi) (dco_lt hg q)
    rw [(h1 t).unique h3]
    exact radKG_symm (fun d => by ring) _ _
  rw [hD] at h2
  exact h2

end

end GP
