import Verif.Props.InexactFac
import Verif.Props.Inexact

/-! Claim theorems for C136: predictions with the factor of a matrix near the covariance matrix. -/

open Np GP Spec Matrix

noncomputable section

namespace Props

/-- Two inverses close in the metric of one of them. -/
theorem inv_gap {n : ℕ} {K K' : Mat n n} {ε : ℝ} (hK : K.PosDef) (hs : K'.IsHermitian) (h0 : 0 ≤ ε) (h1 : ε < 1)
    (ha : ∀ x, (1 - ε) * (x ⬝ᵥ K *ᵥ x) ≤ x ⬝ᵥ K' *ᵥ x) (hb : ∀ x, x ⬝ᵥ K' *ᵥ x ≤ (1 + ε) * (x ⬝ᵥ K *ᵥ x)) (x y : Vec n) :
    (x ⬝ᵥ K'⁻¹ *ᵥ y - x ⬝ᵥ K⁻¹ *ᵥ y) ^ 2 ≤ (ε / (1 - ε)) ^ 2 * ((x ⬝ᵥ K⁻¹ *ᵥ x) * (y ⬝ᵥ K⁻¹ *ᵥ y)) := by
  have h2 : 0 < 1 - ε := by linarith
  have hK' := pd_of_quad hK hs h2 ha
  set c := ε / (1 - ε) with hc
  have hc0 : 0 ≤ c := div_nonneg h0 h2.le
  -- on the diagonal
  have hd : ∀ z : Vec n, |maha K' z - maha K z| ≤ c * maha K z := by
    intro z
    have e1 := maha_le_of_quad hK hK' (a := 1 / (1 - ε)) (by positivity) (fun x => by
      have := ha x
      rw [one_div, ← div_eq_inv_mul, le_div_iff₀ h2]
      linarith) z
    have e2 := maha_le_of_quad hK' hK (a := 1 + ε) (by linarith) hb z
    have hz := maha_nonneg hK z
    have e3 : 1 / (1 - ε) = 1 + c := by rw [hc]; field_simp; ring
    rw [e3] at e1
    have e4 : ε ≤ c := by rw [hc, le_div_iff₀ h2]; nlinarith
    have hz' := maha_nonneg hK' z
    rw [abs_le]
    constructor
    · have t1 : (1 - ε) * maha K z ≤ maha K' z := by
        have := mul_le_mul_of_nonneg_left e2 h2.le
        nlinarith [mul_nonneg (mul_nonneg h0 h0) hz']
      nlinarith [mul_le_mul_of_nonneg_right e4 hz]
    · linarith
  have hT : ∀ {M : Mat n n}, M.PosDef → ∀ a b : Vec n, a ⬝ᵥ M⁻¹ *ᵥ b = b ⬝ᵥ M⁻¹ *ᵥ a := by
    intro M hM a b
    have : (M⁻¹)ᵀ = M⁻¹ := by
      have := hM.inv.1.eq
      rwa [conjTranspose_eq_transpose_of_trivial] at this
    rw [dotProduct_mulVec, ← mulVec_transpose, this, dotProduct_comm]
  set B := x ⬝ᵥ K'⁻¹ *ᵥ y - x ⬝ᵥ K⁻¹ *ᵥ y with hB
  have key : ∀ t : ℝ, 0 ≤ c * maha K x * (t * t) + 2 * B * t + c * maha K y := by
    intro t
    have f1 := (abs_le.mp (hd (t • x + y))).1
    have f2 := (abs_le.mp (hd (t • x - y))).2
    have ex : ∀ {M : Mat n n}, M.PosDef → maha M (t • x + y) = t * t * maha M x + 2 * t * (x ⬝ᵥ M⁻¹ *ᵥ y) + maha M y := by
      intro M hM
      unfold maha
      rw [mulVec_add, mulVec_smul, add_dotProduct, dotProduct_add, dotProduct_add, smul_dotProduct, smul_dotProduct, dotProduct_smul, dotProduct_smul,
        hT hM y x]
      simp only [smul_eq_mul]
      ring
    have ex' : ∀ {M : Mat n n}, M.PosDef → maha M (t • x - y) = t * t * maha M x - 2 * t * (x ⬝ᵥ M⁻¹ *ᵥ y) + maha M y := by
      intro M hM
      unfold maha
      rw [mulVec_sub, mulVec_smul, sub_dotProduct, dotProduct_sub, dotProduct_sub, smul_dotProduct, smul_dotProduct, dotProduct_smul, dotProduct_smul,
        hT hM y x]
      simp only [smul_eq_mul]
      ring
    rw [ex hK', ex hK] at f1
    rw [ex' hK', ex' hK] at f2
    nlinarith
  have := discrim_le_zero key
  unfold discrim at this
  have e : (2 * B) ^ 2 - 4 * (c * maha K x) * (c * maha K y) = 4 * (B ^ 2 - c ^ 2 * (maha K x * maha K y)) := by ring
  rw [e] at this
  show B ^ 2 ≤ c ^ 2 * (maha K x * maha K y)
  linarith

theorem factored_back {p : Bool} {n : ℕ} {A : Mat n n} (hA : A.PosDef) : scaledBack p A (factored p A) = A := by
  unfold scaledBack factored
  cases p with
  | false => rfl
  | true =>
    simp only [if_true]
    ext i j
    have h : ∀ i, Real.sqrt (A i i) ≠ 0 := fun i => (Real.sqrt_pos.mpr (hA.diag_pos (i := i))).ne'
    simp only [of_apply, unitDiag]
    have h1 := h i
    have h2 := h j
    field_simp

theorem factored_pd {p : Bool} {n : ℕ} {A : Mat n n} (hA : A.PosDef) : (factored p A).PosDef := by
  cases p with
  | false => exact hA
  | true =>
    have hs : ∀ i, 0 < Real.sqrt (A i i) := fun i => Real.sqrt_pos.mpr hA.diag_pos
    refine (posDef_diag_conj (A := factored true A) hs).mp ?_
    have : (diagonal fun i => Real.sqrt (A i i)) * factored true A * (diagonal fun i => Real.sqrt (A i i)) = A := by
      conv_rhs => rw [← factored_back (p := true) hA]
      ext i j
      simp only [scaledBack, if_true, of_apply, mul_diagonal, diagonal_mul]
    rw [this]
    exact hA

/-- A matrix near the factorised one, scaled back, is relatively close to the covariance matrix. -/
theorem scaledBack_near {fro p : Bool} {n : ℕ} (hn : 0 < n) {A M' : Mat n n} (hA : A.PosDef) {κ u : ℝ} (hκ : IsCondNum fro (factored p A) κ) (hu0 : 0 ≤ u)
    (hM : NearMat u (factored p A) M') : (scaledBack p A M').IsHermitian ∧
      (∀ x, (1 - u * κ) * (x ⬝ᵥ A *ᵥ x) ≤ x ⬝ᵥ scaledBack p A M' *ᵥ x) ∧ ∀ x, x ⬝ᵥ scaledBack p A M' *ᵥ x ≤ (1 + u * κ) * (x ⬝ᵥ A *ᵥ x) := by
  obtain ⟨κ₂, k3, k4⟩ := cond_two_le hn (factored_pd hA) hκ
  have hq : ∀ x, |x ⬝ᵥ scaledBack p A M' *ᵥ x - x ⬝ᵥ A *ᵥ x| ≤ u * κ * (x ⬝ᵥ A *ᵥ x) := by
    intro x
    have e := quad_near k3 hM hu0 (fun i => if p then Real.sqrt (A i i) * x i else x i)
    rw [sub_mulVec, dotProduct_sub, ← scaledBack_quad, ← scaledBack_quad, factored_back hA] at e
    have hx : 0 ≤ x ⬝ᵥ A *ᵥ x := by simpa using hA.posSemidef.dotProduct_mulVec_nonneg x
    exact e.trans (mul_le_mul_of_nonneg_right (mul_le_mul_of_nonneg_left k4 hu0) hx)
  refine ⟨?_, fun x => ?_, fun x => ?_⟩
  · ext i j
    show scaledBack p A M' j i = scaledBack p A M' i j
    unfold scaledBack
    split
    · simp only [of_apply]; rw [hM.symm j i]; ring
    · exact hM.symm j i
  · have := (abs_le.mp (hq x)).1; linarith
  · have := (abs_le.mp (hq x)).2; linarith

/-- **C136.** Predictions with the factor of a matrix that differs from the factorised matrix, of condition number `κ`, by at most `u` times its spectral
norm. If `u κ < 1` then the factorisation still succeeds; wherever `eval_model` does not raise, the mean changes by at most
`u κ / (1 - u κ)` times the norm of the centred data, the variance by at most that fraction of the prior variance `v` and the standard deviation by
at most the square root of this; and it does not raise if
all noise variances and nuggets `τ` are positive and that fraction is at most `1 / (1 + ∑ k_i(x)²/τ_i)` for each point. -/
theorem C136_inexact_factor {g : Gp} {hp : HpVals} {v β : ℝ} (hr : ReadyV g hp v β) {cc : Bool} {st : EvalState g.nData}
    (hst : setupEvalModel g hp cc = .ok st) (hF : st.chofac ≠ none) {N : Vec g.nData} {K A : Mat g.nData g.nData} (hN : IsNoise g hp N)
    (hK : IsKern g hp K) (hA : A = K + diagonal (tau g K N st.etaK)) {y : Vec g.nData} (hy : DataSpec g y)
    {κ u : ℝ} (hκ : IsCondNum g.o.fro (factored g.o.precon A) κ) (hu0 : 0 ≤ u) (hu : u * κ < 1)
    {M' : Mat g.nData g.nData} (hM : NearMat u (factored g.o.precon A) M') :
    (∃ F, FacOf F (scaledBack g.o.precon A M')) ∧
    ∀ F, FacOf F (scaledBack g.o.precon A M') → ∀ {X : Arr2}, X.c = g.dim → 0 < X.r → ∀ cg : Bool,
      (∀ out' : EvalOut X.r g.dim,
        evalModel g { st with chofac := some F, w := some (choSolveV F (y - priorMean g β)) } hp X cg false = .ok out' →
        ∃ out : EvalOut X.r g.dim, evalModel g st hp X cg false = .ok out ∧ ∀ a : Fin X.r,
          |out'.mu a - out.mu a| ≤ u * κ / (1 - u * κ) * Real.sqrt (maha A (y - priorMean g β)) ∧
          |out'.sig a ^ 2 - out.sig a ^ 2| ≤ v * (u * κ / (1 - u * κ)) ∧ (out'.sig a - out.sig a) ^ 2 ≤ v * (u * κ / (1 - u * κ))) ∧
      ((∀ q, 0 < tau g K N st.etaK q) → (∀ (a : Fin X.r) (k : Vec g.nData), IsCross g hp (X.get a) k →
          u * κ / (1 - u * κ) * (1 + ∑ q, k q ^ 2 / tau g K N st.etaK q) ≤ 1) →
        ∃ out' : EvalOut X.r g.dim,
          evalModel g { st with chofac := some F, w := some (choSolveV F (y - priorMean g β)) } hp X cg false = .ok out') := by
  obtain ⟨N₀, K₀, hs, -⟩ := ready_setup hr hst
  obtain ⟨rfl, rfl, hcov, hτ0⟩ := cov_tau hr hs hN hK
  have hpd := ready_pd hs hF
  have hn : 0 < g.nData := by have := hr.ne; rw [hr.ok.nData]; omega
  rw [← hA] at hcov
  have hApd : A.PosDef := hcov ▸ hpd
  have e1 : y = st.dataVec := data_unique hr.ok hy hs.data
  obtain ⟨b, hb, hbn, hb0⟩ := hr.beta
  have hκ0 := condNum_pos hn hκ
  have h0 : 0 ≤ u * κ := mul_nonneg hu0 hκ0.le
  obtain ⟨hsy, ha, hb'⟩ := scaledBack_near hn hApd hκ hu0 hM
  set K' := scaledBack g.o.precon A M' with hK'
  have hpd' : K'.PosDef := pd_of_quad hApd hsy (by linarith) ha
  have hgap := inv_gap hApd hsy h0 hu ha hb'
  have hc0 : 0 ≤ u * κ / (1 - u * κ) := div_nonneg h0 (by linarith)
  refine ⟨?_, fun F hFK X hX hXr cg => ?_⟩
  · obtain ⟨F, hF⟩ := (choFactor_isSome_iff (b := true)).mpr hpd'
    exact ⟨F, choFactor_mat hF, hpd', choFactor_logDet hF⟩
  have hred : ∀ a : Fin X.r, 0 ≤ kv g hp (X.get a) ⬝ᵥ A⁻¹ *ᵥ kv g hp (X.get a) ∧ kv g hp (X.get a) ⬝ᵥ A⁻¹ *ᵥ kv g hp (X.get a) ≤ 1 := fun a =>
    let h := reduction_le hr.ok hr.adm hK hτ0 hA hApd (X.get a)
    ⟨h.1, h.2.1⟩
  have hsg : ∀ a : Fin X.r, |kv g hp (X.get a) ⬝ᵥ K'⁻¹ *ᵥ kv g hp (X.get a) - kv g hp (X.get a) ⬝ᵥ A⁻¹ *ᵥ kv g hp (X.get a)| ≤ u * κ / (1 - u * κ) := by
    intro a
    obtain ⟨r0, r1⟩ := hred a
    refine abs_le_of_sq_le_sq ((hgap _ _).trans ?_) hc0
    have : (kv g hp (X.get a) ⬝ᵥ A⁻¹ *ᵥ kv g hp (X.get a)) * (kv g hp (X.get a) ⬝ᵥ A⁻¹ *ᵥ kv g hp (X.get a)) ≤ 1 := by nlinarith
    calc _ ≤ (u * κ / (1 - u * κ)) ^ 2 * 1 := mul_le_mul_of_nonneg_left this (sq_nonneg _)
      _ = _ := mul_one _
  have hmu : ∀ a : Fin X.r, |kv g hp (X.get a) ⬝ᵥ K'⁻¹ *ᵥ (y - priorMean g β) - kv g hp (X.get a) ⬝ᵥ A⁻¹ *ᵥ (y - priorMean g β)| ≤
      u * κ / (1 - u * κ) * Real.sqrt (maha A (y - priorMean g β)) := by
    intro a
    obtain ⟨r0, r1⟩ := hred a
    have hm := maha_nonneg hApd (y - priorMean g β)
    refine abs_le_of_sq_le_sq ((hgap _ _).trans ?_) (mul_nonneg hc0 (Real.sqrt_nonneg _))
    rw [mul_pow, Real.sq_sqrt hm]
    refine mul_le_mul_of_nonneg_left ?_ (sq_nonneg _)
    calc _ ≤ 1 * maha A (y - priorMean g β) := mul_le_mul_of_nonneg_right r1 hm
      _ = _ := one_mul _
  set st' : EvalState g.nData := { st with chofac := some F, w := some (choSolveV F (y - priorMean g β)) } with hst'
  have hok := evalModelBy_ok hr.ok hr.adm hr.varK hb hbn (st := st') (F := F) rfl hs.hp_eq rfl hX hXr hr.mask (choSolve F) cg rfl
  rw [evalModelBy_exact (st := st') (F := F) rfl cg] at hok
  have hcol : ∀ a : Fin X.r, (fun q => choSolve F (of fun q (a : Fin X.r) => kv g hp (X.get a) q) q a) = K'⁻¹ *ᵥ kv g hp (X.get a) := by
    intro a
    unfold choSolve
    rw [hFK.mat]
    rfl
  simp only [hcol] at hok
  refine ⟨fun out' ho' => ?_, fun hτ hsmall => ?_⟩
  · have hnn := not_imp_not.mpr hok.1 (by rw [ho']; intro h; cases h)
    push Not at hnn
    obtain ⟨o, ho, hm1, hs1, -⟩ := hok.2 hnn
    obtain rfl := Except.ok.inj (ho'.symm.trans ho)
    obtain ⟨out, ho, hm2, hs2⟩ := ready_vals hr hs hF hX hXr cg
    have hvar : ∀ a, |out'.sig a ^ 2 - out.sig a ^ 2| ≤ v * (u * κ / (1 - u * κ)) := by
      intro a
      rw [hs1, hs2]
      simp only [sgF_sq hr hs hF]
      rw [mul_pow, Real.sq_sqrt (hnn a), Real.sq_sqrt hr.vpos.le, s2F, mul_comm _ v, ← mul_sub, abs_mul, abs_of_pos hr.vpos]
      refine mul_le_mul_of_nonneg_left ?_ hr.vpos.le
      rw [sub_sub_sub_cancel_left, abs_sub_comm, hcov]
      exact hsg a
    refine ⟨out, ho, fun a => ⟨?_, hvar a, ?_⟩⟩
    · rw [hm1, hm2, hb0]
      simp only [muF]
      rw [add_sub_add_left_eq_sub, ← e1, hcov]
      unfold choSolveV
      rw [hFK.mat]
      exact hmu a
    · have q1 : 0 ≤ out'.sig a := by rw [hs1]; exact mul_nonneg (Real.sqrt_nonneg _) (Real.sqrt_nonneg _)
      have q2 : 0 ≤ out.sig a := by rw [hs2]; exact mul_nonneg (Real.sqrt_nonneg _) (Real.sqrt_nonneg _)
      have q3 := abs_le.mp (hvar a)
      rcases le_total (out.sig a) (out'.sig a) with h | h <;> nlinarith [q3.1, q3.2]
  · have hnn : ∀ a : Fin X.r, 0 ≤ 1 - kv g hp (X.get a) ⬝ᵥ K'⁻¹ *ᵥ kv g hp (X.get a) := by
      intro a
      have h1 := s2_floor hr.ok hr.adm hK hτ hA hApd (X.get a)
      have h2 := hsmall a _ (kv_isCross hr.adm (X.get a))
      have hQ0 : 0 ≤ ∑ q, kv g hp (X.get a) q ^ 2 / tau g K N st.etaK q :=
        Finset.sum_nonneg fun q _ => div_nonneg (sq_nonneg _) (hτ q).le
      have h3 : u * κ / (1 - u * κ) ≤ 1 / (1 + ∑ q, kv g hp (X.get a) q ^ 2 / tau g K N st.etaK q) := by
        rw [le_div_iff₀ (by linarith)]
        exact h2
      have h4 := (abs_le.mp (hsg a)).2
      unfold s2F at h1
      linarith
    obtain ⟨o, ho, -⟩ := hok.2 hnn
    exact ⟨o, ho⟩

/-- The derivative of a combination of kernel functions, by its norm. -/
theorem dkern_norm {g : Gp} {hp : HpVals} (hg : GpOk g) (hh : HpAdm g hp) {th : Arr1} (hth : hp.theta = some th) {K : Mat g.nData g.nData}
    (hK : IsKern g hp K) (z : Vec g.nData) (x : Pt) (i : Fin g.dim) :
    (kd g hp x i ⬝ᵥ z) ^ 2 ≤ 2 * slope0 g.kernel * th.get i * (z ⬝ᵥ K *ᵥ z) := by
  obtain ⟨th', hth', hn', hpos⟩ := hh.theta
  obtain rfl := Option.some.inj (hth.symm.trans hth')
  have hi := hpos i i.2
  have hc' := slope0_pos g.kernel
  obtain ⟨hq0, hq⟩ := comb_norm hg hh hK z
  show dmuF g hp z x i ^ 2 ≤ _
  refine slope_bound (muF_deriv hg hh z 0 x i.2) (mul_nonneg (by positivity) hq0) fun t => ?_
  simp only [Function.update_eq_self]
  have h8 := hq 2 ![Function.update x i t, x] ![1, -1]
  have hself : ∀ a, gpKern g hp a a = 1 := fun a => by
    rw [gpKern_canon hh]
    unfold radial
    rw [wdist2_self]
    exact prφ_zero g.kernel _
  have hsym : ∀ a b, gpKern g hp a b = gpKern g hp b a := fun a b => by
    rw [gpKern_canon hh]; unfold radial; rw [wdist2_comm]
  simp only [Fin.sum_univ_two, cons_val_zero, cons_val_one, hself, hsym x, Real.sq_sqrt hq0] at h8
  have h9 := one_sub_kern hh (Function.update x i t) x
  rw [hth] at h9
  have hwd : wdist2 g.dim th.get (Function.update x i t) x = th.get i * (t - x i) ^ 2 := by
    show ∑ d ∈ Finset.range g.dim, th.get d * (Function.update x i t d - x d) ^ 2 = _
    rw [Finset.sum_eq_single_of_mem (i : ℕ) (Finset.mem_range.mpr i.2)]
    · rw [Function.update_self]
    · intro d _ hd
      rw [Function.update_of_ne hd]
      ring
  simp only [Option.getD_some, hwd] at h9
  calc (muF g hp z 0 (Function.update x i t) - muF g hp z 0 x) ^ 2
      = (1 * (kv g hp (Function.update x i t) ⬝ᵥ z) + -1 * (kv g hp x ⬝ᵥ z)) ^ 2 := by simp only [muF]; ring
    _ ≤ _ := h8
    _ = (z ⬝ᵥ K *ᵥ z) * (2 * (1 - gpKern g hp (Function.update x i t) x)) := by ring
    _ ≤ (z ⬝ᵥ K *ᵥ z) * (2 * (slope0 g.kernel * (th.get i * (t - x i) ^ 2))) :=
        mul_le_mul_of_nonneg_left (by linarith) hq0
    _ = _ := by ring

/-- **C136.** The gradient of the mean changes by at most that fraction of the norm of the centred data times `√(2 c θ_i)` in its `i`-th component, with
`c = 1` (squared exponential, rational quadratic) or `5/6` (Matérn). -/
theorem C136_gradient {g : Gp} {hp : HpVals} {v β : ℝ} (hr : Ready g hp v β) {cc : Bool} {st : EvalState g.nData}
    (hst : setupEvalModel g hp cc = .ok st) (hF : st.chofac ≠ none) {th : Arr1} (hth : hp.theta = some th) {N : Vec g.nData}
    {K A : Mat g.nData g.nData} (hN : IsNoise g hp N) (hK : IsKern g hp K) (hA : A = K + diagonal (tau g K N st.etaK)) {y : Vec g.nData}
    (hy : DataSpec g y) {κ u : ℝ} (hκ : IsCondNum g.o.fro (factored g.o.precon A) κ) (hu0 : 0 ≤ u) (hu : u * κ < 1)
    {M' : Mat g.nData g.nData} (hM : NearMat u (factored g.o.precon A) M') {F : ChoFac g.nData} (hFK : FacOf F (scaledBack g.o.precon A M'))
    {X : Arr2} (hX : X.c = g.dim) (hXr : 0 < X.r) {out' : EvalOut X.r g.dim}
    (hout' : evalModel g { st with chofac := some F, w := some (choSolveV F (y - priorMean g β)) } hp X true false = .ok out') :
    ∃ out dmu dmu', evalModel g st hp X true false = .ok out ∧ out.dmu = some dmu ∧ out'.dmu = some dmu' ∧
      ∀ (a : Fin X.r) (i : Fin g.dim), (dmu' a i - dmu a i) ^ 2 ≤
        2 * slope0 g.kernel * th.get i * ((u * κ / (1 - u * κ)) ^ 2 * maha A (y - priorMean g β)) := by
  obtain ⟨N₀, K₀, hs, -⟩ := ready_setup hr.toV hst
  obtain ⟨rfl, rfl, hcov, hτ0⟩ := cov_tau hr.toV hs hN hK
  obtain ⟨th', hth', hn', hpos⟩ := hr.adm.theta
  obtain rfl := Option.some.inj (hth.symm.trans hth')
  have hpd := ready_pd hs hF
  have hn : 0 < g.nData := by have := hr.ne; rw [hr.ok.nData]; omega
  rw [← hA] at hcov
  have hApd : A.PosDef := hcov ▸ hpd
  have hu' : IsUnit A.det := (posDef_detne hApd).isUnit
  have e1 : y = st.dataVec := data_unique hr.ok hy hs.data
  obtain ⟨b, hb, hbn, hb0⟩ := hr.beta
  have hκ0 := condNum_pos hn hκ
  have h0 : 0 ≤ u * κ := mul_nonneg hu0 hκ0.le
  obtain ⟨hsy, ha, hb'⟩ := scaledBack_near hn hApd hκ hu0 hM
  set K' := scaledBack g.o.precon A M' with hK'
  have hgap := inv_gap hApd hsy h0 hu ha hb'
  set c := u * κ / (1 - u * κ) with hc
  set r := y - priorMean g β with hr'
  have hok := evalModelBy_ok hr.ok hr.adm hr.varK hb hbn (st := { st with chofac := some F, w := some (choSolveV F r) }) (F := F) rfl hs.hp_eq rfl hX
    hXr hr.toV.mask (choSolve F) true rfl
  rw [evalModelBy_exact (st := { st with chofac := some F, w := some (choSolveV F r) }) (F := F) rfl true] at hok
  have hnn := not_imp_not.mpr hok.1 (by rw [hout']; intro h; cases h)
  push Not at hnn
  obtain ⟨o, ho, -, -, hd⟩ := hok.2 hnn
  obtain rfl := Except.ok.inj (hout'.symm.trans ho)
  obtain ⟨dmu', hd1, hd2⟩ := hd rfl hr.mask
  refine ⟨_, _, dmu', ready_eval hr hs hF hX hXr true false noHess, rfl, hd1, fun a i => ?_⟩
  set w₀ := st.KernEta⁻¹ *ᵥ (st.dataVec - priorMean g β) with hw₀
  set x := X.get a with hx
  set z := K'⁻¹ *ᵥ r - w₀ with hz
  have hi := hpos i i.2
  have hc' := slope0_pos g.kernel
  have e2 : dmu' a i - dmuF g hp w₀ x i = dmuF g hp z x i := by
    rw [hd2, dmuF, dmuF, hz, dotProduct_sub]
    unfold choSolveV
    rw [hFK.mat]
  show (dmu' a i - dmuF g hp w₀ x i) ^ 2 ≤ _
  rw [e2]
  have hsa : Aᵀ = A := by
    have := hApd.1.eq
    rwa [conjTranspose_eq_transpose_of_trivial] at this
  have hzA : z ⬝ᵥ A *ᵥ z ≤ c ^ 2 * maha A r := by
    have h1 := hgap (A *ᵥ z) r
    have e3 : (A *ᵥ z) ⬝ᵥ K'⁻¹ *ᵥ r - (A *ᵥ z) ⬝ᵥ A⁻¹ *ᵥ r = z ⬝ᵥ A *ᵥ z := by
      have e5 : K'⁻¹ *ᵥ r - A⁻¹ *ᵥ r = z := by rw [hz, hw₀, hcov, hr', e1]
      rw [← dotProduct_sub, e5, dotProduct_comm]
    have e4 : (A *ᵥ z) ⬝ᵥ A⁻¹ *ᵥ (A *ᵥ z) = z ⬝ᵥ A *ᵥ z := by
      rw [mulVec_mulVec, nonsing_inv_mul _ hu', one_mulVec, dotProduct_comm]
    rw [e3, e4] at h1
    have hz0 : 0 ≤ z ⬝ᵥ A *ᵥ z := by simpa using hApd.posSemidef.dotProduct_mulVec_nonneg z
    rcases hz0.eq_or_lt with h | h
    · rw [← h]
      exact mul_nonneg (sq_nonneg _) (maha_nonneg hApd r)
    · show _ ≤ c ^ 2 * (r ⬝ᵥ A⁻¹ *ᵥ r)
      nlinarith
  have hzK : z ⬝ᵥ K *ᵥ z ≤ c ^ 2 * maha A r := by
    refine le_trans ?_ hzA
    rw [hA, add_mulVec, dotProduct_add]
    have : 0 ≤ z ⬝ᵥ diagonal (tau g K N st.etaK) *ᵥ z := by
      simp only [dotProduct, mulVec_diagonal]
      exact Finset.sum_nonneg fun q _ => by nlinarith [hτ0 q, sq_nonneg (z q), mul_nonneg (hτ0 q) (sq_nonneg (z q))]
    linarith
  refine (dkern_norm hr.ok hr.adm hth hK z x i).trans (mul_le_mul_of_nonneg_left hzK (by positivity))

/-- What `eval_model_var` returns with the factor of another matrix. -/
theorem evalModelVar_fac {g : Gp} (hg : GpOk g) {hp : HpVals} (hh : HpAdm g hp) {v : ℝ} (hvk : hp.varK = some v)
    {beta : Arr1} (hbeta : hp.beta = some beta) (hb : beta.n = 1) {st : EvalState g.nData} (hhp : st.hp = hp) {F : ChoFac g.nData}
    (hF : st.chofac = some F) {X : Arr2} (hX : X.c = g.dim) (hXr : 0 < X.r) (hq : g.kernel = .ratQuad → fullMask g.bvec g.nEval)
    (cg : Bool) (hnn : ∀ a : Fin X.r, 0 ≤ v * s2F g hp F.mat (X.get a)) :
    evalModelVar g st hp X cg false = .ok
          { sig2 := fun a => v * s2F g hp F.mat (X.get a)
            dsig2 := if cg then some (of fun a i => -2 * (kd g hp (X.get a) i ⬝ᵥ F.mat⁻¹ *ᵥ kv g hp (X.get a)) * v) else none } := by
  obtain ⟨A, dK, hA, hAr, hAc, hAg, hD⟩ := crossKern_ok hg hh hX hq cg
  obtain ⟨vv, G, h, hmf, hv1, hv2, hG1, hG2, hG3⟩ := mean_ok (X := X) hX (m := none) (by simp [maskOk]) hb cg false
  have hcol : ∀ a : Fin X.r, (fun q => toMat g.nData X.r A q a) = kv g hp (X.get a) := fun a => funext fun q => hAg q a
  have hkinv : ∀ a : Fin X.r, (fun q => choSolve F (toMat g.nData X.r A) q a) = F.mat⁻¹ *ᵥ kv g hp (X.get a) := by
    intro a
    funext q
    simp only [choSolve, mul_apply, mulVec, dotProduct]
    refine Finset.sum_congr rfl fun p _ => ?_
    rw [← hAg p a]; rfl
  have hs2 : ∀ a : Fin X.r, 1 - ((toMat g.nData X.r A)ᵀ * choSolve F (toMat g.nData X.r A)) a a = s2F g hp F.mat (X.get a) := by
    intro a
    rw [s2F, ← hkinv a, ← hcol a]
    rfl
  unfold evalModelVar
  simp only [hF, hhp, ne_eq, not_true_eq_false, if_false, hbeta, hvk, need, ok_bind]
  rw [pyAssert_true (fun h => by cases h)]
  simp only [ok_bind, hA, hAr, hAc, and_self, if_true, hmf, if_neg hXr.ne', hs2]
  rw [pyAssert_true hnn]
  simp only [ok_bind]
  unfold evalVarDerivs
  cases cg with
  | false => rfl
  | true =>
    obtain ⟨D, rfl, hDr, hDc, hDg⟩ := hD rfl
    simp only [Bool.false_eq_true, if_false, if_true, need, ok_bind, hDr, hDc, and_self, hDg, hkinv, pure_eq_ok]

/-- **C136.** The variance that `eval_model_var` returns and its gradient: wherever `eval_model` does not raise, `eval_model_var` does not either, the variance changes by at most the fraction
`u κ / (1 - u κ)` of the prior variance and the `i`-th component of its gradient by at most twice that times `√(2 c θ_i)`. -/
theorem C136_variance {g : Gp} {hp : HpVals} {v β : ℝ} (hr : Ready g hp v β) {cc : Bool} {st : EvalState g.nData}
    (hst : setupEvalModel g hp cc = .ok st) (hF : st.chofac ≠ none) {th : Arr1} (hth : hp.theta = some th) {N : Vec g.nData}
    {K A : Mat g.nData g.nData} (hN : IsNoise g hp N) (hK : IsKern g hp K) (hA : A = K + diagonal (tau g K N st.etaK))
    {κ u : ℝ} (hκ : IsCondNum g.o.fro (factored g.o.precon A) κ) (hu0 : 0 ≤ u) (hu : u * κ < 1)
    {M' : Mat g.nData g.nData} (hM : NearMat u (factored g.o.precon A) M') {F : ChoFac g.nData} (hFK : FacOf F (scaledBack g.o.precon A M'))
    {w' : Vec g.nData} {X : Arr2} (hX : X.c = g.dim) (hXr : 0 < X.r) {cg : Bool} {o' : EvalOut X.r g.dim}
    (hout' : evalModel g { st with chofac := some F, w := some w' } hp X cg false = .ok o') :
    ∃ out out', evalModelVar g st hp X cg false = .ok out ∧ evalModelVar g { st with chofac := some F, w := some w' } hp X cg false = .ok out' ∧
      (∀ a : Fin X.r, |out'.sig2 a - out.sig2 a| ≤ v * (u * κ / (1 - u * κ))) ∧
      (cg = true → ∃ d d', out.dsig2 = some d ∧ out'.dsig2 = some d' ∧ ∀ (a : Fin X.r) (i : Fin g.dim),
        |d' a i - d a i| ≤ 2 * (v * (u * κ / (1 - u * κ))) * Real.sqrt (2 * slope0 g.kernel * th.get i)) := by
  obtain ⟨N₀, K₀, hs, -⟩ := ready_setup hr.toV hst
  obtain ⟨rfl, rfl, hcov, hτ0⟩ := cov_tau hr.toV hs hN hK
  have hpd := ready_pd hs hF
  have hn : 0 < g.nData := by have := hr.ne; rw [hr.ok.nData]; omega
  rw [← hA] at hcov
  have hApd : A.PosDef := hcov ▸ hpd
  have hu' : IsUnit A.det := (posDef_detne hApd).isUnit
  obtain ⟨F₀, hF₀⟩ := Option.ne_none_iff_exists'.mp hF
  obtain ⟨b, hb, hbn, hb0⟩ := hr.beta
  have hκ0 := condNum_pos hn hκ
  have h0 : 0 ≤ u * κ := mul_nonneg hu0 hκ0.le
  obtain ⟨hsy, ha, hb'⟩ := scaledBack_near hn hApd hκ hu0 hM
  have hgap := inv_gap hApd hsy h0 hu ha hb'
  have hvp := hr.toV.vpos
  set c := u * κ / (1 - u * κ) with hc
  have hc0 : 0 ≤ c := div_nonneg h0 (by linarith)
  have hok := evalModelBy_ok hr.ok hr.adm hr.varK hb hbn (st := { st with chofac := some F, w := some w' }) (F := F) rfl hs.hp_eq rfl hX
    hXr hr.toV.mask (choSolve F) cg rfl
  rw [evalModelBy_exact (st := { st with chofac := some F, w := some w' }) (F := F) rfl cg] at hok
  have hnn := not_imp_not.mpr hok.1 (by rw [hout']; intro h; cases h)
  push Not at hnn
  have hnn' : ∀ a : Fin X.r, 0 ≤ v * s2F g hp F.mat (X.get a) := fun a => mul_nonneg hvp.le (hnn a)
  have e1 := evalModelVar_fac hr.ok hr.adm hr.varK hb hbn (st := { st with chofac := some F, w := some w' }) hs.hp_eq rfl hX hXr hr.mask cg hnn'
  rw [hFK.mat] at e1
  set K' := scaledBack g.o.precon A M' with hK'
  have hred : ∀ x, 0 ≤ kv g hp x ⬝ᵥ A⁻¹ *ᵥ kv g hp x ∧ kv g hp x ⬝ᵥ A⁻¹ *ᵥ kv g hp x ≤ 1 := fun x =>
    let h := reduction_le hr.ok hr.adm hK hτ0 hA hApd x
    ⟨h.1, h.2.1⟩
  have e2 := evalModelVar_ok hr.ok hr.adm hvp hr.varK hb hbn (by rw [hb0]; exact hs) (hs.etaNonneg hr.eta) hF₀ hX hXr hr.mask cg
  refine ⟨_, _, e2, e1, fun a => ?_, fun hcg => ?_⟩
  · simp only [s2F, hcov]
    rw [← mul_sub, abs_mul, abs_of_pos hvp, sub_sub_sub_cancel_left, abs_sub_comm]
    refine mul_le_mul_of_nonneg_left (abs_le_of_sq_le_sq ((hgap _ _).trans ?_) hc0) hvp.le
    obtain ⟨r0, r1⟩ := hred (X.get a)
    have : (kv g hp (X.get a) ⬝ᵥ A⁻¹ *ᵥ kv g hp (X.get a)) * (kv g hp (X.get a) ⬝ᵥ A⁻¹ *ᵥ kv g hp (X.get a)) ≤ 1 := by nlinarith
    calc _ ≤ c ^ 2 * 1 := mul_le_mul_of_nonneg_left this (sq_nonneg _)
      _ = _ := mul_one _
  · subst hcg
    refine ⟨_, _, rfl, rfl, fun a i => ?_⟩
    simp only [of_apply, hcov]
    set x := X.get a with hx
    set z := A⁻¹ *ᵥ kd g hp x i with hz
    -- the derivative of the kernel functions has norm at most `√(2 c θ_i)`
    have hzA : z ⬝ᵥ A *ᵥ z = kd g hp x i ⬝ᵥ z := by
      rw [hz, mulVec_mulVec, mul_nonsing_inv _ hu', one_mulVec, dotProduct_comm]
    have hq0 : 0 ≤ kd g hp x i ⬝ᵥ z := by rw [← hzA]; simpa using hApd.posSemidef.dotProduct_mulVec_nonneg z
    have hzK : z ⬝ᵥ K *ᵥ z ≤ kd g hp x i ⬝ᵥ z := by
      rw [← hzA, hA, add_mulVec, dotProduct_add]
      have : 0 ≤ z ⬝ᵥ diagonal (tau g K N st.etaK) *ᵥ z := by
        simp only [dotProduct, mulVec_diagonal]
        exact Finset.sum_nonneg fun q _ => by nlinarith [hτ0 q, sq_nonneg (z q), mul_nonneg (hτ0 q) (sq_nonneg (z q))]
      linarith
    obtain ⟨th', hth', hn', hpos⟩ := hr.adm.theta
    obtain rfl := Option.some.inj (hth.symm.trans hth')
    have hi := hpos i i.2
    have hc' := slope0_pos g.kernel
    set S := 2 * slope0 g.kernel * th.get i with hS
    have hS0 : 0 ≤ S := by positivity
    have hkd : kd g hp x i ⬝ᵥ z ≤ S := by
      have h1 := (dkern_norm hr.ok hr.adm hth hK z x i).trans (mul_le_mul_of_nonneg_left hzK hS0)
      rcases hq0.eq_or_lt with h | h
      · rw [← h]; exact hS0
      · exact le_of_mul_le_mul_right (by rw [← sq]; exact h1) h
    obtain ⟨r0, r1⟩ := hred x
    have hg2 : |kd g hp x i ⬝ᵥ K'⁻¹ *ᵥ kv g hp x - kd g hp x i ⬝ᵥ A⁻¹ *ᵥ kv g hp x| ≤ c * Real.sqrt S := by
      refine abs_le_of_sq_le_sq ((hgap _ _).trans ?_) (mul_nonneg hc0 (Real.sqrt_nonneg _))
      rw [mul_pow, Real.sq_sqrt hS0]
      refine mul_le_mul_of_nonneg_left ?_ (sq_nonneg _)
      calc _ ≤ S * 1 := mul_le_mul hkd r1 r0 hS0
        _ = _ := mul_one _
    have e3 : -2 * (kd g hp x i ⬝ᵥ K'⁻¹ *ᵥ kv g hp x) * v - -2 * (kd g hp x i ⬝ᵥ A⁻¹ *ᵥ kv g hp x) * v =
        -(2 * v) * (kd g hp x i ⬝ᵥ K'⁻¹ *ᵥ kv g hp x - kd g hp x i ⬝ᵥ A⁻¹ *ᵥ kv g hp x) := by ring
    rw [e3, abs_mul, abs_neg, abs_of_pos (by positivity : 0 < 2 * v)]
    calc _ ≤ 2 * v * (c * Real.sqrt S) := mul_le_mul_of_nonneg_left hg2 (by positivity)
      _ = _ := by ring

/-- **C136.** Wherever the predicted standard deviation is zero (at an evaluated point of a model without noise and nugget), the factor of a matrix arbitrarily
near the right one makes `eval_model` raise, so the condition that it does not raise cannot be dropped. -/
theorem C136_raises {g : Gp} {hp : HpVals} {v β : ℝ} (hr : ReadyV g hp v β) {cc : Bool} {st : EvalState g.nData}
    (hst : setupEvalModel g hp cc = .ok st) (hF : st.chofac ≠ none) {N : Vec g.nData} {K A : Mat g.nData g.nData} (hN : IsNoise g hp N)
    (hK : IsKern g hp K) (hA : A = K + diagonal (tau g K N st.etaK)) {X : Arr2} (hX : X.c = g.dim) (hXr : 0 < X.r) {cg : Bool} {out : EvalOut X.r g.dim}
    (ho : evalModel g st hp X cg false = .ok out) {a : Fin X.r} (ha : out.sig a = 0) {u : ℝ} (hu0 : 0 < u) (hu : u < 1) :
    ∃ M' F, NearMat u (factored g.o.precon A) M' ∧ FacOf F (scaledBack g.o.precon A M') ∧
      ∀ w' : Vec g.nData, evalModel g { st with chofac := some F, w := some w' } hp X cg false = .error .assertion := by
  obtain ⟨N₀, K₀, hs, -⟩ := ready_setup hr hst
  obtain ⟨rfl, rfl, hcov, hτ0⟩ := cov_tau hr hs hN hK
  have hpd := ready_pd hs hF
  rw [← hA] at hcov
  have hApd : A.PosDef := hcov ▸ hpd
  have hMpd := factored_pd (p := g.o.precon) hApd
  set M := factored g.o.precon A with hM
  have h1u : 0 < 1 - u := by linarith
  have hback : scaledBack g.o.precon A ((1 - u) • M) = (1 - u) • A := by
    have hb := factored_back (p := g.o.precon) hApd
    rw [← hM] at hb
    conv_rhs => rw [← hb]
    unfold scaledBack
    split
    · ext i j
      simp only [of_apply, Matrix.smul_apply, smul_eq_mul]
      ring
    · rfl
  have hpd' : ((1 - u) • A).PosDef := hApd.smul h1u
  obtain ⟨F, hF'⟩ := (choFactor_isSome_iff (b := true)).mpr hpd'
  have hFm := choFactor_mat hF'
  refine ⟨(1 - u) • M, F, ⟨fun i j => ?_, fun hi hhi x => ?_⟩, ?_, fun w' => ?_⟩
  · have := hMpd.1.apply i j
    simp only [star_trivial] at this
    simp [this]
  · have e : (1 - u) • M - M = -(u • M) := by rw [sub_smul, one_smul]; abel
    have h0 : 0 ≤ x ⬝ᵥ M *ᵥ x := by simpa using hMpd.posSemidef.dotProduct_mulVec_nonneg x
    rw [e, neg_mulVec, dotProduct_neg, abs_neg, smul_mulVec, dotProduct_smul, smul_eq_mul, abs_of_nonneg (mul_nonneg hu0.le h0), mul_assoc]
    exact mul_le_mul_of_nonneg_left (hhi.2 x) hu0.le
  · rw [hback]
    exact ⟨hFm, hpd', choFactor_logDet hF'⟩
  · obtain ⟨b, hb, hbn, hb0⟩ := hr.beta
    have hok := evalModelBy_ok hr.ok hr.adm hr.varK hb hbn (st := { st with chofac := some F, w := some w' }) (F := F) rfl hs.hp_eq rfl hX
      hXr hr.mask (choSolve F) cg rfl
    rw [evalModelBy_exact (st := { st with chofac := some F, w := some w' }) (F := F) rfl cg] at hok
    refine hok.1 ⟨a, ?_⟩
    have hcol : (fun q => choSolve F (of fun q (a : Fin X.r) => kv g hp (X.get a) q) q a) = ((1 - u) • A)⁻¹ *ᵥ kv g hp (X.get a) := by
      unfold choSolve
      rw [hFm]
      rfl
    rw [hcol, smul_inv_mulVec hApd h1u, dotProduct_smul, smul_eq_mul]
    obtain ⟨out₀, ho₀, -, hsg⟩ := ready_vals hr hs hF hX hXr cg
    obtain rfl := Except.ok.inj (ho.symm.trans ho₀)
    have h1 := sgF_sq hr hs hF (X.get a)
    rw [hsg] at ha
    simp only at ha
    rw [ha, s2F, hcov] at h1
    have hv := hr.vpos.ne'
    have h2 : kv g hp (X.get a) ⬝ᵥ A⁻¹ *ᵥ kv g hp (X.get a) = 1 := by
      have : v * (1 - kv g hp (X.get a) ⬝ᵥ A⁻¹ *ᵥ kv g hp (X.get a)) = 0 := by linarith
      have := (mul_eq_zero.mp this).resolve_left hv
      linarith
    rw [h2, mul_one, sub_neg]
    exact (one_lt_inv₀ h1u).mpr (by linarith)

/-- The hypotheses of C136 are met: three noisy evaluations and the factor of a slightly larger matrix, with which `eval_model` does not raise. -/
example : ∃ (st : EvalState (exGpSeq (fun x => x 0) 2).nData) (F : ChoFac (exGpSeq (fun x => x 0) 2).nData) (w' : Vec 3) (c : ℝ) (out out' : EvalOut 1 2),
    0 < c ∧ c ≤ 1 ∧ setupEvalModel (exGpSeq (fun x => x 0) 2) exHpQuiet false = .ok st ∧ F.mat ≠ st.KernEta ∧
    evalModel (exGpSeq (fun x => x 0) 2) st exHpQuiet ⟨1, 2, fun _ _ => 0⟩ true false = .ok out ∧
    evalModel (exGpSeq (fun x => x 0) 2) { st with chofac := some F, w := some w' } exHpQuiet ⟨1, 2, fun _ _ => 0⟩ true false = .ok out' ∧
    |out'.sig 0 ^ 2 - out.sig 0 ^ 2| ≤ 3 * c ∧ out'.dmu.isSome ∧
    ∃ o, evalModelVar (exGpSeq (fun x => x 0) 2) { st with chofac := some F, w := some w' } exHpQuiet ⟨1, 2, fun _ _ => 0⟩ true false = .ok o := by
  set h : Pt → ℝ := fun x => x 0
  have hη : if (exGpSeq h 2).o.etaConst then 0 < (exGpSeq h 2).o.etaK else 1 < (exGpSeq h 2).o.condMaxTarget := by
    norm_num [exGpSeq]
  have hr := (exReadySeq h 2).toV
  obtain ⟨st, h1, h2⟩ := ready_total hr hη
  obtain ⟨N, K, hs, hN⟩ := ready_setup hr h1
  have hτ : ∀ q, 0 < tau (exGpSeq h 2) K N st.etaK q := by
    intro q
    obtain ⟨A, hA, hNA⟩ := hN
    have h4 := hA.val q q.2
    have h5 := hs.etaConst rfl
    unfold tau
    rw [hNA, h4, h5]
    norm_num [exGpSeq, valVar, exGpQuiet, exGp]
  set X : Arr2 := ⟨1, 2, fun _ _ => 0⟩ with hX
  set k := kv (exGpSeq h 2) exHpQuiet (X.get 0) with hk
  set Q := ∑ q, k q ^ 2 / tau (exGpSeq h 2) K N st.etaK q with hQ
  have hQ0 : 0 ≤ Q := Finset.sum_nonneg fun q _ => div_nonneg (sq_nonneg _) (hτ q).le
  have hpd := ready_pd hs h2
  have hcov : st.KernEta = K + diagonal (tau (exGpSeq h 2) K N st.etaK) := hs.cov
  have hn : 0 < (exGpSeq h 2).nData := Nat.succ_pos 2
  have hcr : ∀ (a : Fin X.r) (k' : Vec (exGpSeq h 2).nData), IsCross (exGpSeq h 2) exHpQuiet (X.get a) k' → k' = k := by
    intro a k' hk'
    rw [isCross_eq hr.ok hr.adm hk']
  have hκ := isCondNum_condNum (o := (exGpSeq h 2).o) hn (factored_pd (p := (exGpSeq h 2).o.precon) hpd)
  set κ := condNum (exGpSeq h 2).o (factored (exGpSeq h 2).o.precon st.KernEta)
  have hκ0 := condNum_pos hn hκ
  set u : ℝ := 1 / (κ * (2 + Q)) with hu
  have hu0 : 0 < u := by positivity
  have huκ : u * κ = 1 / (2 + Q) := by rw [hu]; field_simp
  have hlt : u * κ < 1 := by rw [huκ, div_lt_one (by linarith)]; linarith
  have hc : u * κ / (1 - u * κ) = 1 / (1 + Q) := by
    rw [huκ]
    have : (2 + Q) ≠ 0 := by linarith
    have : (1 + Q) ≠ 0 := by linarith
    have e : 1 - 1 / (2 + Q) = (1 + Q) / (2 + Q) := by field_simp; ring
    rw [e]
    field_simp
  obtain ⟨c1, c2⟩ := C136_inexact_factor hr h1 h2 hN hs.isKern hcov hs.data hκ hu0.le hlt (nearMat_smul (factored_pd hpd) hu0.le)
  obtain ⟨F, hF⟩ := c1
  obtain ⟨d1, d2⟩ := c2 F hF (X := X) rfl Nat.one_pos true
  obtain ⟨out', ho'⟩ := d2 hτ fun a k' hk' => by
    rw [hcr a k' hk', hc]
    exact (div_mul_cancel₀ 1 (by linarith : (1 + Q) ≠ 0)).le
  obtain ⟨out, ho, hb⟩ := d1 out' ho'
  obtain ⟨-, -, dmu', -, -, hdm, -⟩ := C136_gradient (exReadySeq h 2) h1 h2 (th := exTheta) rfl hN hs.isKern hcov hs.data hκ hu0.le hlt
    (nearMat_smul (factored_pd hpd) hu0.le) hF (X := X) rfl Nat.one_pos ho'
  obtain ⟨-, o', -, ho2, -⟩ := C136_variance (exReadySeq h 2) h1 h2 (th := exTheta) rfl hN hs.isKern hcov hκ hu0.le hlt
    (nearMat_smul (factored_pd hpd) hu0.le) hF (X := X) rfl Nat.one_pos ho'
  refine ⟨st, F, _, 1 / (1 + Q), out, out', by positivity, by rw [div_le_one (by linarith)]; linarith, h1, ?_, ho, ho', ?_, by rw [hdm]; rfl, o', ho2⟩
  · rw [hF.mat]
    intro e
    have e' := congrFun (congrFun e ⟨0, hn⟩) ⟨0, hn⟩
    have hd : 0 < st.KernEta ⟨0, hn⟩ ⟨0, hn⟩ := hpd.diag_pos
    have e2 : (1 + u) * st.KernEta ⟨0, hn⟩ ⟨0, hn⟩ = st.KernEta ⟨0, hn⟩ ⟨0, hn⟩ := e'
    nlinarith
  · have := (hb 0).2.1
    rwa [hc] at this

/-- The hypotheses of `C136_raises` are met: a prediction at the evaluated point of this model. -/
example : ∃ (st : EvalState 1) (out : EvalOut 1 2), setupEvalModel exGpAlone exHpQuiet false = .ok st ∧
    evalModel exGpAlone st exHpQuiet ⟨1, 2, fun _ d => d + 1⟩ true false = .ok out ∧ out.sig 0 = 0 ∧
    ∃ (F : ChoFac 1) (w' : Vec 1), evalModel exGpAlone { st with chofac := some F, w := some w' } exHpQuiet ⟨1, 2, fun _ d => d + 1⟩ true false =
      .error .assertion := by
  have hr := exReadyAlone.toV
  obtain ⟨N, K, st, h1, hs⟩ := GP.setup_ok hr.ok hr.adm hr.noise hr.precon hr.ne hr.vpos hr.varK (beta := ⟨1, fun _ => 4⟩) rfl rfl false
  obtain ⟨A, hA, hNA⟩ := hs.noise
  have hN : IsNoise exGpAlone exHpQuiet N := ⟨A, hA, fun i => by rw [hNA]; rfl⟩
  have hpd : st.KernEta.PosDef := by
    obtain ⟨-, -, hcov, hτ⟩ := cov_tau hr hs hN hs.isKern
    refine posDef_one (M := st.KernEta) ?_
    have h3 := hτ ⟨0, Nat.one_pos⟩
    have h4 := hs.diag ⟨0, Nat.one_pos⟩
    have h5 : st.KernEta ⟨0, Nat.one_pos⟩ ⟨0, Nat.one_pos⟩ = K ⟨0, Nat.one_pos⟩ ⟨0, Nat.one_pos⟩ + tau exGpAlone K N st.etaK ⟨0, Nat.one_pos⟩ := by
      rw [hcov, Matrix.add_apply, diagonal_apply_eq]
    show 0 < st.KernEta ⟨0, Nat.one_pos⟩ ⟨0, Nat.one_pos⟩
    rw [h5]
    linarith
  obtain ⟨F, hF⟩ := hs.facSome (.inl rfl) hpd
  have hF' : st.chofac ≠ none := by rw [hF]; exact Option.some_ne_none F
  obtain ⟨out, k1, k2⟩ := C125_near_data hr h1 hF' hN hs.isKern (X := ⟨1, 2, fun _ d => d + 1⟩) rfl Nat.one_pos true
  have hτ0 : tau exGpAlone K N st.etaK ⟨0, Nat.one_pos⟩ = 0 := by
    have h4 := hA.val 0 (by decide)
    have h5 := hs.etaConst rfl
    unfold tau
    rw [hNA, h5]
    show A.get 0 + _ = 0
    rw [h4]
    norm_num [exGpAlone, valVar, exGpQuiet, exGp]
  have h6 := (k2 ⟨0, Nat.one_pos⟩ ⟨0, Nat.one_pos⟩ Nat.one_pos).2 (fun d _ => rfl)
  rw [hτ0] at h6
  simp only [zero_div, mul_zero, Real.sqrt_zero] at h6
  obtain ⟨o₂, j1, j2⟩ := C37_variance_bounds hr h1 hF' (X := ⟨1, 2, fun _ d => d + 1⟩) rfl Nat.one_pos true
  rw [k1] at j1
  cases j1
  have h7 : out.sig ⟨0, Nat.one_pos⟩ = 0 := le_antisymm h6 (j2 ⟨0, Nat.one_pos⟩).1
  obtain ⟨-, F', -, -, h8⟩ := C136_raises hr h1 hF' hN hs.isKern rfl (X := ⟨1, 2, fun _ d => d + 1⟩) rfl Nat.one_pos k1 h7 (u := 1 / 2) (by norm_num)
    (by norm_num)
  exact ⟨st, out, h1, k1, h7, F', _, h8 0⟩

end Props
