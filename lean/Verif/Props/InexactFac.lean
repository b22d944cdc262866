import Verif.Proofs.InexactFac
import Verif.Props.Restate
import Verif.Props.CondPlot

/-! Claim theorems for C135: the likelihood computed with the factor of a matrix near the covariance matrix. -/

open Np GP Spec Matrix

noncomputable section

namespace Props

section
variable {n b : ℕ} {K K' : Mat n n} {ε : ℝ}

/-- `-log (1 - ε)` bounds the logarithm of a ratio between `1 - ε` and `1 + ε`. -/
theorem log_gap {x y : ℝ} (hx : 0 < x) (h0 : 0 ≤ ε) (h1 : ε < 1) (ha : (1 - ε) * x ≤ y) (hb : y ≤ (1 + ε) * x) :
    |Real.log y - Real.log x| ≤ Real.log (1 / (1 - ε)) := by
  have h2 : 0 < 1 - ε := by linarith
  have hy : 0 < y := (mul_pos h2 hx).trans_le ha
  rw [one_div, Real.log_inv, abs_le]
  constructor
  · have := Real.log_le_log (mul_pos h2 hx) ha
    rw [Real.log_mul h2.ne' hx.ne'] at this
    linarith
  · have h3 : y * (1 - ε) ≤ x := by nlinarith
    have := Real.log_le_log (mul_pos hy h2) h3
    rw [Real.log_mul hy.ne' h2.ne'] at this
    linarith

theorem logdet_gap (hK : K.PosDef) (hs : K'.IsHermitian) (h0 : 0 ≤ ε) (h1 : ε < 1) (ha : ∀ x, (1 - ε) * (x ⬝ᵥ K *ᵥ x) ≤ x ⬝ᵥ K' *ᵥ x)
    (hb : ∀ x, x ⬝ᵥ K' *ᵥ x ≤ (1 + ε) * (x ⬝ᵥ K *ᵥ x)) : |Real.log K'.det - Real.log K.det| ≤ n * Real.log (1 / (1 - ε)) := by
  have h2 : 0 < 1 - ε := by linarith
  obtain ⟨d1, d2⟩ := det_sandwich hK hs h2.le ha hb
  have hd := hK.det_pos
  have hd' : 0 < K'.det := (mul_pos (pow_pos h2 n) hd).trans_le d1
  rw [one_div, Real.log_inv, abs_le]
  constructor
  · have := Real.log_le_log (mul_pos (pow_pos h2 n) hd) d1
    rw [Real.log_mul (pow_pos h2 n).ne' hd.ne', Real.log_pow] at this
    linarith
  · have := Real.log_le_log hd' d2
    rw [Real.log_mul (pow_pos (by linarith) n).ne' hd.ne', Real.log_pow] at this
    have h3 : Real.log (1 + ε) ≤ -Real.log (1 - ε) := by
      have h4 : (1 + ε) * (1 - ε) ≤ 1 := by nlinarith
      have := Real.log_le_log (by positivity) h4
      rw [Real.log_mul (by linarith) h2.ne', Real.log_one] at this
      linarith
    have := mul_le_mul_of_nonneg_left h3 (Nat.cast_nonneg (α := ℝ) n)
    linarith

theorem rss_gap (hK : K.PosDef) (hs : K'.IsHermitian) (h0 : 0 ≤ ε) (h1 : ε < 1) (ha : ∀ x, (1 - ε) * (x ⬝ᵥ K *ᵥ x) ≤ x ⬝ᵥ K' *ᵥ x)
    (hb : ∀ x, x ⬝ᵥ K' *ᵥ x ≤ (1 + ε) * (x ⬝ᵥ K *ᵥ x)) {V : Mat n b} (hV : FullRank V) (y : Vec n) :
    (1 - ε) * rss K' V y ≤ rss K V y ∧ rss K V y ≤ (1 + ε) * rss K' V y := by
  have h2 : 0 < 1 - ε := by linarith
  have hK' := pd_of_quad hK hs h2 ha
  have e1 := rss_le_of_quad hK hK' (a := 1 / (1 - ε)) (by positivity) (fun x => by
    have := ha x
    rw [one_div, ← div_eq_inv_mul, le_div_iff₀ h2]
    linarith) hV y
  have e2 := rss_le_of_quad hK' hK (a := 1 + ε) (by linarith) hb hV y
  refine ⟨?_, e2⟩
  rw [one_div, ← div_eq_inv_mul, le_div_iff₀ h2] at e1
  linarith

/-- The generalised least squares fits differ little in the metric of the covariance matrix. -/
theorem gls_gap (hK : K.PosDef) (hs : K'.IsHermitian) (h0 : 0 ≤ ε) (h1 : ε < 1) (ha : ∀ x, (1 - ε) * (x ⬝ᵥ K *ᵥ x) ≤ x ⬝ᵥ K' *ᵥ x)
    (hb : ∀ x, x ⬝ᵥ K' *ᵥ x ≤ (1 + ε) * (x ⬝ᵥ K *ᵥ x)) {V : Mat n b} (hV : FullRank V) (y : Vec n) :
    maha K (V *ᵥ (gls K V y - gls K' V y)) ≤ 2 * ε / (1 - ε) * rss K V y := by
  have h2 : 0 < 1 - ε := by linarith
  have hK' := pd_of_quad hK hs h2 ha
  have s1 := maha_split hK hV y (gls K' V y)
  have e1 := maha_le_of_quad hK' hK (a := 1 + ε) (by linarith) hb (y - V *ᵥ gls K' V y)
  obtain ⟨r1, -⟩ := rss_gap hK hs h0 h1 ha hb hV y
  have r2 : rss K V y = maha K (y - V *ᵥ gls K V y) := rfl
  have r3 : rss K' V y = maha K' (y - V *ᵥ gls K' V y) := rfl
  rw [← r2] at s1
  rw [← r3] at e1
  rw [div_mul_eq_mul_div, le_div_iff₀ h2]
  have t1 := mul_le_mul_of_nonneg_right e1 h2.le
  have t2 := mul_le_mul_of_nonneg_left r1 (by linarith : (0 : ℝ) ≤ 1 + ε)
  nlinarith

theorem varOf_gap (hK : K.PosDef) (hs : K'.IsHermitian) (h0 : 0 ≤ ε) (h1 : ε < 1) (ha : ∀ x, (1 - ε) * (x ⬝ᵥ K *ᵥ x) ≤ x ⬝ᵥ K' *ᵥ x)
    (hb : ∀ x, x ⬝ᵥ K' *ᵥ x ≤ (1 + ε) * (x ⬝ᵥ K *ᵥ x)) {V : Mat n b} (hV : FullRank V) (y : Vec n) :
    (1 - ε) * varOf K' V y ≤ varOf K V y ∧ varOf K V y ≤ (1 + ε) * varOf K' V y := by
  obtain ⟨r1, r2⟩ := rss_gap hK hs h0 h1 ha hb hV y
  have hn : (0 : ℝ) ≤ (n : ℝ)⁻¹ := inv_nonneg.mpr (Nat.cast_nonneg n)
  have hm := varKMin_pos
  unfold varOf
  constructor
  · rw [mul_max_of_nonneg _ _ (by linarith)]
    refine max_le_max ?_ ?_
    · nlinarith
    · calc (1 - ε) * (rss K' V y / n) = (1 - ε) * rss K' V y * (n : ℝ)⁻¹ := by ring
        _ ≤ rss K V y * (n : ℝ)⁻¹ := mul_le_mul_of_nonneg_right r1 hn
        _ = _ := by ring
  · rw [mul_max_of_nonneg _ _ (by linarith)]
    refine max_le_max ?_ ?_
    · nlinarith
    · calc rss K V y / n = rss K V y * (n : ℝ)⁻¹ := by ring
        _ ≤ (1 + ε) * rss K' V y * (n : ℝ)⁻¹ := mul_le_mul_of_nonneg_right r2 hn
        _ = _ := by ring

end

/-- An eigenvalue is at most the Frobenius norm. -/
theorem eig_le_fro {n : ℕ} {M : Mat n n} {l : ℝ} {x : Vec n} (hx : x ≠ 0) (h : M *ᵥ x = l • x) (hl : 0 ≤ l) : l ≤ Real.sqrt (∑ i, ∑ j, M i j ^ 2) := by
  have hxx : 0 < x ⬝ᵥ x := by
    have := dotProduct_star_self_pos_iff.mpr hx
    simpa using this
  have h1 : l ^ 2 * (x ⬝ᵥ x) ≤ (∑ i, ∑ j, M i j ^ 2) * (x ⬝ᵥ x) := by
    calc l ^ 2 * (x ⬝ᵥ x) = (l • x) ⬝ᵥ (l • x) := by rw [smul_dotProduct, dotProduct_smul, smul_eq_mul, smul_eq_mul]; ring
      _ = ∑ i, (∑ j, M i j * x j) ^ 2 := by rw [← h]; simp only [dotProduct, mulVec, sq]
      _ ≤ ∑ i, (∑ j, M i j ^ 2) * (∑ j, x j ^ 2) := Finset.sum_le_sum fun i _ => Finset.sum_mul_sq_le_sq_mul_sq _ _ _
      _ = _ := by rw [← Finset.sum_mul]; simp only [dotProduct, sq]
  exact Real.le_sqrt_of_sq_le (le_of_mul_le_mul_right h1 hxx)

/-- The condition number in the 2-norm is at most that in the other norm. -/
theorem cond_two_le {fro : Bool} {n : ℕ} (hn : 0 < n) {M : Mat n n} (hM : M.PosDef) {κ : ℝ} (h : IsCondNum fro M κ) :
    ∃ κ₂, IsCondNum false M κ₂ ∧ κ₂ ≤ κ := by
  cases fro with
  | false => exact ⟨κ, h, le_rfl⟩
  | true =>
    have h2 : IsCondNum false M (cond2 M) :=
      isCondNum_condNum (o := { precon := false, etaConst := true, etaK := 0, condMaxTarget := 0, condMax := 0, condMaxAbs := 0, fro := false }) hn hM
    refine ⟨_, h2, ?_⟩
    unfold IsCondNum at h h2
    simp only [if_true, Bool.false_eq_true, if_false] at h h2
    obtain ⟨B, hB1, hB2, rfl⟩ := h
    obtain ⟨lo, hi, ⟨⟨x, hx, hxl⟩, -⟩, ⟨⟨z, hz, hzl⟩, hz2⟩, hlo, e⟩ := h2
    have hxx : 0 < x ⬝ᵥ x := by
      have := dotProduct_star_self_pos_iff.mpr hx
      simpa using this
    have hhi : 0 ≤ hi := by
      have h1 := hz2 x
      rw [hxl, dotProduct_smul, smul_eq_mul] at h1
      exact hlo.le.trans (le_of_mul_le_mul_right h1 hxx)
    have hBx : B *ᵥ x = (1 / lo) • x := by
      have : B *ᵥ (M *ᵥ x) = x := by rw [mulVec_mulVec, hB2, one_mulVec]
      rw [hxl, mulVec_smul] at this
      rw [← this, smul_smul, this]
      rw [one_div, inv_mul_cancel₀ hlo.ne', one_smul]
    rw [e, div_eq_mul_one_div]
    exact mul_le_mul (eig_le_fro hz hzl hhi) (eig_le_fro hx hBx (by positivity)) (by positivity) (Real.sqrt_nonneg _)

/-- The covariance matrix is the recorded matrix scaled back. -/
theorem scaledBack_cov {p : Bool} {n : ℕ} {v : ℝ} {K : Mat n n} {N : Vec n} {η : ℝ} (hpd : (noisyCov p v K N η).PosDef) :
    scaledBack p (noisyCov p v K N η) (condMat p v K N η) = noisyCov p v K N η := by
  unfold scaledBack condMat
  cases p with
  | false => rfl
  | true =>
    simp only [if_true]
    ext i j
    have h : ∀ i, Real.sqrt (noisyCov true v K N η i i) ≠ 0 := fun i => (Real.sqrt_pos.mpr (hpd.diag_pos (i := i))).ne'
    simp only [of_apply, unitDiag]
    have h1 := h i
    have h2 := h j
    field_simp

theorem condMat_pd {p : Bool} {n : ℕ} {v : ℝ} {K : Mat n n} {N : Vec n} {η : ℝ} (hpd : (noisyCov p v K N η).PosDef) : (condMat p v K N η).PosDef := by
  cases p with
  | false => exact hpd
  | true =>
    have hs : ∀ i, 0 < Real.sqrt (noisyCov true v K N η i i) := fun i => Real.sqrt_pos.mpr hpd.diag_pos
    refine (posDef_diag_conj (A := condMat true v K N η) hs).mp ?_
    have e := scaledBack_cov hpd
    have : (diagonal fun i => Real.sqrt (noisyCov true v K N η i i)) * condMat true v K N η * (diagonal fun i => Real.sqrt (noisyCov true v K N η i i)) =
        noisyCov true v K N η := by
      conv_rhs => rw [← e]
      ext i j
      simp only [scaledBack, if_true, of_apply, mul_diagonal, diagonal_mul]
    rw [this]
    exact hpd

theorem scaledBack_quad {p : Bool} {n : ℕ} {A : Mat n n} (M : Mat n n) (x : Vec n) :
    x ⬝ᵥ scaledBack p A M *ᵥ x = (fun i => if p then Real.sqrt (A i i) * x i else x i) ⬝ᵥ M *ᵥ (fun i => if p then Real.sqrt (A i i) * x i else x i) := by
  unfold scaledBack
  cases p with
  | false => simp
  | true =>
    simp only [if_true, dotProduct, mulVec, of_apply, Finset.mul_sum]
    refine Finset.sum_congr rfl fun i _ => Finset.sum_congr rfl fun j _ => by ring

/-- **C135.** The likelihood computed with the factor of a matrix `M'` that differs from the matrix `M` whose condition number `κ` is reported by at most `u`
times its spectral norm. If `u κ < 1` then the factorisation still succeeds, and the fitted mean `β` moves by at most the length given in the metric of the
covariance matrix. Without noise in the data (and without the penalty) the likelihood
changes by at most `n log (1 / (1 - u κ))` and the variance by at most the factors `1 ± u κ`; with noise the likelihood changes by at most half that plus
`u κ / (1 - u κ)` times half the quadratic form of the residuals. -/
theorem C135_inexact_factor {g : Gp} (hg : GpOk g) {hp : HpVals} (hh : HpAdm g hp) (hk : g.useGrad = true ∨ g.knownFval = true)
    (hprec : g.o.precon = true → g.useGrad = true) (hne : 0 < g.nEval) (hη : if g.o.etaConst then 0 < g.o.etaK else 1 < g.o.condMaxTarget)
    (env : LkdEnv) {v : ℝ} (hv : 0 < v) (hvk : if g.noisy then hp.varK = some v else v = 1)
    {li : LkdInfo nBetaCoeff env.info.nHp} (hl : calcLkdAll g env hp true false = .ok (li, true)) {κ : ℝ} (hκ : li.cond = some κ)
    {u : ℝ} (hu0 : 0 ≤ u) (hu : u * κ < 1) {K : Mat g.nData g.nData} {N : Vec g.nData} {η : ℝ} (hK : IsKern g hp K) (hN : IsNoise g hp N)
    (hη' : IsNugget g.o v K N η) {M' : Mat g.nData g.nData} (hM : NearMat u (condMat g.o.precon v K N η) M') :
    (∃ F, FacOf F (scaledBack g.o.precon (noisyCov g.o.precon v K N η) M')) ∧
    ∀ F, FacOf F (scaledBack g.o.precon (noisyCov g.o.precon v K N η) M') →
      ∃ y V li' l l' β β', lkdData g = .ok (y, V) ∧ lkdBody g env y V F none = .ok li' ∧ li.lnLkd = some l ∧ li'.lnLkd = some l' ∧
        li.beta = some (fun _ => β) ∧ li'.beta = some (fun _ => β') ∧
        maha (noisyCov g.o.precon v K N η) (priorMean g (β - β')) ≤
          2 * (u * κ) / (1 - u * κ) * maha (noisyCov g.o.precon v K N η) (y - priorMean g β) ∧
        (g.noisy = false → ∃ w w', li.varK = some w ∧ li'.varK = some w' ∧ (1 - u * κ) * w' ≤ w ∧ w ≤ (1 + u * κ) * w' ∧
          (env.lkd.pnltUse = false → |l' - l| ≤ g.nData * Real.log (1 / (1 - u * κ)))) ∧
        (g.noisy = true → |l' - l| ≤ g.nData / 2 * Real.log (1 / (1 - u * κ)) +
          u * κ / (1 - u * κ) * (maha (noisyCov g.o.precon v K N η) (y - priorMean g β) / 2)) := by
  have hvk' : (vkArg g).or hp.varK = some v := by
    unfold vkArg
    cases hn : g.noisy with
    | true => rw [hn] at hvk; simpa using hvk
    | false => rw [hn] at hvk; simp only [Bool.false_eq_true, if_false] at hvk; rw [hvk]; rfl
  obtain ⟨Na, K₀, out, y, V, li₀, h1, h2, h3, h4, h5, h6, h7, h8, h9, h10, h11, h12, h13, h14, h15⟩ := lkd_form hg hh hk hprec hne hη env true hv hvk'
  rw [hl] at h12
  have hpair := Except.ok.inj h12
  obtain rfl : li = li₀ := congrArg Prod.fst hpair
  have hfs : out.chofac.isSome = true := (congrArg Prod.snd hpair).symm
  have hn : 0 < g.nData := by rw [hg.nData]; omega
  obtain rfl := isKern_unique hg hh hK h2
  obtain rfl := isNoise_unique hg hN (⟨Na, h1, fun i => rfl⟩ : IsNoise g hp (toVec g.nData Na))
  set N := toVec g.nData Na
  obtain rfl : η = out.etaK := nugget_unique hη' (cov_nugget hv hn h6)
  have hcov : out.Kcov = noisyCov g.o.precon v K N out.etaK := cov_noisyCov hv h6
  obtain ⟨κ₀, k1, k2⟩ := cov_cond hv hn h6 h3 h4 h5 h7
  rw [hfs, Bool.true_or, if_pos rfl, k1] at h14
  obtain rfl : κ₀ = κ := Option.some.inj (h14.symm.trans hκ)
  have hκ0 := condNum_pos hn k2
  set A := noisyCov g.o.precon v K N out.etaK with hA
  set K' := scaledBack g.o.precon A M' with hK'
  have hApd : A.PosDef := hcov ▸ h8
  have h0 : 0 ≤ u * κ₀ := mul_nonneg hu0 hκ0.le
  have hMpd : (condMat g.o.precon v K N out.etaK).PosDef := condMat_pd hApd
  obtain ⟨κ₂, k3, k4⟩ := cond_two_le hn hMpd k2
  have hq : ∀ x, |x ⬝ᵥ K' *ᵥ x - x ⬝ᵥ A *ᵥ x| ≤ u * κ₀ * (x ⬝ᵥ A *ᵥ x) := by
    intro x
    have e := quad_near k3 hM hu0 (fun i => if g.o.precon then Real.sqrt (A i i) * x i else x i)
    rw [sub_mulVec, dotProduct_sub, ← scaledBack_quad, ← scaledBack_quad, scaledBack_cov hApd] at e
    have hx : 0 ≤ x ⬝ᵥ A *ᵥ x := by simpa using hApd.posSemidef.dotProduct_mulVec_nonneg x
    exact e.trans (mul_le_mul_of_nonneg_right (mul_le_mul_of_nonneg_left k4 hu0) hx)
  have ha : ∀ x, (1 - u * κ₀) * (x ⬝ᵥ A *ᵥ x) ≤ x ⬝ᵥ K' *ᵥ x := fun x => by
    have := (abs_le.mp (hq x)).1; linarith
  have hb : ∀ x, x ⬝ᵥ K' *ᵥ x ≤ (1 + u * κ₀) * (x ⬝ᵥ A *ᵥ x) := fun x => by
    have := (abs_le.mp (hq x)).2; linarith
  have hs : K'.IsHermitian := by
    ext i j
    show K' j i = K' i j
    rw [hK']
    unfold scaledBack
    split
    · simp only [of_apply]; rw [hM.symm j i]; ring
    · exact hM.symm j i
  have hpd' : K'.PosDef := pd_of_quad hApd hs (by linarith) ha
  refine ⟨?_, fun F hF => ?_⟩
  · obtain ⟨F, hF⟩ := (choFactor_isSome_iff (b := true)).mpr hpd'
    exact ⟨F, choFactor_mat hF, hpd', choFactor_logDet hF⟩
  · obtain ⟨y₁, V₁, hd, hV, hy, hVe⟩ := lkdData_ok hg hne
    obtain rfl := dataSpec_unique hg hy h9
    have hVV : V₁ = V := by ext q j; rw [hVe, h11]
    subst hVV
    obtain ⟨hbeta, hnoisy, hquiet⟩ := h15 hfs
    rw [hcov] at hbeta hnoisy hquiet
    have hb1 : ∀ c : Vec nBetaCoeff, c = fun _ => c ⟨0, Nat.one_pos⟩ := fun c => by
      funext j
      have := j.2; unfold nBetaCoeff at this
      congr 1; ext; simp; omega
    have hdet := logdet_gap hApd hs h0 hu ha hb
    obtain ⟨r1, r2⟩ := rss_gap hApd hs h0 hu ha hb hV y₁
    have hgl := gls_gap hApd hs h0 hu ha hb hV y₁
    have e0 : rss A V₁ y₁ = maha A (y₁ - V₁ *ᵥ gls A V₁ y₁) := rfl
    rw [e0, basis_mulVec h11, basis_mulVec h11] at hgl
    cases hno : g.noisy with
    | true =>
      obtain ⟨li', e1, eb, -, e4, -⟩ := lkdWNoise_ok (m := env.info.nHp) hF hV y₁ none env.lkd.useAdj
      refine ⟨y₁, V₁, li', _, _, _, _, hd, ?_, hnoisy hno, e4, hbeta.trans (congrArg some (hb1 _)), eb.trans (congrArg some (hb1 _)), hgl, fun h => (nomatch h), fun _ => ?_⟩
      · unfold lkdBody; rw [hno]; exact e1
      · rw [← basis_mulVec h11]
        have e2 : rss A V₁ y₁ = maha A (y₁ - V₁ *ᵥ gls A V₁ y₁) := rfl
        rw [← e2]
        have hp1 : 0 < 1 - u * κ₀ := by linarith
        have hr0 : 0 ≤ rss A V₁ y₁ := maha_nonneg hApd _
        have hr0' : 0 ≤ rss K' V₁ y₁ := maha_nonneg hpd' _
        have hrr : |rss K' V₁ y₁ - rss A V₁ y₁| ≤ u * κ₀ / (1 - u * κ₀) * rss A V₁ y₁ := by
          have t1 := mul_le_mul_of_nonneg_right r2 hp1.le
          have t2 := mul_le_mul_of_nonneg_left r1 h0
          rw [div_mul_eq_mul_div, abs_le, ← neg_div, div_le_iff₀ hp1, le_div_iff₀ hp1]
          constructor <;> nlinarith
        have e3 : -(Real.log K'.det + rss K' V₁ y₁) / 2 - -(Real.log A.det + rss A V₁ y₁) / 2 =
            -((Real.log K'.det - Real.log A.det) + (rss K' V₁ y₁ - rss A V₁ y₁)) / 2 := by ring
        rw [e3, abs_div, abs_neg, abs_two]
        have := abs_add_le (Real.log K'.det - Real.log A.det) (rss K' V₁ y₁ - rss A V₁ y₁)
        have e5 : g.nData / 2 * Real.log (1 / (1 - u * κ₀)) + u * κ₀ / (1 - u * κ₀) * (rss A V₁ y₁ / 2) =
            (g.nData * Real.log (1 / (1 - u * κ₀)) + u * κ₀ / (1 - u * κ₀) * rss A V₁ y₁) / 2 := by ring
        rw [e5]
        linarith
    | false =>
      obtain ⟨li', e1, eb, e3, -, e4, -⟩ := lkdWoNoise_ok (m := env.info.nHp) env.lkd g.fval hF hV y₁ none env.lkd.useAdj
      obtain ⟨q1, q2⟩ := hquiet hno
      refine ⟨y₁, V₁, li', _, _, _, _, hd, ?_, q2, e4, hbeta.trans (congrArg some (hb1 _)), eb.trans (congrArg some (hb1 _)), hgl, fun _ => ?_, fun h => (nomatch h)⟩
      · unfold lkdBody; rw [hno]; exact e1
      · obtain ⟨v1, v2⟩ := varOf_gap hApd hs h0 hu ha hb hV y₁
        refine ⟨_, _, q1, e3, v1, v2, fun hpn => ?_⟩
        have hz : ∀ x, (varKPnlt env.lkd x g.fval).1 = 0 := fun x => by unfold varKPnlt; rw [hpn]; rfl
        have hlv := log_gap (varOf_pos K' V₁ y₁) h0 hu v1 v2
        unfold lkdOf
        rw [hz, hz, sub_zero, sub_zero]
        have e5 : -(g.nData * Real.log (varOf K' V₁ y₁) + Real.log K'.det) / 2 - -(g.nData * Real.log (varOf A V₁ y₁) + Real.log A.det) / 2 =
            (g.nData * (Real.log (varOf A V₁ y₁) - Real.log (varOf K' V₁ y₁)) - (Real.log K'.det - Real.log A.det)) / 2 := by ring
        rw [e5, abs_div, abs_two]
        have h1' := abs_sub (g.nData * (Real.log (varOf A V₁ y₁) - Real.log (varOf K' V₁ y₁))) (Real.log K'.det - Real.log A.det)
        rw [abs_mul, Nat.abs_cast] at h1'
        have h2' := mul_le_mul_of_nonneg_left hlv (Nat.cast_nonneg (α := ℝ) g.nData)
        linarith

/-- **C135.** Without preconditioning a matrix is only used if its condition number is at most the absolute limit `c`, so relative errors up to `u` with
`u c < 1` are bounded as in `C135_inexact_factor` for every admissible vector of hyperparameters, with `u c` in place of `u κ`. -/
theorem C135_within_limit {g : Gp} (hg : GpOk g) {hp : HpVals} (hh : HpAdm g hp) (hk : g.useGrad = true ∨ g.knownFval = true)
    (hpre : g.o.precon = false) (hne : 0 < g.nEval) (hη : if g.o.etaConst then 0 < g.o.etaK else 1 < g.o.condMaxTarget)
    (env : LkdEnv) {v : ℝ} (hv : 0 < v) (hvk : if g.noisy then hp.varK = some v else v = 1)
    {li : LkdInfo nBetaCoeff env.info.nHp} (hl : calcLkdAll g env hp true false = .ok (li, true)) {u : ℝ} (hu0 : 0 ≤ u) (hu : u * g.o.condMaxAbs < 1) :
    ∃ κ, li.cond = some κ ∧ u * κ ≤ u * g.o.condMaxAbs ∧ Real.log (1 / (1 - u * κ)) ≤ Real.log (1 / (1 - u * g.o.condMaxAbs)) ∧
      u * κ / (1 - u * κ) ≤ u * g.o.condMaxAbs / (1 - u * g.o.condMaxAbs) := by
  have hvk' : (vkArg g).or hp.varK = some v := by
    unfold vkArg
    cases hn : g.noisy with
    | true => rw [hn] at hvk; simpa using hvk
    | false => rw [hn] at hvk; simp only [Bool.false_eq_true, if_false] at hvk; rw [hvk]; rfl
  obtain ⟨Na, K₀, out, y, V, li₀, h1, h2, h3, h4, h5, h6, h7, h8, h9, h10, h11, h12, h13, h14, h15⟩ :=
    lkd_form hg hh hk (fun h => by rw [hpre] at h; cases h) hne hη env true hv hvk'
  rw [hl] at h12
  have hpair := Except.ok.inj h12
  obtain rfl : li = li₀ := congrArg Prod.fst hpair
  have hfs : out.chofac.isSome = true := (congrArg Prod.snd hpair).symm
  have hn : 0 < g.nData := by rw [hg.nData]; omega
  have hc := h6.cond
  simp only [if_true, hpre, Bool.false_eq_true, if_false] at hc
  rw [hfs, Bool.true_or, if_pos rfl, hc] at h14
  have hle := h13.mp hfs rfl hpre
  have hm : u * condNum g.o out.Kcov ≤ u * g.o.condMaxAbs := mul_le_mul_of_nonneg_left hle hu0
  have hpos := condNum_pos hn (isCondNum_condNum (o := g.o) hn h8)
  have h0 := mul_nonneg hu0 hpos.le
  have hd : 1 / (1 - u * condNum g.o out.Kcov) ≤ 1 / (1 - u * g.o.condMaxAbs) := one_div_le_one_div_of_le (by linarith) (by linarith)
  refine ⟨_, h14, hm, Real.log_le_log (by apply one_div_pos.mpr; linarith) hd, ?_⟩
  rw [div_le_div_iff₀ (by linarith) (by linarith)]
  nlinarith

/-- A multiple of a matrix is near it. -/
theorem nearMat_smul {n : ℕ} {M : Mat n n} (hM : M.PosDef) {u : ℝ} (hu : 0 ≤ u) : NearMat u M ((1 + u) • M) where
  symm i j := by
    have := hM.1.apply i j
    simp only [star_trivial] at this
    simp [this]
  near hi hhi x := by
    have e : (1 + u) • M - M = u • M := by rw [add_smul, one_smul, add_sub_cancel_left]
    have h0 : 0 ≤ x ⬝ᵥ M *ᵥ x := by simpa using hM.posSemidef.dotProduct_mulVec_nonneg x
    rw [e, smul_mulVec, dotProduct_smul, smul_eq_mul, abs_of_nonneg (mul_nonneg hu h0), mul_assoc]
    exact mul_le_mul_of_nonneg_left (hhi.2 x) hu

-- two evaluations with noise and no preconditioning: the likelihood exists whenever the condition number is small enough, and the error bound applies to it
example (env : LkdEnv) {s t : ℝ} (hs : 0 < s) (ht : 0 < t) {li : LkdInfo nBetaCoeff env.info.nHp}
    (hl : calcLkdAll exGpPairNoisy env (condHp exGpPairNoisy s t) true false = .ok (li, true)) {κ : ℝ} (hκ : li.cond = some κ) {u : ℝ} (hu0 : 0 ≤ u)
    (hu : u * κ < 1) {K : Mat exGpPairNoisy.nData exGpPairNoisy.nData} {N : Vec exGpPairNoisy.nData} {η : ℝ}
    (hK : IsKern exGpPairNoisy (condHp exGpPairNoisy s t) K) (hN : IsNoise exGpPairNoisy (condHp exGpPairNoisy s t) N)
    (hη : IsNugget exGpPairNoisy.o (1 / 10) K N η) (hpd : (condMat exGpPairNoisy.o.precon (1 / 10) K N η).PosDef) :=
  C135_inexact_factor exPairNoisy_ok.ok (pair_adm exPairNoisy_ok hs ht) (.inr rfl) (fun h => (nomatch h)) exPairNoisy_ok.ne exPairNoisy_ok.eta env
    (v := 1 / 10) (by norm_num) rfl hl hκ hu0 hu hK hN hη (nearMat_smul hpd hu0)

-- with gradients and preconditioning the likelihood always exists
example (env : LkdEnv) {t : ℝ} (ht : 0 < t) : ∃ (li : LkdInfo nBetaCoeff env.info.nHp) (κ : ℝ),
    calcLkdAll exGpScan env (sweepHp t) true false = .ok (li, true) ∧ li.cond = some κ := by
  obtain ⟨Na, K, out, y, V, li, h1, h2, h3, h4, h5, h6, h7, h8, -, -, -, h12, h13, h14, -⟩ := lkd_form exScan_ok.ok (scan_adm exScan_ok ht none none) (.inr rfl)
    exScan_ok.prec exScan_ok.ne exScan_ok.eta env true (v := 1) one_pos rfl
  have hfs : out.chofac.isSome = true := h13.mpr fun _ h => (nomatch h)
  rw [hfs] at h12
  rw [hfs, h6.cond] at h14
  exact ⟨li, _, h12, h14⟩

end Props
