import Verif.Model.NuggetFig
import Verif.Props.CondGrad
import Verif.Props.Cond
import Verif.Proofs.EvalCore
import Verif.Props.EvalClose

/-! C118: the nuggets compared by `plt/plt_nugget_1d.py`. -/

open Np GP Spec Matrix ED

noncomputable section

namespace Props

variable {n : ℕ}

theorem eigMax_spec {K : Mat n n} (hn : 0 < n) (hK : K.IsHermitian) : IsMaxEig K (eigMax K) := by
  unfold eigMax; rw [dif_pos hK]
  exact isMax_iff.mpr (isTop_sup hK hn)

theorem eigMin_spec {K : Mat n n} (hn : 0 < n) (hK : K.IsHermitian) : IsMinEig K (eigMin K) := by
  unfold eigMin; rw [dif_pos hK]
  exact isMin_iff.mpr (isMax_iff.mpr (isTop_inf hK hn))

theorem eig_shift {K : Mat n n} {l η : ℝ} {x : Vec n} (h : K *ᵥ x = l • x) : x ⬝ᵥ (K + η • (1 : Mat n n)) *ᵥ x = (l + η) * (x ⬝ᵥ x) := by
  rw [add_mulVec, h, smul_mulVec, one_mulVec, dotProduct_add, dotProduct_smul, dotProduct_smul, smul_eq_mul, smul_eq_mul]
  ring

theorem quad_shift (K : Mat n n) (η : ℝ) (x : Vec n) : x ⬝ᵥ (K + η • (1 : Mat n n)) *ᵥ x = x ⬝ᵥ K *ᵥ x + η * (x ⬝ᵥ x) := by
  rw [add_mulVec, smul_mulVec, one_mulVec, dotProduct_add, dotProduct_smul, smul_eq_mul]

theorem sq_pos_of_ne {x : Vec n} (hx : x ≠ 0) : 0 < x ⬝ᵥ x := by
  simpa using (dotProduct_star_self_pos_iff (v := x)).mpr hx

/-- Which multiples of the identity bring the condition number down to `c`. -/
theorem condLe_iff {K : Mat n n} (hn : 0 < n) (hK : K.PosSemidef) {c : ℝ} (hc : 1 < c) {η : ℝ} (hη : 0 < η) :
    CondLe (K + η • (1 : Mat n n)) c ↔ (eigMax K - eigMin K * c) / (c - 1) ≤ η := by
  obtain ⟨⟨x, hx, ex⟩, hmax⟩ := eigMax_spec hn hK.isHermitian
  obtain ⟨⟨y, hy, ey⟩, hmin⟩ := eigMin_spec hn hK.isHermitian
  have hc' : 0 < c - 1 := by linarith
  have hl0 : 0 ≤ eigMin K := eig_nonneg hK hy ey
  rw [div_le_iff₀ hc']
  constructor
  · rintro ⟨-, lo, hlo, h⟩
    have h1 := (h x).2
    have h2 := (h y).1
    rw [eig_shift ex] at h1
    rw [eig_shift ey] at h2
    have h3 := le_of_mul_le_mul_right h1 (sq_pos_of_ne hx)
    have h4 := le_of_mul_le_mul_right h2 (sq_pos_of_ne hy)
    nlinarith
  · intro h
    refine ⟨fun i j => ?_, eigMin K + η, by linarith, fun z => ?_⟩
    · have := congrFun (congrFun hK.isHermitian.eq j) i
      simp only [conjTranspose_apply, star_trivial] at this
      simp only [Matrix.add_apply, Matrix.smul_apply, Matrix.one_apply, this, eq_comm (a := i)]
    · rw [quad_shift]
      have h1 := hmax z
      have h2 := hmin z
      have h3 : 0 ≤ z ⬝ᵥ z := by simpa using dotProduct_star_self_nonneg z
      constructor
      · linarith
      · have : eigMax K + η ≤ c * (eigMin K + η) := by linarith
        nlinarith [mul_le_mul_of_nonneg_right this h3]

theorem absRow_le_sup (K : Mat n n) (i : Fin n) : ∑ j, |K i j| ≤ ⨆ i, absRowSum K i :=
  le_ciSup (f := absRowSum K) (Set.finite_range _).bddAbove i

theorem sym_of {K : Mat n n} (hK : K.IsHermitian) (i j : Fin n) : K i j = K j i := by
  have := congrFun (congrFun hK.eq i) j
  simpa using this.symm

/-- Trace bound: a matrix with unit diagonal has `λmax + (n - 1) λmin ≤ n`. -/
theorem trace_bound {K : Mat n n} (hn : 0 < n) (hK : K.IsHermitian) (h1 : ∀ i, K i i = 1) :
    eigMax K + ((n : ℝ) - 1) * eigMin K ≤ n := by
  haveI : Nonempty (Fin n) := ⟨⟨0, hn⟩⟩
  have ht := hK.trace_eq_sum_eigenvalues
  simp only [trace, diag_apply, h1, Finset.sum_const, Finset.card_univ, Fintype.card_fin, nsmul_eq_mul, mul_one] at ht
  obtain ⟨i, hi⟩ := exists_eq_ciSup_of_finite (f := hK.eigenvalues)
  unfold eigMax eigMin
  rw [dif_pos hK, dif_pos hK, ← hi]
  have hle : ∀ j, (⨅ i, hK.eigenvalues i) ≤ hK.eigenvalues j := fun j => ciInf_le (Set.finite_range _).bddBelow j
  have hs : ((n : ℝ) - 1) * (⨅ i, hK.eigenvalues i) ≤ ∑ j ∈ Finset.univ.erase i, hK.eigenvalues j := by
    have := Finset.card_nsmul_le_sum (Finset.univ.erase i) hK.eigenvalues _ (fun j _ => hle j)
    rw [Finset.card_erase_of_mem (Finset.mem_univ i), Finset.card_univ, Fintype.card_fin, nsmul_eq_mul,
      Nat.cast_sub hn, Nat.cast_one] at this
    exact this
  have := Finset.add_sum_erase Finset.univ hK.eigenvalues (Finset.mem_univ i)
  have ht' : (n : ℝ) = ∑ j, hK.eigenvalues j := by simpa using ht
  linarith

theorem cond2_eq {K : Mat n n} (hn : 0 < n) (hK : K.PosDef) : 0 < eigMin K ∧ eigMin K ≤ eigMax K ∧ cond2 K = eigMax K / eigMin K := by
  obtain ⟨a, b, ha, hb, hpos, h⟩ := cond2_quot hn hK
  have e1 := maxEig_unique ha (eigMax_spec hn hK.isHermitian)
  have e2 := minEig_unique hb (eigMin_spec hn hK.isHermitian)
  rw [← e1, ← e2]
  refine ⟨hpos, ?_, h⟩
  obtain ⟨⟨x, hx, -⟩, hle⟩ := ha
  exact le_of_mul_le_mul_right ((hb.2 x).trans (hle x)) (sq_pos_of_ne hx)

theorem norm1_ge {K : Mat n n} (hK : K.IsHermitian) {l : ℝ} {x : Vec n} (hx : x ≠ 0) (h : K *ᵥ x = l • x) : l ≤ norm1 K := by
  refine eig_le_rowsum (fun i => ?_) hx h
  have := le_ciSup (f := fun j => ∑ i, |K i j|) (Set.finite_range _).bddAbove i
  refine le_trans (le_of_eq ?_) this
  exact Finset.sum_congr rfl fun j _ => by rw [sym_of hK i j]

/-- For a positive definite matrix the spectral condition number is at most the one in the 1-norm. -/
theorem cond2_le_cond1 {K : Mat n n} (hn : 0 < n) (hK : K.PosDef) : 1 ≤ cond2 K ∧ cond2 K ≤ cond1 K := by
  obtain ⟨hpos, hle, he⟩ := cond2_eq hn hK
  obtain ⟨⟨x, hx, ex⟩, -⟩ := eigMax_spec hn hK.isHermitian
  obtain ⟨⟨y, hy, ey⟩, -⟩ := eigMin_spec hn hK.isHermitian
  rw [he]
  refine ⟨(one_le_div hpos).mpr hle, ?_⟩
  have h1 := norm1_ge hK.isHermitian hx ex
  have h2 : 1 / eigMin K ≤ norm1 K⁻¹ := by
    refine norm1_ge hK.isHermitian.inv hy ?_
    have hu : IsUnit K.det := (Matrix.isUnit_iff_isUnit_det K).mp hK.isUnit
    have : y = eigMin K • (K⁻¹ *ᵥ y) := by
      rw [← mulVec_smul, ← ey, mulVec_mulVec, nonsing_inv_mul _ hu, one_mulVec]
    conv_rhs => rw [this]
    rw [smul_smul, one_div, inv_mul_cancel₀ hpos.ne', one_smul]
  rw [div_eq_mul_one_div, cond1]
  exact mul_le_mul h1 h2 (by positivity) ((hpos.le.trans hle).trans h1)

theorem nugget_form {N c k : ℝ} (hk : 0 < k) : N * k / (k + N - 1) / (c - 1) * (1 - c / k) = N * (k - c) / (k + N - 1) / (c - 1) := by
  have : 1 - c / k = (k - c) / k := by field_simp
  rw [this]
  simp only [div_eq_mul_inv]
  linear_combination (N * (k - c) * (k + N - 1)⁻¹ * (c - 1)⁻¹) * mul_inv_cancel₀ hk.ne'

theorem nugget_mono {N c k k' : ℝ} (hN : 1 ≤ N) (hc : 1 < c) (hk : 1 ≤ k) (h : k ≤ k') :
    N * (k - c) / (k + N - 1) / (c - 1) ≤ N * (k' - c) / (k' + N - 1) / (c - 1) := by
  refine div_le_div_of_nonneg_right ?_ (by linarith)
  rw [div_le_div_iff₀ (by linarith) (by linarith)]
  have : 0 ≤ N * ((k' - k) * (N - 1 + c)) := mul_nonneg (by linarith) (mul_nonneg (by linarith) (by linarith))
  nlinarith

/-- **C118, the least nugget.** For a positive semidefinite matrix and `η > 0`, the condition number of `K + η I` is at most
`cond_max` exactly if `η` is at least the plotted minimum. -/
theorem C118_least_nugget {ne dim : ℕ} {K : Mat n n} (hn : 0 < n) (hK : K.PosSemidef) {c : ℝ} (hc : 1 < c) :
    ∃ r, nuggetRow ne dim c K = .ok r ∧ ∀ η > 0, CondLe (K + η • (1 : Mat n n)) c ↔ r.etaEig ≤ η := by
  unfold nuggetRow vecMax
  rw [if_neg hn.ne', ok_bind]
  refine ⟨_, rfl, fun η hη => ?_⟩
  rw [condLe_iff hn hK hc hη]
  show _ ↔ max 0 _ ≤ η
  rw [max_le_iff, and_iff_right hη.le]

/-- **C118, the compared nuggets.** For a correlation matrix (positive semidefinite, unit diagonal) of `n = n_eval (dim + 1)` data
every plotted nugget suffices, that is, it is at least the minimum: the one from the row sums, the one from the trace, and, if the
matrix is invertible, those from the condition numbers. They are ordered as the figure shows. -/
theorem C118_compared_nuggets {ne dim : ℕ} (hnd : n = ne * (dim + 1)) {K : Mat n n} (hn : 0 < n) (hK : K.PosSemidef)
    (hone : ∀ i, K i i = 1) {c : ℝ} (hc : 1 < c) :
    ∃ r, nuggetRow ne dim c K = .ok r ∧ 0 ≤ r.etaEig ∧ r.etaEig ≤ r.etaCircle ∧ 0 < r.etaCircle ∧ r.etaCircle ≤ etaWTrace ne dim c ∧
      (K.PosDef → r.etaEig ≤ max 0 r.etaL2 ∧ max 0 r.etaL2 ≤ r.etaL1 ∧ r.etaL1 ≤ etaWTrace ne dim c) := by
  have hN : (ne : ℝ) * ((dim : ℝ) + 1) = n := by rw [hnd]; push_cast; ring
  have hN1 : (1 : ℝ) ≤ n := by exact_mod_cast hn
  have hc' : 0 < c - 1 := by linarith
  haveI : Nonempty (Fin n) := ⟨⟨0, hn⟩⟩
  have hH := hK.isHermitian
  have hmax := eigMax_spec hn hH
  have hmin := eigMin_spec hn hH
  obtain ⟨⟨x, hx, ex⟩, -⟩ := hmax
  obtain ⟨⟨y, hy, ey⟩, -⟩ := hmin
  have hl0 : 0 ≤ eigMin K := eig_nonneg hK hy ey
  have hsup := eig_le_rowsum (absRow_le_sup K) hx ex
  have hs1 : 1 ≤ ⨆ i, absRowSum K i := by
    refine le_trans ?_ (absRow_le_sup K ⟨0, hn⟩)
    refine le_trans ?_ (Finset.single_le_sum (f := fun j => |K ⟨0, hn⟩ j|) (fun j _ => abs_nonneg _) (Finset.mem_univ ⟨0, hn⟩))
    simp [hone]
  have hsn : ⨆ i, absRowSum K i ≤ n := by
    refine ciSup_le fun i => ?_
    have hent : ∀ j, |K i j| ≤ 1 := by
      intro j
      have h1 := hK.dotProduct_mulVec_nonneg (Pi.single i 1 + Pi.single j 1)
      have h2 := hK.dotProduct_mulVec_nonneg (Pi.single i 1 - Pi.single j 1)
      simp only [star_trivial, mulVec_add, mulVec_sub, add_dotProduct, sub_dotProduct, dotProduct_add, dotProduct_sub, mulVec_single,
        MulOpposite.op_one, one_smul, single_dotProduct, one_mul, col_apply, hone, sym_of hH j i] at h1 h2
      rw [abs_le]; constructor <;> linarith
    calc ∑ j, |K i j| ≤ ∑ _j : Fin n, (1 : ℝ) := Finset.sum_le_sum fun j _ => hent j
      _ = n := by simp
  unfold nuggetRow vecMax
  rw [if_neg hn.ne', ok_bind]
  refine ⟨_, rfl, ?_⟩
  dsimp only
  rw [hN, etaWTrace, hN]
  refine ⟨le_max_left _ _, max_le (by positivity) ?_, by positivity, div_le_div_of_nonneg_right hsn hc'.le, fun hpd => ?_⟩
  · refine div_le_div_of_nonneg_right ?_ hc'.le
    nlinarith
  obtain ⟨hpos, hle, he⟩ := cond2_eq hn hpd
  obtain ⟨hk1, hk12⟩ := cond2_le_cond1 hn hpd
  have htr := trace_bound hn hH hone
  have hsq : (1 : ℝ) ≤ Real.sqrt n := by rw [Real.one_le_sqrt]; exact hN1
  have hkk : cond2 K ≤ Real.sqrt n * cond1 K := hk12.trans (le_mul_of_one_le_left (by linarith) hsq)
  have e1 : (n : ℝ) * Real.sqrt n * cond1 K / (cond1 K * Real.sqrt n + n - 1) / (c - 1) * (1 - c / (Real.sqrt n * cond1 K)) =
      n * (Real.sqrt n * cond1 K - c) / (Real.sqrt n * cond1 K + n - 1) / (c - 1) := by
    rw [← nugget_form (by linarith), mul_assoc, mul_comm (cond1 K)]
  rw [e1, nugget_form (by linarith)]
  have hmono := nugget_mono hN1 hc hk1 hkk
  refine ⟨max_le (le_max_left _ _) ?_, max_le_max le_rfl hmono, max_le (by positivity) ?_⟩
  · by_cases hkc : cond2 K ≤ c
    · refine le_max_of_le_left (div_nonpos_of_nonpos_of_nonneg ?_ hc'.le)
      rw [he, div_le_iff₀ hpos] at hkc
      linarith
    · refine le_max_of_le_right (div_le_div_of_nonneg_right ?_ hc'.le)
      push Not at hkc
      have hmx : eigMax K = cond2 K * eigMin K := by rw [he, div_mul_cancel₀ _ hpos.ne']
      rw [le_div_iff₀ (by linarith), hmx]
      rw [hmx] at htr
      have : eigMin K * (cond2 K + n - 1) ≤ n := by linarith
      nlinarith [mul_le_mul_of_nonneg_right this (sub_nonneg.mpr hkc.le)]
  · refine div_le_div_of_nonneg_right ?_ hc'.le
    rw [div_le_iff₀ (by linarith)]
    nlinarith

/-- **C118, the flag.** A correlation matrix passes the test for diagonal dominance only if it is the identity: the sums include the
diagonal. -/
theorem C118_diagdom_flag {ne dim : ℕ} {K : Mat n n} (hn : 0 < n) (hone : ∀ i, K i i = 1) {c : ℝ} :
    ∃ r, nuggetRow ne dim c K = .ok r ∧ (r.isDiagdom = true ↔ K = 1) := by
  haveI : Nonempty (Fin n) := ⟨⟨0, hn⟩⟩
  unfold nuggetRow vecMax
  rw [if_neg hn.ne', ok_bind]
  refine ⟨_, rfl, ?_⟩
  show decide ((⨆ i, absRowSum K i) ≤ 1) = true ↔ _
  rw [decide_eq_true_iff]
  constructor
  · intro h
    ext i j
    by_cases hij : i = j
    · subst hij; rw [hone, one_apply_eq]
    · have h1 := (absRow_le_sup K i).trans h
      rw [← Finset.add_sum_erase _ _ (Finset.mem_univ i), hone, abs_one] at h1
      have h2 := Finset.single_le_sum (f := fun j => |K i j|) (fun j _ => abs_nonneg _) (Finset.mem_erase.mpr ⟨Ne.symm hij, Finset.mem_univ j⟩)
      have h3 : |K i j| ≤ 0 := by linarith
      rw [one_apply_ne hij, abs_nonpos_iff.mp h3]
  · rintro rfl
    refine ciSup_le fun i => ?_
    show ∑ j, |(1 : Mat n n) i j| ≤ 1
    rw [Finset.sum_eq_single i (fun j _ h => by simp [one_apply_ne h.symm]) (by simp)]
    simp

theorem etaGaussian_eq (ne dim : ℕ) (c : ℝ) : etaGaussian ne dim c = (1 + ((ne : ℝ) - 1) * RB.seM dim) / (c - 1) := by
  unfold etaGaussian RB.seM
  congr 2
  norm_num
  ring

theorem seM_le {d : ℕ} : RB.seM d ≤ (d : ℝ) + 1 := by
  unfold RB.seM
  have h0 : (0 : ℝ) ≤ d := Nat.cast_nonneg d
  have h1 : Real.sqrt (1 + 4 * (d : ℝ)) ≤ 1 + 2 * d := by
    rw [Real.sqrt_le_left (by positivity)]; nlinarith
  have h2 : Real.exp (-(1 + 2 * (d : ℝ) - Real.sqrt (1 + 4 * d)) / (4 * d)) ≤ 1 := by
    rw [Real.exp_le_one_iff]
    exact div_nonpos_of_nonpos_of_nonneg (by linarith) (by positivity)
  have h3 := Real.sqrt_nonneg (1 + 4 * (d : ℝ))
  nlinarith [Real.exp_pos (-(1 + 2 * (d : ℝ) - Real.sqrt (1 + 4 * d)) / (4 * d))]

/-- **C118, for the matrices of the library.** With gradients at all points, preconditioning and the squared-exponential or the
rational quadratic kernel, whatever the points and the hyperparameters: the minimum is at most the nugget from the row sums, that one
at most the constant nugget, which is the one that `calc_nugget` returns, and that one at most the nugget from the trace. Each of the
last three brings the condition number of the preconditioned matrix down to `cond_max`. The diagonal-dominance flag is never set if
there are two points or more. -/
theorem C118_library_nuggets {g : Gp} (hg : GpOk g) {hp : HpVals} (hh : HpAdm g hp) (hu : g.useGrad = true)
    (hprec : g.o.precon = true) (hk : g.kernel ≠ .matern) (hfull : g.nGrad = g.nEval) (hne : 0 < g.nEval) (hd : 0 < g.dim)
    {v : ℝ} (hv : 0 < v) (hvk : hp.varK = some v) {c : ℝ} (hc : 1 < c) :
    ∃ R out Kc r, calcRtensor g.x g.x = .ok R ∧ calcAllK g R hp none true false none false = .ok out ∧ out.Kcor = some Kc ∧
      nuggetRow g.nEval g.dim c Kc = .ok r ∧ r.etaEig ≤ r.etaCircle ∧ r.etaCircle ≤ etaGaussian g.nEval g.dim c ∧
      etaGaussian g.nEval g.dim c ≤ etaWTrace g.nEval g.dim c ∧
      (∀ em ed, em = EtaMtd.kbaseEta ∨ em = EtaMtd.kbaseEtaWDim → ∃ b,
        calcNugget ⟨g.dim, true, g.kernel, .precon, em, c, ed⟩ g.nEval = .ok (b, some (etaGaussian g.nEval g.dim c))) ∧
      (∀ η, η = r.etaCircle ∨ η = etaGaussian g.nEval g.dim c ∨ η = etaWTrace g.nEval g.dim c → CondLe (Kc + η • (1 : Mat _ _)) c) ∧
      (2 ≤ g.nEval → r.isDiagdom = false) := by
  obtain ⟨R, hR, -⟩ := calcRtensor_ok (X := g.x) (Y := g.x) rfl
  obtain ⟨N, K, out, hN, hNs, hK, hpsd, hdiag, hone, hout, hs⟩ := calcAllK_ok hg hh (.inl hu) (fun _ => hu) hne hR true false
    none false hv ⟨⟨v, by simpa using hvk, fun _ => rfl⟩, by simp⟩
  have hnn : ∀ i, 0 ≤ toVec g.nData N i := NoiseSpec.nonneg hg hh hNs
  set A := kwn v K (toVec g.nData N) with hAd
  have hA : ∀ i, 0 < A i i := by
    intro i
    simp only [hAd, kwn, Matrix.add_apply, diagonal_apply_eq]
    have h1 := hdiag i
    have : 0 ≤ toVec g.nData N i / v := div_nonneg (hnn i) hv.le
    linarith
  have hc' : 0 < c - 1 := by linarith
  have hn1 : (1 : ℝ) ≤ g.nEval := by exact_mod_cast hne
  have hpair : pairM g.kernel g.dim = RB.seM g.dim := by
    revert hk; cases g.kernel <;> intro hk <;> first | rfl | exact absurd rfl hk
  have hrow : ∀ i, ∑ j, |corr A i j| ≤ 1 + ((g.nEval : ℝ) - 1) * RB.seM g.dim := fun i => by
    rw [← hpair]
    exact (Finset.sum_le_sum fun j _ => corr_kwn_le hv hdiag hnn i j).trans (corr_rowsum hg hh hu hd hK i)
  have hMpsd : (corr A).PosSemidef := corr_posSemidef (kwn_posSemidef hv hpsd hnn)
  have hnd' : g.nData = g.nEval * (g.dim + 1) := by rw [hg.nData, hfull]; ring
  have hnd : 0 < g.nData := by rw [hg.nData]; omega
  haveI : Nonempty (Fin g.nData) := ⟨⟨0, hnd⟩⟩
  obtain ⟨r, hr, h0, h1, h2, h3, -⟩ := C118_compared_nuggets (ne := g.nEval) (dim := g.dim) hnd' hnd hMpsd (corr_diag hA) hc
  obtain ⟨r', hr', hle⟩ := C118_least_nugget (ne := g.nEval) (dim := g.dim) hnd hMpsd hc
  obtain ⟨r'', hr'', hdd⟩ := C118_diagdom_flag (ne := g.nEval) (dim := g.dim) (c := c) hnd (corr_diag hA)
  rw [hr] at hr' hr''
  cases hr'
  cases hr''
  have h4 : r.etaCircle ≤ etaGaussian g.nEval g.dim c := by
    rw [etaGaussian_eq]
    have hrc : r.etaCircle = (⨆ i, absRowSum (corr A) i) / (c - 1) := by
      unfold nuggetRow vecMax at hr
      rw [if_neg hnd.ne', ok_bind] at hr
      cases hr
      rfl
    rw [hrc]
    exact div_le_div_of_nonneg_right (ciSup_le hrow) hc'.le
  have h5 : etaGaussian g.nEval g.dim c ≤ etaWTrace g.nEval g.dim c := by
    rw [etaGaussian_eq, etaWTrace]
    refine div_le_div_of_nonneg_right ?_ hc'.le
    have := mul_le_mul_of_nonneg_left (seM_le (d := g.dim)) (sub_nonneg.mpr hn1)
    have hd0 : (0 : ℝ) ≤ g.dim := Nat.cast_nonneg _
    nlinarith
  refine ⟨R, out, corr A, r, hR, hout, by rw [hs.cor, if_pos hprec], hr, h1, h4, h5, ?_, ?_, ?_⟩
  · intro em ed hem
    have hem' : em ≠ .dfltEta := by rcases hem with rfl | rfl <;> decide
    unfold calcNugget
    simp only [hem', if_false, if_true]
    by_cases hone' : g.nEval = 1
    · refine ⟨calcNuggetKbase g.nEval c, ?_⟩
      simp only [hone', if_true]
      rw [etaGaussian_eq, calcNuggetKbase]
      norm_num
    · refine ⟨calcNuggetKbase g.nEval c, ?_⟩
      simp only [hone', if_false]
      rw [preconUb_eq, hpair, ← etaGaussian_eq]
  · rintro η (rfl | rfl | rfl)
    · exact (hle _ h2).mpr h1
    · exact (hle _ (h2.trans_le h4)).mpr (h1.trans h4)
    · exact (hle _ (h2.trans_le (h4.trans h5))).mpr ((h1.trans h4).trans h5)
  · intro h2
    rw [Bool.eq_false_iff]
    intro hcon
    have he := hdd.mp hcon
    obtain ⟨B, hB, hKB⟩ := hK
    have l0 : 0 < g.nData := hnd
    have l1 : 1 < g.nData := by rw [hg.nData]; omega
    have h01 := congrFun (congrFun he ⟨0, l0⟩) ⟨1, l1⟩
    rw [one_apply_ne (by simp)] at h01
    have hK01 : K ⟨0, l0⟩ ⟨1, l1⟩ = gpKern g hp (g.x.get 0) (g.x.get 1) := by
      rw [hKB]; exact hB.val_val 0 hne 1 (by omega)
    have hpos : 0 < K ⟨0, l0⟩ ⟨1, l1⟩ := by
      rw [hK01, gpKern_canon hh]
      exact prφ_pos _ (alphaOf_pos hh.kernel) (wdist2_nonneg (fun d hd => (thF_pos hh d hd).le) _ _)
    have hA01 : A ⟨0, l0⟩ ⟨1, l1⟩ = K ⟨0, l0⟩ ⟨1, l1⟩ := by
      simp [hAd, kwn, diagonal_apply]
    have : 0 < corr A ⟨0, l0⟩ ⟨1, l1⟩ := by
      simp only [corr, of_apply]
      rw [hA01]
      exact div_pos hpos (mul_pos (Real.sqrt_pos.mpr (hA _)) (Real.sqrt_pos.mpr (hA _)))
    linarith

-- C118: the matrix with entries 1 and 1/2, target 2; the library's matrices for two points with gradients
theorem exHalf_psd : (!![1, 1 / 2; 1 / 2, 1] : Mat 2 2).PosDef := by
  refine Matrix.PosDef.of_dotProduct_mulVec_pos (by ext i j; fin_cases i <;> fin_cases j <;> simp) fun x hx => ?_
  have hx' : x 0 ≠ 0 ∨ x 1 ≠ 0 := by
    by_contra h
    push Not at h
    exact hx (by ext i; fin_cases i; exacts [h.1, h.2])
  simp only [star_trivial, dotProduct, mulVec, Fin.sum_univ_two, of_apply, cons_val', cons_val_zero, cons_val_one, cons_val_fin_one]
  rcases hx' with h | h
  · nlinarith [sq_nonneg (x 0 + 2 * x 1), mul_self_pos.mpr h]
  · nlinarith [sq_nonneg (x 1 + 2 * x 0), mul_self_pos.mpr h]
example := C118_least_nugget (ne := 1) (dim := 1) (by norm_num) exHalf_psd.posSemidef (c := 2) (by norm_num)
example : ∃ r, nuggetRow 1 1 2 (!![1, 1 / 2; 1 / 2, 1] : Mat 2 2) = .ok r ∧ r.etaEig ≤ max 0 r.etaL2 ∧ r.etaL1 ≤ etaWTrace 1 1 2 := by
  obtain ⟨r, h, -, -, -, -, k⟩ := C118_compared_nuggets (ne := 1) (dim := 1) rfl (by norm_num) exHalf_psd.posSemidef
    (by intro i; fin_cases i <;> rfl) (c := 2) (by norm_num)
  exact ⟨r, h, (k exHalf_psd).1, (k exHalf_psd).2.2⟩
example := C118_diagdom_flag (ne := 1) (dim := 1) (K := (!![1, 1 / 2; 1 / 2, 1] : Mat 2 2)) (by norm_num)
  (by intro i; fin_cases i <;> rfl) (c := 2)
example := C118_library_nuggets (g := { exGpAll with kernel := .sqExp }) { exReadyAll.ok with } (hp := exHpB)
  ⟨exReady.adm.theta, (fun h => by cases h), exReady.adm.vf_none, exReady.adm.vf_some, exReady.adm.vg_none, exReady.adm.vg_some⟩ rfl rfl (by decide) rfl
  (by decide) (by decide) (v := 3) (by norm_num) rfl (c := 10) (by norm_num)

end Props
