import Verif.Proofs.RowSum
import Verif.Proofs.CondNum
import Verif.Spec.CondSpec
import Verif.Props.Cov

/-! Properties C20-C23: conditioning guarantees and the nugget. -/

open Np Spec GP Matrix

noncomputable section

namespace Props

variable {n : ℕ}

/-- Both readings of the condition number of `v (M + η I)`. -/
theorem cond_core {M : Mat n n} (hn : 0 < n) (hM : M.PosSemidef) {m : ℝ} (hm0 : 0 < m) (hm : ∀ i, ∑ j, |M i j| ≤ m)
    {v η c : ℝ} (hv : 0 < v) (hc : 1 < c) (hη : m ≤ (c - 1) * η) :
    cond2 (v • (M + η • (1 : Mat n n))) ≤ c ∧ CondLe (v • (M + η • (1 : Mat n n))) c := by
  have hc' : 0 < c - 1 := by linarith
  have hη0 : 0 < η := by
    by_contra h
    push Not at h
    have := mul_nonpos_of_nonneg_of_nonpos hc'.le h
    linarith
  have hS : ∀ i j, M i j = M j i := fun i j => by simpa using (hM.isHermitian.apply i j).symm
  refine ⟨(cond2_le hn hM hm hv hη0).trans ?_, ?_, v * η, by positivity, ?_⟩
  · rw [div_le_iff₀ hη0]; linarith
  · intro i j
    simp only [Matrix.smul_apply, Matrix.add_apply, one_apply, hS i j, eq_comm]
  · intro x
    have h1 := rayleigh_le hS hm x
    have h2 : 0 ≤ x ⬝ᵥ M *ᵥ x := by simpa using hM.dotProduct_mulVec_nonneg x
    have hx : 0 ≤ x ⬝ᵥ x := by simpa using dotProduct_star_self_nonneg x
    have e : x ⬝ᵥ (v • (M + η • (1 : Mat n n))) *ᵥ x = v * (x ⬝ᵥ M *ᵥ x + η * (x ⬝ᵥ x)) := by
      rw [smul_mulVec, add_mulVec, smul_mulVec, one_mulVec, dotProduct_smul, dotProduct_add, dotProduct_smul]
      simp
    rw [e]
    constructor
    · have := mul_nonneg hv.le h2
      linarith
    · have h3 : m * (x ⬝ᵥ x) ≤ (c - 1) * η * (x ⬝ᵥ x) := mul_le_mul_of_nonneg_right hη hx
      have h4 : x ⬝ᵥ M *ᵥ x + η * (x ⬝ᵥ x) ≤ c * η * (x ⬝ᵥ x) := by linarith
      have := mul_le_mul_of_nonneg_left h4 hv.le
      linarith

/-- The unit-diagonal form of the preconditioned covariance. -/
theorem unitDiag_cov {A : Mat n n} (hA : ∀ i, 0 < A i i) {v η : ℝ} (hv : 0 < v) (hη : 0 ≤ η) :
    unitDiag (v • (A + η • diagonal fun i => A i i)) = (1 / (1 + η)) • (corr A + η • (1 : Mat n n)) := by
  have h1 : 0 < v * (1 + η) := by positivity
  have hd : ∀ i, (v • (A + η • diagonal fun i => A i i)) i i = (v * (1 + η)) * A i i := by
    intro i; simp only [Matrix.smul_apply, Matrix.add_apply, diagonal_apply_eq, smul_eq_mul]; ring
  ext i j
  simp only [unitDiag, of_apply, hd]
  rw [Real.sqrt_mul h1.le, Real.sqrt_mul h1.le]
  have hs : Real.sqrt (v * (1 + η)) * Real.sqrt (v * (1 + η)) = v * (1 + η) := Real.mul_self_sqrt h1.le
  have hi := (Real.sqrt_pos.mpr (hA i)).ne'
  have hj := (Real.sqrt_pos.mpr (hA j)).ne'
  have hden : Real.sqrt (v * (1 + η)) * Real.sqrt (A i i) * (Real.sqrt (v * (1 + η)) * Real.sqrt (A j j)) =
      v * (1 + η) * (Real.sqrt (A i i) * Real.sqrt (A j j)) := by
    calc _ = (Real.sqrt (v * (1 + η)) * Real.sqrt (v * (1 + η))) * (Real.sqrt (A i i) * Real.sqrt (A j j)) := by ring
      _ = _ := by rw [hs]
  rw [hden]
  simp only [Matrix.smul_apply, Matrix.add_apply, smul_eq_mul, corr, of_apply, one_apply, diagonal_apply]
  have hv' := hv.ne'
  have h1' : 1 + η ≠ 0 := by positivity
  by_cases hij : i = j
  · subst hij
    have hsq : Real.sqrt (A i i) * Real.sqrt (A i i) = A i i := Real.mul_self_sqrt (hA i).le
    simp only [if_true, hsq]
    have := (hA i).ne'
    field_simp
  · simp only [if_neg hij]
    field_simp
    ring

theorem pairM_pos (k : KType) {d : ℕ} (hd : 0 < d) : 0 < pairM k d := by
  have h : (1 : ℝ) ≤ d := by exact_mod_cast hd
  cases k
  · exact one_pos.trans_le (RB.one_le_seM h)
  · exact one_pos.trans_le (RB.one_le_maM h)
  · exact one_pos.trans_le (RB.one_le_seM h)

/-- The nugget options of an object with the preconditioning method. -/
def preconNug (g : Gp) (em : EtaMtd) (ed : ℝ) : NugOpts :=
  ⟨g.dim, g.useGrad, g.kernel, .precon, em, g.o.condMaxTarget, ed⟩

/-- The nugget options of an object with the base method. -/
def baseNug (g : Gp) (em : EtaMtd) (ed : ℝ) : NugOpts :=
  ⟨g.dim, g.useGrad, g.kernel, .base, em, g.o.condMaxTarget, ed⟩

/-- **C20.** Gradient-enhanced model, preconditioning, nugget computed by `calc_nugget`: whatever the points, the
positive length scales, the shape parameter and the noise, the condition number that is returned is at most the target,
and so is that of the covariance matrix rescaled to unit diagonal. -/
theorem C20_precon_condition_bound {g : Gp} (hg : GpOk g) {hp : HpVals} (hh : HpAdm g hp) (hu : g.useGrad = true)
    (hprec : g.o.precon = true) (hconst : g.o.etaConst = true) (h2 : g.o.fro = false) (hne : 0 < g.nEval) (hd : 0 < g.dim)
    (hc : 1 < g.o.condMaxTarget) {em : EtaMtd} (hem : em ≠ .dfltEta) {ed b : ℝ}
    (hnug : calcNugget (preconNug g em ed) g.nEval = .ok (b, some g.o.etaK))
    {v : ℝ} (hv : 0 < v) (hvk : hp.varK = some v) (cf : Bool) :
    ∃ R out c, calcRtensor g.x g.x = .ok R ∧ calcAllK g R hp none cf true none false = .ok out ∧
      out.condK = some c ∧ c ≤ g.o.condMaxTarget ∧ CondLe (unitDiag out.Kcov) g.o.condMaxTarget := by
  obtain ⟨R, hR, -⟩ := calcRtensor_ok (X := g.x) (Y := g.x) rfl
  obtain ⟨N, K, out, hN, hNs, hK, hpsd, hdiag, hone, hout, hs⟩ := calcAllK_ok hg hh (.inl hu) (fun _ => hu) hne hR cf true
    none false hv ⟨⟨v, by simpa using hvk, fun _ => rfl⟩, by simp⟩
  have hnn : ∀ i, 0 ≤ toVec g.nData N i := NoiseSpec.nonneg hg hh hNs
  set A := kwn v K (toVec g.nData N) with hAd
  have hA : ∀ i, 0 < A i i := by
    intro i
    simp only [hAd, kwn, Matrix.add_apply, diagonal_apply_eq]
    have h1 := hdiag i
    have : 0 ≤ toVec g.nData N i / v := div_nonneg (hnn i) hv.le
    linarith
  have hc' : 0 < g.o.condMaxTarget - 1 := by linarith
  have hM0 := pairM_pos g.kernel hd
  have hn1 : (1 : ℝ) ≤ g.nEval := by exact_mod_cast hne
  set m : ℝ := 1 + ((g.nEval : ℝ) - 1) * pairM g.kernel g.dim with hm
  have hmpos : 0 < m := by
    have : 0 ≤ ((g.nEval : ℝ) - 1) * pairM g.kernel g.dim := mul_nonneg (by linarith) hM0.le
    rw [hm]; linarith
  have heta : g.o.etaK = m / (g.o.condMaxTarget - 1) := by
    unfold calcNugget at hnug
    simp only [preconNug, hem, if_false, hu, if_true] at hnug
    by_cases h1 : g.nEval = 1
    · simp only [h1, if_true, Except.ok.injEq, Prod.mk.injEq, Option.some.injEq] at hnug
      rw [← hnug.2, hm, h1]
      simp [calcNuggetKbase]
    · simp only [h1, if_false, Except.ok.injEq, Prod.mk.injEq, Option.some.injEq] at hnug
      rw [← hnug.2, preconUb_eq]
  have hrow : ∀ i, ∑ j, |corr A i j| ≤ m := fun i =>
    (Finset.sum_le_sum fun j _ => corr_kwn_le hv hdiag hnn i j).trans (corr_rowsum hg hh hu hd hK i)
  have hMpsd : (corr A).PosSemidef := corr_posSemidef (kwn_posSemidef hv hpsd hnn)
  have hnd : 0 < g.nData := by rw [hg.nData]; omega
  have hoe : out.etaK = m / (g.o.condMaxTarget - 1) := by rw [hs.eta, if_pos hconst, heta]
  have hle : m ≤ (g.o.condMaxTarget - 1) * out.etaK := by
    rw [hoe, mul_div_cancel₀ _ hc'.ne']
  have hη0 : 0 ≤ out.etaK := by rw [hoe]; positivity
  refine ⟨R, out, _, hR, hout, hs.cond, ?_, ?_⟩
  · simp only [hprec, if_true, condNum, h2, Bool.false_eq_true, if_false]
    exact (cond_core hnd hMpsd hmpos hrow hv hc hle).1
  · rw [hs.cov, if_pos hprec, unitDiag_cov hA hv hη0]
    exact (cond_core hnd hMpsd hmpos hrow (by positivity) hc hle).2

/-- **C21.** Gradient-free model without noise, nugget computed by `calc_nugget`: the condition number of the covariance
is at most the target. -/
theorem C21_base_condition_bound {g : Gp} (hg : GpOk g) {hp : HpVals} (hh : HpAdm g hp) (hu : g.useGrad = false)
    (hprec : g.o.precon = false) (hconst : g.o.etaConst = true) (h2 : g.o.fro = false) (hne : 0 < g.nEval)
    (hns : g.noisy = false) (hc : 1 < g.o.condMaxTarget) {mtd : WcMtd} {em : EtaMtd} (hem : em ≠ .dfltEta) {ed : ℝ} {e : Option ℝ}
    (hnug : calcNugget ⟨g.dim, false, g.kernel, mtd, em, g.o.condMaxTarget, ed⟩ g.nEval = .ok (g.o.etaK, e))
    {v : ℝ} (hv : 0 < v) (hvk : hp.varK = some v) (cf : Bool) :
    ∃ R out c, calcRtensor g.x g.x = .ok R ∧ calcAllK g R hp none cf true none false = .ok out ∧
      out.condK = some c ∧ c ≤ g.o.condMaxTarget ∧ CondLe out.Kcov g.o.condMaxTarget := by
  obtain ⟨R, hR, -⟩ := calcRtensor_ok (X := g.x) (Y := g.x) rfl
  have hz : (g.fvalZero && g.fgradZero) = true := by
    have := hg.noisy; rw [hns] at this; simpa using this.symm
  have hkf : g.knownFval = true := hg.fzero (by simp only [Bool.and_eq_true] at hz; exact hz.1)
  obtain ⟨N, K, out, hN, hNs, hK, hpsd, hdiag, hone, hout, hs⟩ := calcAllK_ok hg hh (.inr hkf) (by simp [hprec]) hne hR cf true
    none false hv ⟨⟨v, by simpa using hvk, fun _ => rfl⟩, by simp⟩
  have hng : g.nGrad = 0 := by rw [hg.nGrad, hu]; rfl
  have hndE : g.nData = g.nEval := by rw [hg.nData, hng]; ring
  have hN0 : ∀ i, toVec g.nData N i = 0 := by
    intro i
    have hi : (i : ℕ) < g.nEval := by have := i.2; omega
    simp only [toVec]
    rw [hNs.val i hi, valVar, if_pos hz]
  have hkwn : kwn v K (toVec g.nData N) = K := by
    unfold kwn
    simp [hN0]
  have hc' : 0 < g.o.condMaxTarget - 1 := by linarith
  obtain ⟨th, ht, -, hpos⟩ := hh.theta
  obtain ⟨α, hα, e1, -⟩ := hp_elim hh.kernel
  have hent : ∀ i j, |K i j| ≤ 1 := by
    intro i j
    have hi : (i : ℕ) < g.nEval := by have := i.2; omega
    have hj : (j : ℕ) < g.nEval := by have := j.2; omega
    have := kern_entry hK ht (fun d hd => (hpos d hd).le) hα (by rw [e1]) (x := .v i) (y := .v j) hi hj rfl rfl
    rw [this]
    simp only [Ix.coord_v, radKG]
    have h0 : 0 ≤ ssq g.dim th.get (fun d => g.x.get ((Ix.v i).pt g.bvec) d - g.x.get ((Ix.v j).pt g.bvec) d) := by
      unfold ssq
      exact Finset.sum_nonneg fun d hd => mul_nonneg (hpos d (Finset.mem_range.mp hd)).le (sq_nonneg _)
    rw [abs_of_pos (prφ_pos _ hα h0)]
    exact prφ_le_one _ hα h0
  have hrow : ∀ i, ∑ j, |K i j| ≤ (g.nEval : ℝ) := by
    intro i
    refine (Finset.sum_le_sum fun j _ => hent i j).trans ?_
    simp [hndE]
  have hnd : 0 < g.nData := by omega
  have hmpos : (0 : ℝ) < g.nEval := by exact_mod_cast hne
  have hle : (g.nEval : ℝ) ≤ (g.o.condMaxTarget - 1) * out.etaK := by
    have : g.o.etaK = g.nEval / (g.o.condMaxTarget - 1) := by
      unfold calcNugget at hnug
      simp only [hem, if_false, Bool.false_eq_true, Except.ok.injEq, Prod.mk.injEq] at hnug
      rw [← hnug.1]; rfl
    rw [hs.eta, if_pos hconst, this, mul_div_cancel₀ _ hc'.ne']
  have hcov : out.Kcov = v • (K + out.etaK • (1 : Mat g.nData g.nData)) := by
    rw [hs.cov, hkwn]; simp [hprec]
  have := cond_core hnd hpsd hmpos hrow hv hc hle
  refine ⟨R, out, _, hR, hout, hs.cond, ?_, ?_⟩
  · simp only [hprec, Bool.false_eq_true, if_false, condNum, h2]
    rw [hcov]; exact this.1
  · rw [hcov]; exact this.2

theorem rowsup_le (M : Mat n n) (i : Fin n) : ∑ j, |M i j| ≤ ⨆ i, ∑ j, |M i j| :=
  le_ciSup (f := fun i => ∑ j, |M i j|) (Set.finite_range _).bddAbove i

theorem rowsup_pos {M : Mat n n} (i : Fin n) (h : 0 < M i i) : 0 < ⨆ i, ∑ j, |M i j| :=
  lt_of_lt_of_le (lt_of_lt_of_le (h.trans_le (le_abs_self _))
    (Finset.single_le_sum (f := fun j => |M i j|) (fun j _ => abs_nonneg _) (Finset.mem_univ i))) (rowsup_le M i)

theorem cond_of_spec {o : CondOpts} (hvar : o.etaConst = false) (h2 : o.fro = false)
    (hc : 1 < o.condMaxTarget) (hn : 0 < n) {K : Mat n n} (hK : K.PosSemidef) (hdiag : ∀ i, 0 < K i i)
    {N : Vec n} (hN : ∀ i, 0 ≤ N i) (hns : o.precon = false → ∀ i, N i = 0) {v : ℝ} (hv : 0 < v) {cf : Bool} {out : CovOut n}
    (hs : CovSpec o v K N cf true out) :
    ∃ c, out.condK = some c ∧ c ≤ o.condMaxTarget ∧
      CondLe (if o.precon then unitDiag out.Kcov else out.Kcov) o.condMaxTarget := by
  have hA : ∀ i, 0 < kwn v K N i i := by
    intro i
    simp only [kwn, Matrix.add_apply, diagonal_apply_eq]
    have h1 := hdiag i
    have : 0 ≤ N i / v := div_nonneg (hN i) hv.le
    linarith
  have hc' : 0 < o.condMaxTarget - 1 := by linarith
  have heta := hs.eta
  rw [if_neg (by simp [hvar])] at heta
  refine ⟨_, hs.cond, ?_⟩
  simp only [condNum, h2, Bool.false_eq_true, if_false]
  cases hp : o.precon with
  | true =>
    simp only [hp, if_true] at heta ⊢
    have hM0 := rowsup_pos (M := corr (kwn v K N)) ⟨0, hn⟩ (by rw [corr_diag hA]; exact one_pos)
    have hle : (⨆ i, ∑ j, |corr (kwn v K N) i j|) ≤ (o.condMaxTarget - 1) * out.etaK := by
      rw [heta, mul_div_cancel₀ _ hc'.ne']
    have hη0 : 0 ≤ out.etaK := by rw [heta]; positivity
    have hMp := corr_posSemidef (kwn_posSemidef hv hK hN)
    refine ⟨(cond_core hn hMp hM0 (rowsup_le _) hv hc hle).1, ?_⟩
    rw [hs.cov, if_pos hp, unitDiag_cov hA hv hη0]
    exact (cond_core hn hMp hM0 (rowsup_le _) (by positivity) hc hle).2
  | false =>
    simp only [hp, Bool.false_eq_true, if_false] at heta ⊢
    have hkwn : kwn v K N = K := by unfold kwn; simp [hns hp]
    have hM0 := rowsup_pos (M := K) ⟨0, hn⟩ (hdiag _)
    have hle : (⨆ i, ∑ j, |K i j|) ≤ (o.condMaxTarget - 1) * out.etaK := by
      rw [heta, mul_div_cancel₀ _ hc'.ne']
    have hcov : out.Kcov = v • (K + out.etaK • (1 : Mat n n)) := by
      rw [hs.cov, hkwn]; simp [hp]
    rw [hcov]
    exact cond_core hn hK hM0 (rowsup_le _) hv hc hle

/-- **C22.** Nugget recomputed from the matrix, for *any* positive semidefinite kernel matrix with positive diagonal
(any kernel, any points): with preconditioning and any noise, or without preconditioning and without noise, the condition
number that is returned is at most the target. -/
theorem C22_varying_nugget_condition_bound {o : CondOpts} (hvar : o.etaConst = false) (h2 : o.fro = false)
    (hc : 1 < o.condMaxTarget) {useGrad : Bool} (hpu : o.precon = true → useGrad = true) (hn : 0 < n)
    {K : Mat n n} (hK : K.PosSemidef) (hdiag : ∀ i, 0 < K i i)
    {N : Vec n} (hN : ∀ i, 0 ≤ N i) (hns : o.precon = false → ∀ i, N i = 0) {v : ℝ} (hv : 0 < v) (cf : Bool) :
    ∃ out c, covCore o useGrad v K N cf true = .ok out ∧ out.condK = some c ∧ c ≤ o.condMaxTarget ∧
      CondLe (if o.precon then unitDiag out.Kcov else out.Kcov) o.condMaxTarget := by
  have hA : ∀ i, 0 < kwn v K N i i := by
    intro i
    simp only [kwn, Matrix.add_apply, diagonal_apply_eq]
    have h1 := hdiag i
    have : 0 ≤ N i / v := div_nonneg (hN i) hv.le
    linarith
  obtain ⟨out, hout, hs⟩ := covCore_ok (o := o) cf true hpu hn hA hv
  obtain ⟨c, h⟩ := cond_of_spec hvar h2 hc hn hK hdiag hN hns hv hs
  exact ⟨out, c, hout, h⟩

/-- **C22**, for the matrix the library builds: with the recomputed nugget, preconditioning (any noise) or no noise. -/
theorem C22_varying_nugget_object {g : Gp} (hg : GpOk g) {hp : HpVals} (hh : HpAdm g hp)
    (hprec : g.o.precon = true → g.useGrad = true) (hvar : g.o.etaConst = false) (h2 : g.o.fro = false) (hne : 0 < g.nEval)
    (hns : g.o.precon = true ∨ g.noisy = false) (hc : 1 < g.o.condMaxTarget)
    {v : ℝ} (hv : 0 < v) (hvk : hp.varK = some v) (cf : Bool) :
    ∃ R out c, calcRtensor g.x g.x = .ok R ∧ calcAllK g R hp none cf true none false = .ok out ∧
      out.condK = some c ∧ c ≤ g.o.condMaxTarget ∧
      CondLe (if g.o.precon then unitDiag out.Kcov else out.Kcov) g.o.condMaxTarget := by
  obtain ⟨R, hR, -⟩ := calcRtensor_ok (X := g.x) (Y := g.x) rfl
  have hz : g.noisy = false → (g.fvalZero && g.fgradZero) = true := by
    intro hns; have := hg.noisy; rw [hns] at this; simpa using this.symm
  have hk : g.useGrad = true ∨ g.knownFval = true := by
    rcases hns with h | h
    · exact .inl (hprec h)
    · have := hz h
      exact .inr (hg.fzero (by simp only [Bool.and_eq_true] at this; exact this.1))
  obtain ⟨N, K, out, hN, hNs, hK, hpsd, hdiag, hone, hout, hs⟩ := calcAllK_ok hg hh hk hprec hne hR cf true
    none false hv ⟨⟨v, by simpa using hvk, fun _ => rfl⟩, by simp⟩
  have hnn : ∀ i, 0 ≤ toVec g.nData N i := NoiseSpec.nonneg hg hh hNs
  have hN0 : g.o.precon = false → ∀ i, toVec g.nData N i = 0 := by
    intro hp i
    have hz' := hz (by rcases hns with h | h; rw [hp] at h; cases h; exact h)
    obtain ⟨x, hx, hxi⟩ := Ix.pos_surj (n := g.nEval) (g := g.nGrad) (dim := g.dim) (p := i) (by rw [← hg.nData]; exact i.2)
    simp only [toVec]
    rw [← hxi]
    cases x with
    | v p => exact (hNs.val p hx).trans (by rw [valVar, if_pos hz'])
    | g j a => exact (hNs.grad j hx.1 a hx.2).trans (by rw [gradVar, if_pos hz'])
  have hnd : 0 < g.nData := by rw [hg.nData]; omega
  obtain ⟨c, h⟩ := cond_of_spec hvar h2 hc hnd hpsd hdiag hnn hN0 hv hs
  exact ⟨R, out, c, hR, hout, h⟩

/-! ### The nugget -/

theorem sqrt2_le_vreq {ne d : ℕ} (hne : 2 ≤ ne) (hd : 0 < d) : Real.sqrt 2 ≤ calcVreq ne d ∧ calcVreq ne d ≤ 2 * Real.sqrt d := by
  have h1 : ne ≠ 1 := by omega
  have hd1 : (1 : ℝ) ≤ d := by exact_mod_cast hd
  have hn1 : (2 : ℝ) ≤ ne := by exact_mod_cast hne
  have hsd : 1 ≤ Real.sqrt d := by rw [show (1 : ℝ) = Real.sqrt 1 by simp]; exact Real.sqrt_le_sqrt hd1
  unfold calcVreq
  simp only [h1, if_false]
  refine ⟨le_min ?_ ?_, min_le_right _ _⟩
  · have hlog : 0 ≤ Real.log (((ne : ℝ) - 1) * (1 + 2 * Real.sqrt d) / 2) := by
      apply Real.log_nonneg
      have : (1 : ℝ) * 3 ≤ ((ne : ℝ) - 1) * (1 + 2 * Real.sqrt d) := mul_le_mul (by linarith) (by linarith) (by norm_num) (by linarith)
      linarith
    have hsq : 2 ≤ Real.sqrt (4 + 2 * Real.exp 2 * Real.log (((ne : ℝ) - 1) * (1 + 2 * Real.sqrt d) / 2)) := by
      apply Real.le_sqrt_of_sq_le
      have : 0 ≤ 2 * Real.exp 2 * Real.log (((ne : ℝ) - 1) * (1 + 2 * Real.sqrt d) / 2) := by positivity
      linarith
    rw [le_div_iff₀ (Real.exp_pos 1)]
    have he : Real.exp 1 < 2.7182818286 := Real.exp_one_lt_d9
    have hs2 : Real.sqrt 2 ≤ 1.415 := by
      rw [Real.sqrt_le_left (by norm_num)]; norm_num
    have : Real.sqrt 2 * Real.exp 1 ≤ 1.415 * 2.7182818286 :=
      mul_le_mul hs2 he.le (Real.exp_pos 1).le (by norm_num)
    norm_num at this
    linarith
  · have hs2 : Real.sqrt 2 ≤ 2 := by rw [Real.sqrt_le_left (by norm_num)]; norm_num
    linarith

theorem vfrac_bound {v : ℝ} (hv : 1 ≤ v) : 1 ≤ v * Real.exp (1 / v - 1) := by
  have h := Real.add_one_le_exp (1 / v - 1)
  have hv0 : 0 < v := by linarith
  have : v * (1 / v) ≤ v * Real.exp (1 / v - 1) := mul_le_mul_of_nonneg_left (by linarith) hv0.le
  rwa [mul_one_div_cancel hv0.ne'] at this

/-- The nugget is `m/(cond_max_target - 1)` with `m` independent of the target. -/
theorem calcNugget_form (o : NugOpts) {ne : ℕ} (hne : 0 < ne) (hd : 0 < o.dim) (he : o.etaMtd = .kbaseEta ∨ o.etaMtd = .kbaseEtaWDim) :
    ∃ m : ℝ, (ne : ℝ) ≤ m ∧ ∀ c > 1, calcNugget { o with condMaxTarget := c } ne =
      .ok (ne / (c - 1), if o.useGrad then some (m / (c - 1)) else none) := by
  have hed : o.etaMtd ≠ .dfltEta := by rcases he with h | h <;> rw [h] <;> decide
  have hn1 : (1 : ℝ) ≤ ne := by exact_mod_cast hne
  unfold calcNugget
  simp only [hed, if_false]
  cases hu : o.useGrad with
  | false => exact ⟨ne, le_rfl, fun c _ => by simp [calcNuggetKbase]⟩
  | true =>
    simp only [if_true]
    by_cases h1 : ne = 1
    · exact ⟨ne, le_rfl, fun c _ => by simp [h1, calcNuggetKbase]⟩
    simp only [h1, if_false]
    by_cases hp : o.mtd = .precon
    · refine ⟨1 + preconUb o.kernel ne o.dim, ?_, fun c _ => by simp [hp, calcNuggetKbase]⟩
      rw [preconUb_eq]
      have hM : 1 ≤ pairM o.kernel o.dim := by
        have h : (1 : ℝ) ≤ o.dim := by exact_mod_cast hd
        cases o.kernel
        · exact RB.one_le_seM h
        · exact RB.one_le_maM h
        · exact RB.one_le_seM h
      have : ((ne : ℝ) - 1) * 1 ≤ ((ne : ℝ) - 1) * pairM o.kernel o.dim := mul_le_mul_of_nonneg_left hM (by linarith)
      linarith
    simp only [hp, if_false]
    by_cases hr : o.mtd.rescales = true
    · simp only [hr, if_true]
      obtain ⟨hv1, hv2⟩ := sqrt2_le_vreq (ne := ne) (d := o.dim) (by omega) hd
      set vm := calcVreq ne o.dim with hvm
      have hvpos : 0 < vm := lt_of_lt_of_le (by positivity) hv1
      set vf := 2 * Real.sqrt o.dim / vm with hvf
      have hf1 : 1 ≤ vf := by rw [hvf, le_div_iff₀ hvpos]; linarith
      have hb := vfrac_bound hf1
      have hm : (ne : ℝ) ≤ 1 + ((ne : ℝ) - 1) * vf * Real.exp (1 / vf - 1) := by
        have : ((ne : ℝ) - 1) * 1 ≤ ((ne : ℝ) - 1) * (vf * Real.exp (1 / vf - 1)) := mul_le_mul_of_nonneg_left hb (by linarith)
        rw [mul_assoc]
        linarith
      refine ⟨1 + ((ne : ℝ) - 1) * vf * Real.exp (1 / vf - 1), hm, fun c hc => ?_⟩
      have hc' : 0 < c - 1 := by linarith
      unfold calcNuggetKfullVreq
      simp only [h1, if_false]
      rw [← hvm, pyAssert_true hv1, ok_bind, ← hvf, pyAssert_true (by linarith : (0.99 : ℝ) ≤ vf), ok_bind, pyAssert_true, ok_bind]
      · rfl
      · simp only [calcNuggetKbase]
        have h3 : (ne : ℝ) / (c - 1) ≤ (1 + ((ne : ℝ) - 1) * vf * Real.exp (1 / vf - 1)) / (c - 1) :=
          div_le_div_of_nonneg_right hm hc'.le
        have h4 : (0 : ℝ) ≤ ne / (c - 1) := by positivity
        linarith
    · simp only [hr, Bool.false_eq_true, if_false]
      rcases he with h | h
      · exact ⟨ne, le_rfl, fun c _ => by simp [h, calcNuggetKbase]⟩
      · refine ⟨ne * (o.dim + 1), ?_, fun c _ => ?_⟩
        · have : (ne : ℝ) * 1 ≤ ne * (o.dim + 1) := mul_le_mul_of_nonneg_left (by linarith [(Nat.cast_nonneg o.dim : (0 : ℝ) ≤ o.dim)]) (by linarith)
          linarith
        · simp only [h, calcNuggetKbase]
          congr 3
          ring

/-- **C23.** For every number of points, dimension and conditioning method the nugget is computed without an assertion
failing. The nugget for values is positive; with gradients the nugget for the full matrix is at least as large; and
both get strictly smaller when the target is raised. -/
theorem C23_nugget (o : NugOpts) {ne : ℕ} (hne : 0 < ne) (hd : 0 < o.dim) (hc : 1 < o.condMaxTarget)
    (he : o.etaMtd = .kbaseEta ∨ o.etaMtd = .kbaseEtaWDim) :
    ∃ b e, calcNugget o ne = .ok (b, e) ∧ 0 < b ∧ (o.useGrad = false → e = none) ∧
      (o.useGrad = true → ∃ x, e = some x ∧ b ≤ x) ∧
      ∀ c' > o.condMaxTarget, ∃ b' e', calcNugget { o with condMaxTarget := c' } ne = .ok (b', e') ∧ 0 < b' ∧ b' < b ∧
        (o.useGrad = true → ∃ x x', e = some x ∧ e' = some x' ∧ 0 < x' ∧ x' < x) := by
  obtain ⟨m, hm, hf⟩ := calcNugget_form o hne hd he
  have hc' : 0 < o.condMaxTarget - 1 := by linarith
  have hn : (0 : ℝ) < ne := by exact_mod_cast hne
  refine ⟨_, _, hf _ hc, by positivity, fun h => by simp [h], fun h => ?_, fun c' hlt => ?_⟩
  · exact ⟨m / (o.condMaxTarget - 1), by simp [h], div_le_div_of_nonneg_right hm hc'.le⟩
  · have h1 : 0 < c' - 1 := by linarith
    refine ⟨_, _, hf c' (by linarith), by positivity, ?_, fun h => ⟨m / (o.condMaxTarget - 1), m / (c' - 1), by simp [h], by simp [h],
      div_pos (by linarith) h1, ?_⟩⟩
    · exact div_lt_div_of_pos_left hn hc' (by linarith)
    · exact div_lt_div_of_pos_left (by linarith) hc' (by linarith)

/-- **C23**, remaining method: the configured constant is used as it is. -/
theorem C23_constant_nugget (o : NugOpts) (ne : ℕ) (he : o.etaMtd = .dfltEta) :
    calcNugget o ne = .ok (o.etaDflt, some o.etaDflt) := by
  simp [calcNugget, he]

/-! ### Concrete cases -/

/-- A preconditioned Matérn object in two dimensions whose nugget is the computed one. -/
def exGpPrec : Gp := { exGp with
  o := { precon := true, etaConst := true, etaK := (1 + preconUb .matern 2 2) / (10 - 1), condMaxTarget := 10, condMax := 10,
         condMaxAbs := 100, fro := false } }

theorem exGpPrec_ok : GpOk exGpPrec := by
  have h := exGp_ok
  exact ⟨h.x_r, h.x_c, h.fval_n, h.mask, h.nGrad, h.noMask, h.nData, h.grad_none, h.grad_some, h.std_fval, h.std_fgrad, h.fzero,
    h.gzero, h.noisy⟩

theorem exHpPrec_adm : HpAdm exGpPrec exHp := by
  have h := exHp_adm
  exact ⟨h.theta, h.kernel, h.vf_none, h.vf_some, h.vg_none, h.vg_some⟩

-- C20: noisy, masked; all hypotheses hold, so the bound applies
example : ∃ R out c, calcRtensor exGpPrec.x exGpPrec.x = .ok R ∧ calcAllK exGpPrec R exHp none true true none false = .ok out ∧
    out.condK = some c ∧ c ≤ 10 ∧ CondLe (unitDiag out.Kcov) 10 :=
  C20_precon_condition_bound exGpPrec_ok exHpPrec_adm rfl rfl rfl rfl (by simp [exGpPrec, exGp]) (by simp [exGpPrec, exGp])
    (by norm_num [exGpPrec]) (em := .kbaseEta) (by decide) (ed := 0) (b := 2 / (10 - 1))
    (by simp [calcNugget, preconNug, exGpPrec, exGp, calcNuggetKbase]) (v := 3) (by norm_num) rfl true

/-- A gradient-free noise-free object with the computed nugget. -/
def exGpFree : Gp := { exGp with
  useGrad := false
  nGrad := 0
  nData := 2
  bvec := none
  o := { precon := false, etaConst := true, etaK := 2 / (10 - 1), condMaxTarget := 10, condMax := 10,
         condMaxAbs := 100, fro := false }
  fvalZero := true
  fgradZero := true
  noisy := false
  stdFval := some ⟨2, fun _ => 0⟩
  grad := none }

theorem exGpFree_ok : GpOk exGpFree := by
  constructor
  all_goals first
    | rfl
    | exact fun _ => rfl
    | exact fun _ => ⟨_, rfl, rfl⟩
    | (intro h; simp [exGpFree, exGp] at h; done)
    | (intro _ h; simp [exGpFree, exGp] at h; done)

def exHpFree : HpVals := { theta := some exTheta, varK := some 3 }

theorem exHpFree_adm : HpAdm exGpFree exHpFree := by
  refine ⟨⟨exTheta, rfl, rfl, exTheta_pos⟩, ?_, fun _ => rfl, ?_, ?_, ?_⟩
  all_goals intro h; simp [exGpFree, exGp] at h

-- C21
example : ∃ R out c, calcRtensor exGpFree.x exGpFree.x = .ok R ∧ calcAllK exGpFree R exHpFree none true true none false = .ok out ∧
    out.condK = some c ∧ c ≤ 10 ∧ CondLe out.Kcov 10 :=
  C21_base_condition_bound exGpFree_ok exHpFree_adm rfl rfl rfl rfl (by simp [exGpFree, exGp]) rfl
    (by norm_num [exGpFree]) (mtd := .base) (em := .kbaseEta) (by decide) (ed := 0) (e := none)
    (by simp [calcNugget, exGpFree, exGp, calcNuggetKbase]) (v := 3) (by norm_num) rfl true

-- C22: the noisy preconditioned object of Props/Cov.lean recomputes its nugget
example : ∃ R out c, calcRtensor exGp.x exGp.x = .ok R ∧ calcAllK exGp R exHp none true true none false = .ok out ∧
    out.condK = some c ∧ c ≤ 10 ∧ CondLe (unitDiag out.Kcov) 10 :=
  C22_varying_nugget_object exGp_ok exHp_adm (fun _ => rfl) rfl rfl (by simp [exGp]) (.inl rfl) (by norm_num [exGp])
    (v := 3) (by norm_num) rfl true

-- C23: the rescaling method, where the assertions are evaluated
example : ∃ b e, calcNugget ⟨3, true, .sqExp, .rescaleOrigin, .kbaseEta, 1e10, 1e-8⟩ 5 = .ok (b, some e) ∧ 0 < b ∧ b ≤ e := by
  obtain ⟨b, e, h1, h2, -, h3, -⟩ := C23_nugget ⟨3, true, .sqExp, .rescaleOrigin, .kbaseEta, 1e10, 1e-8⟩ (ne := 5)
    (by norm_num) (by norm_num) (by norm_num) (.inl rfl)
  obtain ⟨x, rfl, hx⟩ := h3 rfl
  exact ⟨b, x, h1, h2, hx⟩

/-! C22 for the matrix of two equal observations, and C23 for the fixed nugget. -/
example := C22_varying_nugget_condition_bound (o := exGp.o) rfl rfl (by norm_num [exGp]) (useGrad := true) (fun _ => rfl) (n := 2) two_pos
  (K := 1) Matrix.PosSemidef.one (by simp) (N := fun _ => 1) (by simp) (fun h => (nomatch h)) (v := 3) (by norm_num) true
example := C23_constant_nugget ⟨3, true, .sqExp, .rescaleOrigin, .dfltEta, 1e10, 1e-8⟩ 5 rfl

end Props
