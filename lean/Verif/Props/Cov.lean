import Verif.Proofs.CovGp

/-! Properties C17 (closed form of the covariance), C18 (its Cholesky factor), C19 (positive definiteness) and
C24 (noise vector). -/

open Np Spec GP Matrix

noncomputable section

namespace Props

/-- The entries the covariance matrix should have: prior variance `v`, kernel matrix `K`, noise variances `N`, nugget
`η` added either to the diagonal or (with preconditioning) in proportion to the diagonal. -/
def covEntry (precon : Bool) {n : ℕ} (v : ℝ) (K : Mat n n) (N : Vec n) (η : ℝ) (i j : Fin n) : ℝ :=
  v * K i j + (if i = j then N i + η * (if precon then v * K i i + N i else v) else 0)

theorem cov_entry {o : CondOpts} {n : ℕ} {v : ℝ} {K : Mat n n} {N : Vec n} {cf cc : Bool} {out : CovOut n}
    (h : CovSpec o v K N cf cc out) (hv : 0 < v) (i j : Fin n) :
    out.Kcov i j = covEntry o.precon v K N out.etaK i j := by
  rw [h.cov]
  have hv' := hv.ne'
  simp only [Matrix.smul_apply, Matrix.add_apply, smul_eq_mul, kwn, covEntry, diagonal_apply]
  cases o.precon with
  | true =>
    simp only [if_true, diagonal_apply]
    by_cases hij : i = j
    · subst hij; simp only [if_true]; field_simp; ring
    · simp only [if_neg hij]; ring
  | false =>
    simp only [Bool.false_eq_true, if_false, one_apply]
    by_cases hij : i = j
    · subst hij; simp only [if_true]; field_simp; ring
    · simp only [if_neg hij]; ring

/-- **C17.** On a well-formed object with admissible hyperparameters and `varK > 0`, the covariance is computed and is
`varK*Kern + N + eta*D`, where `Kern` is the joint covariance of values and partial derivatives under the unit-variance
prior, `N` the noise variances in the order of the data, and `D` is `varK` times the identity, or with
preconditioning `diag(varK*Kern + N)`. With preconditioning the correlation matrix used for conditioning has unit
diagonal and is the covariance without the nugget divided by its standard deviations. The nugget is the configured
constant, or the largest absolute row sum of the matrix being conditioned over `cond_max_target - 1`. -/
theorem C17_covariance_closed_form {g : Gp} (hg : GpOk g) {hp : HpVals} (hh : HpAdm g hp)
    (hk : g.useGrad = true ∨ g.knownFval = true) (hprec : g.o.precon = true → g.useGrad = true) (hne : 0 < g.nEval)
    {v : ℝ} (hv : 0 < v) (hvk : hp.varK = some v) (cf cc : Bool) :
    ∃ R N K out, calcRtensor g.x g.x = .ok R ∧ calcNoiseVec g hp = .ok N ∧ NoiseSpec g hp N ∧ IsKern g hp K ∧
      calcAllK g R hp none cf cc none false = .ok out ∧ out.Kern = K ∧
      (∀ i j, out.Kcov i j = covEntry g.o.precon v K (toVec g.nData N) out.etaK i j) ∧
      (g.o.precon = true → ∃ C, out.Kcor = some C ∧ (∀ i, C i i = 1) ∧
        (∀ i j, C i j * (Real.sqrt (v * K i i + N.get i) * Real.sqrt (v * K j j + N.get j)) =
          v * K i j + if i = j then N.get i else 0) ∧
        (g.o.etaConst = false → out.etaK = (⨆ i, ∑ j, |C i j|) / (g.o.condMaxTarget - 1))) ∧
      (g.o.precon = false → out.Kcor = none ∧
        (g.o.etaConst = false → out.etaK = (⨆ i, ∑ j, |K i j|) / (g.o.condMaxTarget - 1))) ∧
      (g.o.etaConst = true → out.etaK = g.o.etaK) := by
  obtain ⟨R, hR, -⟩ := calcRtensor_ok (X := g.x) (Y := g.x) rfl
  obtain ⟨N, K, out, hN, hNs, hK, hpsd, hdiag, hone, hout, hs⟩ := calcAllK_ok hg hh hk hprec hne hR cf cc none false hv
    ⟨⟨v, by simpa using hvk, fun _ => rfl⟩, by simp⟩
  have hA : ∀ i, 0 < kwn v K (toVec g.nData N) i i := by
    intro i
    simp only [kwn, Matrix.add_apply, diagonal_apply_eq]
    have h1 := hdiag i
    have h2 := NoiseSpec.nonneg hg hh hNs i
    have : 0 ≤ toVec g.nData N i / v := by positivity
    linarith
  refine ⟨R, N, K, out, hR, hN, hNs, hK, hout, hs.kern, cov_entry hs hv, ?_, ?_, ?_⟩
  · intro hp
    refine ⟨corr (kwn v K (toVec g.nData N)), by rw [hs.cor, if_pos hp], corr_diag hA, ?_, ?_⟩
    · intro i j
      have e : ∀ i : Fin g.nData, v * K i i + N.get i = v * kwn v K (toVec g.nData N) i i := by
        intro i
        simp only [kwn, Matrix.add_apply, diagonal_apply_eq, toVec]
        field_simp
      rw [e i, e j, Real.sqrt_mul hv.le, Real.sqrt_mul hv.le]
      have hsv : Real.sqrt v * Real.sqrt v = v := Real.mul_self_sqrt hv.le
      have h1 := (Real.sqrt_pos.mpr (hA i)).ne'
      have h2 := (Real.sqrt_pos.mpr (hA j)).ne'
      have : corr (kwn v K (toVec g.nData N)) i j * (Real.sqrt (kwn v K (toVec g.nData N) i i) *
          Real.sqrt (kwn v K (toVec g.nData N) j j)) = kwn v K (toVec g.nData N) i j := by
        simp only [corr, of_apply]; field_simp
      calc _ = (Real.sqrt v * Real.sqrt v) * (corr (kwn v K (toVec g.nData N)) i j *
            (Real.sqrt (kwn v K (toVec g.nData N) i i) * Real.sqrt (kwn v K (toVec g.nData N) j j))) := by ring
        _ = v * kwn v K (toVec g.nData N) i j := by rw [hsv, this]
        _ = _ := by
          simp only [kwn, Matrix.add_apply, diagonal_apply, toVec]
          split_ifs <;> field_simp
          ring
    · intro he; rw [hs.eta]; simp [he, hp]
  · intro hp
    exact ⟨by rw [hs.cor]; simp [hp], fun he => by rw [hs.eta]; simp [he, hp]⟩
  · intro he; rw [hs.eta]; simp [he]

/-- **C18.** Whenever the covariance code returns a Cholesky factor, whatever the conditioning mode and variance
argument, solving with that factor inverts the returned covariance matrix and twice the sum of the logarithms of its
diagonal is the log-determinant of that matrix. -/
theorem C18_factor_of_covariance {g : Gp} (hg : GpOk g) {hp : HpVals} (hh : HpAdm g hp)
    (hk : g.useGrad = true ∨ g.knownFval = true) (hprec : g.o.precon = true → g.useGrad = true) (hne : 0 < g.nEval)
    {v : ℝ} (hv : 0 < v) (hvk : hp.varK = some v) (cf cc normlz : Bool) {R : Arr3} (hR : calcRtensor g.x g.x = .ok R)
    {out : CovOut g.nData} (ho : calcAllK g R hp none cf cc none normlz = .ok out) {F : ChoFac g.nData}
    (hF : out.chofac = some F) :
    (∀ b : Vec g.nData, out.Kcov *ᵥ choSolveV F b = b) ∧
    (∀ (m : ℕ) (B : Mat g.nData m), out.Kcov * choSolve F B = B) ∧
    0 < out.Kcov.det ∧ choLogDet F = Real.log out.Kcov.det := by
  obtain ⟨N, K, out', -, -, -, -, -, -, hout, hs⟩ := calcAllK_ok hg hh hk hprec hne hR cf cc none normlz
    (v := if normlz then 1 else v) (by split_ifs <;> [norm_num; exact hv])
    ⟨⟨v, by simpa using hvk, fun h => by simp [h]⟩, fun h => by simp [h]⟩
  rw [hout] at ho
  obtain rfl : out' = out := by simpa using ho
  obtain ⟨h1, h2, h3⟩ := hs.fac F hF
  have hdet := h3.det_pos
  have hu : IsUnit out'.Kcov.det := hdet.ne'.isUnit
  refine ⟨fun b => ?_, fun m B => ?_, hdet, h2⟩
  · rw [choSolveV, h1, mulVec_mulVec, Matrix.mul_nonsing_inv _ hu, one_mulVec]
  · rw [choSolve, h1, ← Matrix.mul_assoc, Matrix.mul_nonsing_inv _ hu, Matrix.one_mul]

/-- PSD plus a positive diagonal is positive definite. -/
theorem _root_.GP.posDef_add_diagonal {n : ℕ} {A : Mat n n} (hA : A.PosSemidef) {d : Vec n} (hd : ∀ i, 0 < d i) :
    (A + diagonal d).PosDef := Matrix.PosDef.posSemidef_add hA (Matrix.PosDef.diagonal hd)

theorem _root_.GP.CovSpec.posDef {o : CondOpts} {n : ℕ} {v : ℝ} {K : Mat n n} {N : Vec n} {cf cc : Bool} {out : CovOut n}
    (h : CovSpec o v K N cf cc out) (hv : 0 < v) (hK : K.PosSemidef) (hd : ∀ i, 0 < K i i) (hN : ∀ i, 0 ≤ N i)
    (hη : 0 < out.etaK) : out.Kcov.PosDef := by
  rw [h.cov]
  have e : kwn v K N + out.etaK • (if o.precon = true then diagonal (fun i => kwn v K N i i) else 1) =
      K + diagonal (fun i => N i / v + out.etaK * (if o.precon then kwn v K N i i else 1)) := by
    ext i j
    simp only [Matrix.add_apply, Matrix.smul_apply, smul_eq_mul, kwn, diagonal_apply]
    cases o.precon <;> by_cases hij : i = j <;> simp [hij, one_apply, diagonal_apply] <;> ring
  rw [e]
  refine (GP.posDef_add_diagonal hK fun i => ?_).smul hv
  have h1 : 0 ≤ N i / v := div_nonneg (hN i) hv.le
  have h2 : 0 < (if o.precon = true then kwn v K N i i else 1) := by
    split_ifs
    · simp only [kwn, Matrix.add_apply, diagonal_apply_eq]; linarith [hd i]
    · norm_num
  positivity

/-- **C19.** With a positive nugget and `varK > 0` the covariance matrix of any data set (duplicated points included)
at any admissible hyperparameters is computed and positive definite, and a factorisation requested without the
condition-number check is always returned. -/
theorem C19_posDef {g : Gp} (hg : GpOk g) {hp : HpVals} (hh : HpAdm g hp)
    (hk : g.useGrad = true ∨ g.knownFval = true) (hprec : g.o.precon = true → g.useGrad = true) (hne : 0 < g.nEval)
    {v : ℝ} (hv : 0 < v) (hvk : hp.varK = some v)
    (hη : if g.o.etaConst then 0 < g.o.etaK else 1 < g.o.condMaxTarget) (cf cc normlz : Bool) :
    ∃ R out, calcRtensor g.x g.x = .ok R ∧ calcAllK g R hp none cf cc none normlz = .ok out ∧ out.Kcov.PosDef ∧
      0 < out.etaK ∧ (cf = true → cc = false → ∃ F, out.chofac = some F) := by
  obtain ⟨R, hR, -⟩ := calcRtensor_ok (X := g.x) (Y := g.x) rfl
  have hw : 0 < (if normlz then 1 else v : ℝ) := by split_ifs <;> [norm_num; exact hv]
  obtain ⟨N, K, out, hN, hNs, hK, hpsd, hdiag, hone, hout, hs⟩ := calcAllK_ok hg hh hk hprec hne hR cf cc none normlz
    (v := if normlz then 1 else v) hw
    ⟨⟨v, by simpa using hvk, fun h => by simp [h]⟩, fun h => by simp [h]⟩
  set w : ℝ := if normlz then 1 else v with hwdef
  have hNn := NoiseSpec.nonneg hg hh hNs
  have heta : 0 < out.etaK := by
    rw [hs.eta]
    cases he : g.o.etaConst with
    | true => simpa [he] using hη
    | false =>
      simp only [he, Bool.false_eq_true, if_false] at hη ⊢
      refine div_pos ?_ (by linarith)
      have hnd : 0 < g.nData := by rw [hg.nData]; omega
      set M : Mat g.nData g.nData := if g.o.precon = true then corr (kwn w K (toVec g.nData N)) else K
      have hM : 0 < M ⟨0, hnd⟩ ⟨0, hnd⟩ := by
        show 0 < (if g.o.precon = true then corr (kwn w K (toVec g.nData N)) else K) ⟨0, hnd⟩ ⟨0, hnd⟩
        split_ifs
        · rw [corr_diag]
          · norm_num
          · intro i
            simp only [kwn, Matrix.add_apply, diagonal_apply_eq]
            have := hdiag i
            have : 0 ≤ toVec g.nData N i / w := div_nonneg (hNn i) hw.le
            linarith
        · exact hdiag _
      calc 0 < |M ⟨0, hnd⟩ ⟨0, hnd⟩| := abs_pos.mpr hM.ne'
        _ ≤ ∑ j, |M ⟨0, hnd⟩ j| := Finset.single_le_sum (f := fun j => |M ⟨0, hnd⟩ j|) (fun j _ => abs_nonneg _) (Finset.mem_univ _)
        _ ≤ _ := le_ciSup (f := fun i => ∑ j, |M i j|) (Set.finite_range _).bddAbove _
  have hpd := hs.posDef hw hpsd hdiag hNn heta
  exact ⟨R, out, hR, hout, hpd, heta, fun h1 h2 => hs.facSome h1 (fun h => by rw [h2] at h; cases h) hpd⟩

/-- **C24 (part).** `calc_noise_vec` returns a vector of the length of the data vector holding the noise variance of
each datum: the values first and then the derivatives, coordinate by coordinate, over the points with gradients.
Missing: unknown value noise without gradients, where the code raises
(`C24_unknown_noise_without_gradients_raises`). -/
theorem C24_noise_vector_partial {g : Gp} (hg : GpOk g) {hp : HpVals} (hh : HpAdm g hp)
    (hk : g.useGrad = true ∨ g.knownFval = true) :
    ∃ v, calcNoiseVec g hp = .ok v ∧ v.n = g.nEval + g.nGrad * g.dim ∧
      (∀ a < g.nEval, v.get a = valVar g hp a) ∧
      (∀ i < g.dim, ∀ a < g.nGrad, v.get (g.nEval + i * g.nGrad + a) = gradVar g hp a i) := by
  obtain ⟨v, hv, hs⟩ := calcNoiseVec_ok hg hh hk
  exact ⟨v, hv, by rw [hs.n, hg.nData], hs.val, hs.grad⟩

/-- **C24, the excluded case.** For a gradient-free model with unknown noise in the values, `calc_noise_vec` raises for
every data set and all hyperparameters (`std_fval` is `None` and its `.size` is read). -/
theorem C24_unknown_noise_without_gradients_raises {g : Gp} (hg : GpOk g) (hp : HpVals) (hu : g.useGrad = false)
    (hk : g.knownFval = false) : calcNoiseVec g hp = .error .attribute := by
  have hz : g.fvalZero = false := by
    by_contra h
    have := hg.fzero (by simpa using h)
    rw [hk] at this; cases this
  simp [calcNoiseVec, hu, hk, hz]

/-- Two points in the plane, gradient at the second only, value noise known to be 0.1 and 0.2, gradient noise unknown,
preconditioning with a varying nugget. -/
def exGp : Gp where
  dim := 2
  useGrad := true
  kernel := .matern
  nEval := 2
  nGrad := 1
  nData := 4
  bvec := some [false, true]
  o := { precon := true, etaConst := false, etaK := 0, condMaxTarget := 10, condMax := 10, condMaxAbs := 100, fro := false }
  knownFval := true
  knownFgrad := false
  fvalZero := false
  fgradZero := false
  noisy := true
  x := exX
  fval := ⟨2, fun p => p⟩
  stdFval := some ⟨2, fun p => if p = 0 then 1 / 10 else 1 / 5⟩
  grad := some ⟨1, 2, fun _ d => d⟩
  stdGrad := none

/-- Hyperparameters for it. -/
def exHp : HpVals where
  theta := some exTheta
  varK := some 3
  varFgrad := some (1 / 2)

theorem exGp_ok : GpOk exGp where
  x_r := rfl
  x_c := rfl
  fval_n := rfl
  mask := by intro l h; simp [exGp] at h; subst h; rfl
  nGrad := rfl
  noMask := by intro h; simp [exGp] at h
  nData := rfl
  grad_none := by intro h; simp [exGp] at h
  grad_some := fun _ => ⟨_, rfl, rfl, rfl⟩
  std_fval := fun _ => ⟨_, rfl, rfl⟩
  std_fgrad := by intro h; simp [exGp] at h
  fzero := by intro h; simp [exGp] at h
  gzero := by intro _ h; simp [exGp] at h
  noisy := rfl

theorem exHp_adm : HpAdm exGp exHp where
  theta := ⟨exTheta, rfl, rfl, exTheta_pos⟩
  kernel := by intro h; simp [exGp] at h
  vf_none := fun _ => rfl
  vf_some := by intro h; simp [exGp] at h
  vg_none := by intro _ h; simp [exGp] at h
  vg_some := fun _ _ => ⟨1 / 2, rfl, by norm_num⟩

-- C17, C18, C19, C24: the hypotheses hold for this noisy, masked, preconditioned object
example : GpOk exGp ∧ HpAdm exGp exHp ∧ (exGp.useGrad = true ∨ exGp.knownFval = true) ∧
    (exGp.o.precon = true → exGp.useGrad = true) ∧ 0 < exGp.nEval ∧ exHp.varK = some 3 ∧
    (if exGp.o.etaConst then 0 < exGp.o.etaK else 1 < exGp.o.condMaxTarget) :=
  ⟨exGp_ok, exHp_adm, .inl rfl, fun _ => rfl, by simp [exGp], rfl, by norm_num [exGp]⟩

-- and the noise vector of this object is not trivial
example : valVar exGp exHp 1 = (1 / 5) ^ 2 ∧ gradVar exGp exHp 0 1 = 1 / 2 := by
  constructor <;> norm_num [valVar, gradVar, exGp, exHp]

-- C18: a factor is returned for it
example : ∃ R out F, calcRtensor exGp.x exGp.x = .ok R ∧ calcAllK exGp R exHp none true false none false = .ok out ∧
    out.chofac = some F := by
  obtain ⟨R, out, h1, h2, -, -, h3⟩ := C19_posDef exGp_ok exHp_adm (.inl rfl) (fun _ => rfl) (by simp [exGp])
    (v := 3) (by norm_num) rfl (by norm_num [exGp]) true false false
  obtain ⟨F, hF⟩ := h3 rfl rfl
  exact ⟨R, out, F, h1, h2, hF⟩

/-- Gradient-free variant with unknown value noise. -/
def exGpBase : Gp := { exGp with
  useGrad := false
  nGrad := 0
  nData := 2
  bvec := none
  o := { exGp.o with precon := false }
  knownFval := false
  stdFval := none
  grad := none }

-- C24, excluded case: such objects exist
example : GpOk exGpBase ∧ exGpBase.useGrad = false ∧ exGpBase.knownFval = false := by
  refine ⟨?_, rfl, rfl⟩
  constructor
  all_goals first
    | rfl
    | exact fun _ => rfl
    | (intro h; simp [exGpBase, exGp] at h; done)
    | (intro _ h; simp [exGpBase, exGp] at h; done)

/-! The theorems applied to `exGp`, `exHp`. -/
example := C17_covariance_closed_form exGp_ok exHp_adm (.inl rfl) (fun _ => rfl) (by decide) (v := 3) (by norm_num) rfl true false
example : ∃ R out F, calcRtensor exGp.x exGp.x = .ok R ∧ calcAllK exGp R exHp none true false none false = .ok out ∧
    out.chofac = some F ∧ (∀ b : Vec exGp.nData, out.Kcov *ᵥ choSolveV F b = b) ∧ choLogDet F = Real.log out.Kcov.det := by
  obtain ⟨R, out, h1, h2, -, -, h3⟩ := C19_posDef exGp_ok exHp_adm (.inl rfl) (fun _ => rfl) (by decide)
    (v := 3) (by norm_num) rfl (by norm_num [exGp]) true false false
  obtain ⟨F, hF⟩ := h3 rfl rfl
  have h := C18_factor_of_covariance exGp_ok exHp_adm (.inl rfl) (fun _ => rfl) (by decide) (v := 3) (by norm_num) rfl true false false h1 h2 hF
  exact ⟨R, out, F, h1, h2, hF, h.1, h.2.2.2⟩
example := C24_noise_vector_partial exGp_ok exHp_adm (.inl rfl)
example : calcNoiseVec exGpBase exHp = .error .attribute :=
  C24_unknown_noise_without_gradients_raises (by
    constructor
    all_goals first
      | rfl
      | exact fun _ => rfl
      | (intro h; simp [exGpBase, exGp] at h; done)
      | (intro _ h; simp [exGpBase, exGp] at h; done)) exHp rfl rfl

end Props
