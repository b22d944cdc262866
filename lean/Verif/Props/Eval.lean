import Verif.Proofs.EvalMask1
import Verif.Spec.Ready

/-! Properties C36-C43: predictions. -/

open Np Spec GP Matrix

noncomputable section

namespace GP

theorem dataSpec_unique {g : Gp} (hg : GpOk g) {y y' : Vec g.nData} (h : DataSpec g y) (h' : DataSpec g y') : y = y' := by
  funext q
  have hq : (q : ℕ) < g.nEval + g.nGrad * g.dim := by rw [← hg.nData]; exact q.2
  rcases row_cases hq with hv | ⟨i, a, hi, ha, he⟩
  · rw [h.val q hv, h'.val q hv]
  · have hu : g.useGrad = true := by
      by_contra hu
      rw [hg.nGrad] at ha
      simp [hu] at ha
    obtain ⟨G, hG, -, -⟩ := hg.grad_some hu
    rw [h.grad G hG q i hi a ha he, h'.grad G hG q i hi a ha he]

theorem isNoise_unique {g : Gp} (hg : GpOk g) {hp : HpVals} {N N' : Vec g.nData} (h : IsNoise g hp N) (h' : IsNoise g hp N') :
    N = N' := by
  obtain ⟨A, hA, hN⟩ := h
  obtain ⟨B, hB, hN'⟩ := h'
  funext q
  rw [hN, hN']
  have hq : (q : ℕ) < g.nEval + g.nGrad * g.dim := by rw [← hg.nData]; exact q.2
  rcases row_cases hq with hv | ⟨i, a, hi, ha, he⟩
  · rw [hA.val q hv, hB.val q hv]
  · rw [he, hA.grad i hi a ha, hB.grad i hi a ha]

theorem isKern_unique {g : Gp} (hg : GpOk g) {hp : HpVals} (hh : HpAdm g hp) {K K' : Mat g.nData g.nData} (h : IsKern g hp K)
    (h' : IsKern g hp K') : K = K' := by
  ext i j; rw [isKern_entry hg hh h, isKern_entry hg hh h']

/-- Everything `setup_eval_model` establishes. -/
theorem ready_setup {g : Gp} {hp : HpVals} {v β : ℝ} (hr : ReadyV g hp v β) {cc : Bool} {st : EvalState g.nData}
    (hst : setupEvalModel g hp cc = .ok st) : ∃ N K, SetupSpec g hp β cc N K st ∧ IsNoise g hp N := by
  obtain ⟨b, hb, hbn, rfl⟩ := hr.beta
  obtain ⟨N, K, st', h1, h2⟩ := setup_ok hr.ok hr.adm hr.noise hr.precon hr.ne hr.vpos hr.varK hb hbn cc
  rw [hst] at h1
  cases h1
  obtain ⟨Na, hNa, hN⟩ := h2.noise
  exact ⟨N, K, h2, Na, hNa, fun i => by rw [hN]; rfl⟩

theorem ready_eval {g : Gp} {hp : HpVals} {v β : ℝ} (hr : Ready g hp v β) {cc : Bool} {N : Vec g.nData} {K : Mat g.nData g.nData}
    {st : EvalState g.nData} (hs : SetupSpec g hp β cc N K st) (hF : st.chofac ≠ none) {X : Arr2} (hX : X.c = g.dim)
    (hXr : 0 < X.r) (cg ch : Bool) (hch : HessOk g hp X cg ch) :
    evalModel g st hp X cg ch = .ok (evalClosed g hp st.KernEta (st.KernEta⁻¹ *ᵥ (st.dataVec - priorMean g β)) β v X cg ch) := by
  obtain ⟨F, hF⟩ := Option.ne_none_iff_exists'.mp hF
  obtain ⟨b, hb, hbn, rfl⟩ := hr.beta
  exact evalModel_ok hr.ok hr.adm hr.vpos hr.varK hb hbn hs (hs.etaNonneg hr.eta) hF hX hXr hr.mask cg ch hch

theorem ready_vals {g : Gp} {hp : HpVals} {v β : ℝ} (hr : ReadyV g hp v β) {cc : Bool} {N : Vec g.nData} {K : Mat g.nData g.nData}
    {st : EvalState g.nData} (hs : SetupSpec g hp β cc N K st) (hF : st.chofac ≠ none) {X : Arr2} (hX : X.c = g.dim)
    (hXr : 0 < X.r) (cg : Bool) : ∃ out, evalModel g st hp X cg false = .ok out ∧
      out.mu = (fun a : Fin X.r => muF g hp (st.KernEta⁻¹ *ᵥ (st.dataVec - priorMean g β)) β (X.get a)) ∧
      out.sig = fun a : Fin X.r => sgF g hp st.KernEta v (X.get a) := by
  obtain ⟨F, hF⟩ := Option.ne_none_iff_exists'.mp hF
  obtain ⟨b, hb, hbn, rfl⟩ := hr.beta
  exact evalModel_vals hr.ok hr.adm hr.vpos hr.varK hb hbn hs (hs.etaNonneg hr.eta) hF hX hXr hr.mask cg

theorem noHess {g : Gp} {hp : HpVals} {X : Arr2} {cg : Bool} : HessOk g hp X cg false := fun h => by cases h

theorem ready_pd {g : Gp} {hp : HpVals} {β : ℝ} {cc : Bool} {N : Vec g.nData} {K : Mat g.nData g.nData}
    {st : EvalState g.nData} (hs : SetupSpec g hp β cc N K st) (hF : st.chofac ≠ none) : st.KernEta.PosDef := by
  obtain ⟨F, hF⟩ := Option.ne_none_iff_exists'.mp hF
  exact (hs.fac F hF).2

theorem sgF_sq {g : Gp} {hp : HpVals} {v β : ℝ} (hr : ReadyV g hp v β) {cc : Bool} {N : Vec g.nData} {K : Mat g.nData g.nData}
    {st : EvalState g.nData} (hs : SetupSpec g hp β cc N K st) (hF : st.chofac ≠ none) (x : Pt) :
    sgF g hp st.KernEta v x ^ 2 = v * s2F g hp st.KernEta x := by
  have h := (s2_nonneg hr.ok hr.adm hs (hs.etaNonneg hr.eta) (ready_pd hs hF) x).1
  rw [sgF, mul_pow, Real.sq_sqrt h, Real.sq_sqrt hr.vpos.le, mul_comm]

theorem smul_inv_mulVec {n : ℕ} {M : Mat n n} (hM : M.PosDef) {v : ℝ} (hv : 0 < v) (u : Vec n) :
    (v • M)⁻¹ *ᵥ u = v⁻¹ • (M⁻¹ *ᵥ u) := by
  have hu : IsUnit M.det := (posDef_detne hM).isUnit
  have : (v • M)⁻¹ = v⁻¹ • M⁻¹ := by
    apply Matrix.inv_eq_right_inv
    rw [Matrix.smul_mul, Matrix.mul_smul, Matrix.mul_nonsing_inv _ hu, smul_smul, mul_inv_cancel₀ hv.ne', one_smul]
  rw [this, Matrix.smul_mulVec]

/-- The density determines the parameters of a normal distribution. -/
theorem normLog_inj {μ μ' s s' : ℝ} (hs : 0 < s) (hs' : 0 < s') (h : ∀ t, normLog μ s t = normLog μ' s' t) : μ = μ' ∧ s = s' := by
  have h1 := h μ
  have h2 := h μ'
  unfold normLog at h1 h2
  simp only [sub_self, ne_eq, OfNat.ofNat_ne_zero, not_false_eq_true, zero_pow, neg_zero, zero_div] at h1 h2
  have a1 : 0 ≤ (μ - μ') ^ 2 / (2 * s') := by positivity
  have a2 : 0 ≤ (μ' - μ) ^ 2 / (2 * s) := by positivity
  rw [neg_div] at h1 h2
  have e : Real.log s = Real.log s' := by linarith
  have hss : s = s' := Real.log_injOn_pos hs hs' e
  refine ⟨?_, hss⟩
  have : (μ - μ') ^ 2 / (2 * s') = 0 := by linarith
  rw [div_eq_zero_iff] at this
  rcases this with h0 | h0
  · have := pow_eq_zero_iff (two_ne_zero) |>.mp h0; linarith
  · linarith

theorem condNormal_unique {n : ℕ} {C : Mat n n} {k : Vec n} {v : ℝ} {m : Vec n} {m0 : ℝ} {y : Vec n} {μ s μ' s' : ℝ}
    (h : CondNormal C k v m m0 y μ s) (h' : CondNormal C k v m m0 y μ' s') : μ = μ' ∧ s = s' :=
  normLog_inj h.1 h'.1 fun t => by
    have h1 := h.2.2 t
    have h2 := h'.2.2 t
    linarith

end GP

namespace Props

/-- **C36/C37**, exact form for all data. After `setup_eval_model` with a Cholesky factor, `eval_model` returns at
every point the mean and standard deviation of the conditional distribution of the function value given the data, under
the prior with variance `varK`, mean `β` and kernel at the current hyperparameters, where the data have noise variances
`varK * N` and the nugget `eta` (`N`: the noise variances of the data). The factor `varK` on the noise is what the code
does, see `C36_noisy_not_posterior`; it is 1 in the noise-free case and for `varK = 1`, see
`C36_mean_is_posterior_mean_partial`. -/
theorem C36_posterior_with_scaled_noise {g : Gp} {hp : HpVals} {v β : ℝ} (hr : ReadyV g hp v β) {cc : Bool} {st : EvalState g.nData}
    (hst : setupEvalModel g hp cc = .ok st) (hF : st.chofac ≠ none) {X : Arr2} (hX : X.c = g.dim) (hXr : 0 < X.r) (cg : Bool) :
    ∃ out, evalModel g st hp X cg false = .ok out ∧
      ∀ N, IsNoise g hp N → ∀ K, IsKern g hp K → ∀ y, DataSpec g y → ∀ a : Fin X.r, ∀ k, IsCross g hp (X.get a) k →
        0 < out.sig a →
        CondNormal (noisyCov g.o.precon v K (v • N) st.etaK) (v • k) v (priorMean g β) β y (out.mu a) (out.sig a ^ 2) := by
  obtain ⟨N', K', hs, hN'⟩ := ready_setup hr hst
  obtain ⟨out, ho, hom, hos⟩ := ready_vals hr hs hF hX hXr cg
  refine ⟨out, ho, ?_⟩
  rw [hom, hos]
  intro N hN K hK y hy a k hk hsig
  have hpd := ready_pd hs hF
  obtain rfl := isNoise_unique hr.ok hN hN'
  obtain rfl := isKern_unique hr.ok hr.adm hK hs.isKern
  obtain rfl := dataSpec_unique hr.ok hy hs.data
  obtain rfl := isCross_eq hr.ok hr.adm hk
  have hC : noisyCov g.o.precon v K (v • N) st.etaK = v • st.KernEta := by
    rw [hs.cov]
    ext i j
    simp only [noisyCov, of_apply, Matrix.smul_apply, Matrix.add_apply, diagonal_apply, addDiag, Pi.smul_apply, smul_eq_mul]
    by_cases hij : i = j
    · simp only [hij, if_true]
      split_ifs <;> ring
    · simp only [hij, if_false]; ring
  have hCpd : (v • st.KernEta).PosDef := hpd.smul hr.vpos
  have hsq : sgF g hp st.KernEta v (X.get a) ^ 2 = v - (v • kv g hp (X.get a)) ⬝ᵥ (v • st.KernEta)⁻¹ *ᵥ (v • kv g hp (X.get a)) := by
    rw [sgF_sq hr hs hF, smul_inv_mulVec hpd hr.vpos, mulVec_smul, s2F]
    simp only [smul_dotProduct, dotProduct_smul, smul_eq_mul]
    have := hr.vpos.ne'
    field_simp
  have hmu : muF g hp (st.KernEta⁻¹ *ᵥ (st.dataVec - priorMean g β)) β (X.get a) =
      β + (v • kv g hp (X.get a)) ⬝ᵥ (v • st.KernEta)⁻¹ *ᵥ (st.dataVec - priorMean g β) := by
    rw [smul_inv_mulVec hpd hr.vpos, muF]
    simp only [smul_dotProduct, dotProduct_smul, smul_eq_mul]
    have := hr.vpos.ne'
    field_simp
  have hpos : 0 < v - (v • kv g hp (X.get a)) ⬝ᵥ (v • st.KernEta)⁻¹ *ᵥ (v • kv g hp (X.get a)) := by
    rw [← hsq]
    have : 0 < sgF g hp st.KernEta v (X.get a) := hsig
    positivity
  rw [hC]
  show CondNormal _ _ _ _ _ _ (muF g hp _ β (X.get a)) (sgF g hp st.KernEta v (X.get a) ^ 2)
  rw [hsq, hmu]
  exact condNormal_of hCpd hpos _ _ _

/-- **C36 (part).** For noise-free data, or `varK = 1`, the mean (and variance) returned by `eval_model` at every point
are those of the conditional distribution given the data under the GP prior: covariance `varK*Kern` plus the noise
variances and the nugget, i.e. the covariance of C17. Missing: noisy data with `varK ≠ 1`, for which the statement is
false (`C36_noisy_not_posterior`) and the exact result is `C36_posterior_with_scaled_noise`. -/
theorem C36_mean_is_posterior_mean_partial {g : Gp} {hp : HpVals} {v β : ℝ} (hr : ReadyV g hp v β) {cc : Bool}
    {st : EvalState g.nData} (hst : setupEvalModel g hp cc = .ok st) (hF : st.chofac ≠ none)
    {N : Vec g.nData} (hN : IsNoise g hp N) (hv1 : (∀ i, N i = 0) ∨ v = 1)
    {X : Arr2} (hX : X.c = g.dim) (hXr : 0 < X.r) (cg : Bool) :
    ∃ out, evalModel g st hp X cg false = .ok out ∧
      ∀ K, IsKern g hp K → ∀ y, DataSpec g y → ∀ a : Fin X.r, ∀ k, IsCross g hp (X.get a) k → 0 < out.sig a →
        CondNormal (noisyCov g.o.precon v K N st.etaK) (v • k) v (priorMean g β) β y (out.mu a) (out.sig a ^ 2) := by
  obtain ⟨out, h1, h2⟩ := C36_posterior_with_scaled_noise hr hst hF hX hXr cg
  refine ⟨out, h1, fun K hK y hy a k hk hsig => ?_⟩
  have h3 := h2 N hN K hK y hy a k hk hsig
  have : v • N = N := by
    funext i
    rcases hv1 with h | h
    · simp [h i]
    · simp [h]
  rwa [this] at h3

/-- **C37.** After `setup_eval_model` with a Cholesky factor, `eval_model` never fails (in particular its assertion on the
sign of the variance never fires), and at every point `0 ≤ σ` and `σ² ≤ varK`; with a positive nugget `σ > 0`. That `σ²`
is the conditional variance is part of `C36_posterior_with_scaled_noise`. -/
theorem C37_variance_bounds {g : Gp} {hp : HpVals} {v β : ℝ} (hr : ReadyV g hp v β) {cc : Bool} {st : EvalState g.nData}
    (hst : setupEvalModel g hp cc = .ok st) (hF : st.chofac ≠ none) {X : Arr2} (hX : X.c = g.dim) (hXr : 0 < X.r) (cg : Bool) :
    ∃ out, evalModel g st hp X cg false = .ok out ∧ ∀ a, 0 ≤ out.sig a ∧ out.sig a ^ 2 ≤ v ∧
      ((if g.o.etaConst then 0 < g.o.etaK else 1 < g.o.condMaxTarget) → 0 < out.sig a) := by
  obtain ⟨N, K, hs, hN⟩ := ready_setup hr hst
  obtain ⟨out, ho, -, hos⟩ := ready_vals hr hs hF hX hXr cg
  refine ⟨out, ho, ?_⟩
  rw [hos]
  intro a
  obtain ⟨h1, h2, h3⟩ := s2_nonneg hr.ok hr.adm hs (hs.etaNonneg hr.eta) (ready_pd hs hF) (X.get a)
  refine ⟨mul_nonneg (Real.sqrt_nonneg _) (Real.sqrt_nonneg _), ?_, fun h => ?_⟩
  · show sgF g hp st.KernEta v (X.get a) ^ 2 ≤ v
    rw [sgF_sq hr hs hF]
    nlinarith [hr.vpos]
  · exact mul_pos (Real.sqrt_pos.mpr (h3 (hs.etaPos h))) (Real.sqrt_pos.mpr hr.vpos)

/-- **C37**, the whole pipeline with a positive nugget and without the condition-number check: setting the model up and
evaluating it anywhere succeeds, for every data set and all admissible hyperparameters. -/
theorem C37_pipeline_total {g : Gp} {hp : HpVals} {v β : ℝ} (hr : ReadyV g hp v β)
    (hη : if g.o.etaConst then 0 < g.o.etaK else 1 < g.o.condMaxTarget) {X : Arr2} (hX : X.c = g.dim) (hXr : 0 < X.r) (cg : Bool) :
    ∃ st out, setupEvalModel g hp false = .ok st ∧ evalModel g st hp X cg false = .ok out ∧
      ∀ a, 0 < out.sig a ∧ out.sig a ^ 2 ≤ v := by
  obtain ⟨b, hb, hbn, hbβ⟩ := hr.beta
  obtain ⟨N, K, st, hst, hs⟩ := setup_ok hr.ok hr.adm hr.noise hr.precon hr.ne hr.vpos hr.varK hb hbn false
  have hpd : st.KernEta.PosDef := by
    rw [hs.cov]
    obtain ⟨Na, hNa, rfl⟩ := hs.noise
    have hN := NoiseSpec.nonneg hr.ok hr.adm hNa
    refine posDef_add_diagonal hs.psd fun i => add_pos_of_nonneg_of_pos (hN i) (mul_pos (hs.etaPos hη) ?_)
    split_ifs
    · have := hs.diag i; have := hN i; linarith
    · norm_num
  obtain ⟨F, hF⟩ := hs.facSome (.inl rfl) hpd
  obtain ⟨out, h1, h2⟩ := C37_variance_bounds hr hst (by rw [hF]; simp) hX hXr cg
  exact ⟨st, out, hst, h1, fun a => ⟨(h2 a).2.2 hη, (h2 a).2.1⟩⟩

theorem _root_.GP.kernEta_mul_w {g : Gp} {hp : HpVals} {β : ℝ} {cc : Bool} {N : Vec g.nData} {K : Mat g.nData g.nData}
    {st : EvalState g.nData} (hs : SetupSpec g hp β cc N K st) (hpd : st.KernEta.PosDef) (r : Vec g.nData) (q : Fin g.nData) :
    (fun p => K p q) ⬝ᵥ (st.KernEta⁻¹ *ᵥ r) + addDiag g K N st.etaK q * (st.KernEta⁻¹ *ᵥ r) q = r q := by
  have hu : IsUnit st.KernEta.det := (posDef_detne hpd).isUnit
  have h : st.KernEta *ᵥ (st.KernEta⁻¹ *ᵥ r) = r := by rw [mulVec_mulVec, mul_nonsing_inv _ hu, one_mulVec]
  have h' := congrFun h q
  rw [show (st.KernEta *ᵥ (st.KernEta⁻¹ *ᵥ r)) q = ((K + diagonal (addDiag g K N st.etaK)) *ᵥ (st.KernEta⁻¹ *ᵥ r)) q by
    rw [← hs.cov], add_mulVec] at h'
  simp only [Pi.add_apply, mulVec_diagonal] at h'
  rw [← h']
  congr 1
  simp only [dotProduct, mulVec]
  refine Finset.sum_congr rfl fun p _ => ?_
  have hsym : K p q = K q p := by
    have := hs.psd.isHermitian.apply p q
    simpa using this.symm
  rw [hsym]

/-- **C38.** The weights `w` that `setup_eval_model` stores solve `(Kern + D) w = y - mean`, where `D` is the diagonal of
noise variances and nugget. At a point of the data set, the datum minus the prediction of `eval_model` is exactly
`D * w` of that datum: for the value at any data point, and for each supplied partial derivative against the gradient of
the mean. Consequently, with no noise and no nugget for that datum, the prediction interpolates it. -/
theorem C38_interpolation {g : Gp} {hp : HpVals} {v β : ℝ} (hr : Ready g hp v β) {cc : Bool} {st : EvalState g.nData}
    (hst : setupEvalModel g hp cc = .ok st) (hF : st.chofac ≠ none) {X : Arr2} (hX : X.c = g.dim) (hXr : 0 < X.r)
    {N : Vec g.nData} (hN : IsNoise g hp N) {K : Mat g.nData g.nData} (hK : IsKern g hp K) {y : Vec g.nData} (hy : DataSpec g y) :
    ∃ out dmu w, evalModel g st hp X true false = .ok out ∧ out.dmu = some dmu ∧ st.w = some w ∧
      (∀ p, ∑ q, K p q * w q + (N p + st.etaK * (if g.o.precon then K p p + N p else 1)) * w p = y p - priorMean g β p) ∧
      (∀ (a : Fin X.r) (q : Fin g.nData), (q : ℕ) < g.nEval → (∀ d < g.dim, X.get a d = g.x.get q d) →
        y q - out.mu a = (N q + st.etaK * (if g.o.precon then K q q + N q else 1)) * w q) ∧
      (∀ (a : Fin X.r) (q : Fin g.nData) (i : Fin g.dim), ∀ b < g.nGrad, (q : ℕ) = g.nEval + i * g.nGrad + b →
        (∀ d < g.dim, X.get a d = g.x.get (gSel g.bvec b) d) →
        y q - dmu a i = (N q + st.etaK * (if g.o.precon then K q q + N q else 1)) * w q) := by
  obtain ⟨N', K', hs, hN'⟩ := ready_setup hr.toV hst
  have hpd := ready_pd hs hF
  obtain rfl := isNoise_unique hr.ok hN hN'
  obtain rfl := isKern_unique hr.ok hr.adm hK hs.isKern
  obtain rfl := dataSpec_unique hr.ok hy hs.data
  obtain ⟨F, hF'⟩ := Option.ne_none_iff_exists'.mp hF
  have key := kernEta_mul_w hs hpd (st.dataVec - priorMean g β)
  refine ⟨_, _, _, ready_eval hr hs hF hX hXr true false noHess, rfl, hs.w F hF', ?_, ?_, ?_⟩
  · intro p
    have := key p
    rw [Pi.sub_apply] at this
    rw [← this]
    congr 1
    simp only [dotProduct]
    refine Finset.sum_congr rfl fun q _ => ?_
    have hsym : K p q = K q p := by
      have := hs.psd.isHermitian.apply p q
      simpa using this.symm
    rw [hsym]
  · intro a q hq hx
    have hkv : kv g hp (X.get a) = fun p => K p q := by
      funext p
      rw [isKern_entry hr.ok hr.adm hK]
      have e1 : dpt g q = g.x.get q := by simp [dpt, dIx_val hq]
      have e2 : dco g q = none := by simp [dco, dIx_val hq]
      rw [kv, kk, e1, e2]
      exact radKG_congr (fun d hd => by rw [hx d hd]) (dco_lt hr.ok p) (by simp)
    have := key q
    rw [Pi.sub_apply] at this
    simp only [priorMean, hq, if_true] at this
    show st.dataVec q - (β + kv g hp (X.get a) ⬝ᵥ _) = addDiag g K N st.etaK q * _
    rw [hkv]
    linarith
  · intro a q i b hb hq hx
    have hkd : kd g hp (X.get a) i = fun p => K p q := by
      funext p
      rw [isKern_entry hr.ok hr.adm hK]
      have e1 : dpt g q = g.x.get (gSel g.bvec b) := by simp [dpt, hq, dIx_grad i.2 hb]
      have e2 : dco g q = some (i : ℕ) := by simp [dco, hq, dIx_grad i.2 hb]
      rw [kd, kk, e1, e2]
      exact radKG_congr (fun d hd => by rw [hx d hd]) (dco_lt hr.ok p) (by simp)
    have := key q
    rw [Pi.sub_apply] at this
    have hn : ¬ (q : ℕ) < g.nEval := by omega
    simp only [priorMean, hn, if_false] at this
    show st.dataVec q - kd g hp (X.get a) i ⬝ᵥ _ = addDiag g K N st.etaK q * _
    rw [hkd]
    linarith

/-- The hypotheses of the theorems of this file can be met for every object that is ready: the set-up succeeds with a
factorisation, and the kernel matrix, noise variances, data vector and cross covariances the theorems speak of exist. -/
theorem ready_state {g : Gp} {hp : HpVals} {v β : ℝ} (hr : ReadyV g hp v β)
    (hη : if g.o.etaConst then 0 < g.o.etaK else 1 < g.o.condMaxTarget) :
    ∃ st N K, setupEvalModel g hp false = .ok st ∧ st.chofac ≠ none ∧ IsNoise g hp N ∧ IsKern g hp K ∧ DataSpec g st.dataVec ∧
      ∀ x, ∃ k, IsCross g hp x k := by
  obtain ⟨b, hb, hbn, hbβ⟩ := hr.beta
  obtain ⟨N, K, st, hst, hs⟩ := setup_ok hr.ok hr.adm hr.noise hr.precon hr.ne hr.vpos hr.varK hb hbn false
  obtain ⟨N', K', hs', hN'⟩ := ready_setup hr hst
  have hpd : st.KernEta.PosDef := by
    rw [hs.cov]
    obtain ⟨Na, hNa, rfl⟩ := hs.noise
    have hN := NoiseSpec.nonneg hr.ok hr.adm hNa
    refine posDef_add_diagonal hs.psd fun i => add_pos_of_nonneg_of_pos (hN i) (mul_pos (hs.etaPos hη) ?_)
    split_ifs
    · have := hs.diag i; have := hN i; linarith
    · norm_num
  obtain ⟨F, hF⟩ := hs.facSome (.inl rfl) hpd
  exact ⟨st, N', K', hst, by rw [hF]; simp, hN', hs'.isKern, hs'.data, fun x => ⟨_, kv_isCross hr.adm x⟩⟩

end Props
