import Verif.Props.InexactPred

/-! Claim theorems for C137: the condition number that `setup_eval_model` records. -/

open Np GP Spec Matrix

noncomputable section

namespace Props

theorem setup_cond {g : Gp} {hp : HpVals} {v β : ℝ} (hr : ReadyV g hp v β) (cc : Bool) :
    ∃ (Na : Arr1) (K : Mat g.nData g.nData) (out : CovOut g.nData) (st : EvalState g.nData), setupEvalModel g hp cc = .ok st ∧ K.PosSemidef ∧ (∀ i, 0 < K i i) ∧
      NoiseSpec g hp Na ∧ CovSpec g.o 1 K (toVec g.nData Na) true cc out ∧ st.KernEta = out.Kcov ∧ st.chofac = out.chofac ∧ st.condK = out.condK ∧
      st.etaK = out.etaK := by
  have hg := hr.ok
  obtain ⟨beta, hbeta, hb, -⟩ := hr.beta
  obtain ⟨R, hR, -⟩ := calcRtensor_ok (X := g.x) (Y := g.x) rfl
  obtain ⟨Na, K, out, hN, hNs, hK, hpsd, hdiag, hone, hout, hs⟩ := calcAllK_ok hg hr.adm hr.noise hr.precon hr.ne hR true cc none true
    (v := 1) one_pos ⟨⟨v, by simpa using hr.varK, fun h => by cases h⟩, fun _ => rfl⟩
  obtain ⟨vv, G, h, hmf, hv1, hv2, hG1, hG2, hG3⟩ := mean_ok (X := g.x) hg.x_c (m := g.bvec) (by rw [hg.x_r]; exact hg.mask) hb
    g.useGrad false
  rw [hg.x_r] at hv1 hv2 hG1 hG3
  obtain ⟨hm1, hm2⟩ := meanVec_ok hg hv1 hv2 hG1 hG2 hG3
  obtain ⟨hd1, hd2⟩ := dataVec_ok hg
  set dvec := makeDataVec g.fval g.grad with hdvec
  set st : EvalState g.nData := { hp := hp, dataVec := toVec g.nData dvec, Kern := out.Kern, KernEta := out.Kcov, chofac := out.chofac
                                  condK := out.condK, etaK := out.etaK
                                  w := out.chofac.map fun F => choSolveV F (toVec g.nData dvec - priorMean g (beta.get 0)) } with hst
  have hset : setupEvalModel g hp cc = .ok st := by
    unfold setupEvalModel
    simp only [hR, ok_bind, hbeta, need, hmf, hout]
    rw [if_pos ⟨hd1, hm1⟩, hm2]
    rfl
  exact ⟨Na, K, out, st, hset, hpsd, hdiag, hNs, hs, rfl, rfl, rfl, rfl⟩

/-- **C137.** `setup_eval_model(calc_cond = True)` records the condition number of the matrix to be factorised: the covariance matrix of the data relative to
the prior variance, rescaled to unit diagonal with preconditioning. With preconditioning the model can always be evaluated; otherwise exactly if that number
is at most the absolute limit, and if not then `eval_model` raises. -/
theorem C137_recorded {g : Gp} {hp : HpVals} {v β : ℝ} (hr : ReadyV g hp v β) (hη : if g.o.etaConst then 0 < g.o.etaK else 1 < g.o.condMaxTarget)
    {N : Vec g.nData} {K : Mat g.nData g.nData} (hN : IsNoise g hp N) (hK : IsKern g hp K) :
    ∃ (st : EvalState g.nData) (κ : ℝ), setupEvalModel g hp true = .ok st ∧ st.condK = some κ ∧
      (K + diagonal (tau g K N st.etaK)).PosDef ∧ IsCondNum g.o.fro (factored g.o.precon (K + diagonal (tau g K N st.etaK))) κ ∧
      ∀ {X : Arr2}, X.c = g.dim → 0 < X.r → ∀ cg : Bool,
        (g.o.precon = true ∨ κ ≤ g.o.condMaxAbs → ∃ out, evalModel g st hp X cg false = .ok out) ∧
        (g.o.precon = false → g.o.condMaxAbs < κ → evalModel g st hp X cg false = .error .assertion) := by
  obtain ⟨Na, K₀, out, st, h1, h2, h3, h4, h5, h6, h7, h8, h9⟩ := setup_cond hr true
  obtain ⟨N₁, K₁, hs, -⟩ := ready_setup hr h1
  obtain ⟨rfl, rfl, hcov, hτ0⟩ := cov_tau hr hs hN hK
  have hn : 0 < g.nData := by have := hr.ne; rw [hr.ok.nData]; omega
  have hη' : 0 < out.etaK := h9 ▸ hs.etaPos hη
  have hN0 : ∀ i, 0 ≤ toVec g.nData Na i := NoiseSpec.nonneg hr.ok hr.adm h4
  obtain ⟨κ, k1, k2⟩ := cov_cond one_pos hn h5 h2 h3 hN0 hη'
  have hnc := cov_noisyCov one_pos h5
  have hpd := h5.posDef one_pos h2 h3 hN0 hη'
  have e : condMat g.o.precon 1 K₀ (toVec g.nData Na) out.etaK = factored g.o.precon out.Kcov := by
    unfold condMat factored
    rw [← hnc]
  rw [e] at k2
  have hA : K + diagonal (tau g K N st.etaK) = out.Kcov := hcov.symm.trans h6
  refine ⟨st, κ, h1, h8.trans k1, by rw [hA]; exact hpd, by rw [hA]; exact k2, fun hX hXr cg => ⟨fun h => ?_, fun hp' hlt => ?_⟩⟩
  · have hF : st.chofac ≠ none := by
      have := h5.facSome rfl (fun _ hp' => ?_) hpd
      · obtain ⟨F, hF⟩ := this
        rw [h7, hF]
        intro h; cases h
      · have hc := h5.cond
        simp only [hp', Bool.false_eq_true, if_false, if_true] at hc
        obtain rfl := Option.some.inj (hc.symm.trans k1)
        exact h.resolve_left (by rw [hp']; intro h; cases h)
    obtain ⟨o, ho, -⟩ := ready_vals hr hs hF hX hXr cg
    exact ⟨o, ho⟩
  · have hF : st.chofac = none := by
      rcases Option.eq_none_or_eq_some st.chofac with hF | ⟨F, hF⟩
      · exact hF
      · have := h5.facCond hp' F (h7 ▸ hF) rfl
        have hc := h5.cond
        simp only [hp', Bool.false_eq_true, if_false, if_true] at hc
        obtain rfl := Option.some.inj (hc.symm.trans k1)
        exact absurd this (not_le.mpr hlt)
    unfold evalModel
    rw [hF]

/-- **C137.** Without `calc_cond` no condition number is recorded and no matrix is refused; wherever the model can be evaluated with it, the predictions are
the same. -/
theorem C137_optional {g : Gp} {hp : HpVals} {v β : ℝ} (hr : ReadyV g hp v β) (hη : if g.o.etaConst then 0 < g.o.etaK else 1 < g.o.condMaxTarget) :
    ∃ st st₁ : EvalState g.nData, setupEvalModel g hp false = .ok st ∧ setupEvalModel g hp true = .ok st₁ ∧ st.condK = none ∧
      ∀ {X : Arr2}, X.c = g.dim → 0 < X.r → ∀ cg : Bool, ∃ out, evalModel g st hp X cg false = .ok out ∧
        ∀ out₁, evalModel g st₁ hp X cg false = .ok out₁ → out₁.mu = out.mu ∧ out₁.sig = out.sig := by
  obtain ⟨Na, K, o, st, h1, -, -, -, h5, -, -, h8, -⟩ := setup_cond hr false
  obtain ⟨-, -, -, st₁, h1', -⟩ := setup_cond hr true
  obtain ⟨st', e1, hF⟩ := ready_total hr hη
  obtain rfl := Except.ok.inj (h1.symm.trans e1)
  obtain ⟨N₁, K₁, hs, hN⟩ := ready_setup hr h1
  obtain ⟨N₂, K₂, hs', -⟩ := ready_setup hr h1'
  obtain ⟨rfl, rfl, hc', -⟩ := cov_tau hr hs' hN hs.isKern
  obtain ⟨-, -, hc, -⟩ := cov_tau hr hs hN hs.isKern
  have he : st₁.etaK = st.etaK := by rw [hs'.etaEq, hs.etaEq]
  rw [he, ← hc] at hc'
  have hd : st₁.dataVec = st.dataVec := data_unique hr.ok hs'.data hs.data
  refine ⟨st, st₁, h1, h1', h8.trans (by rw [h5.cond]; rfl), fun hX hXr cg => ?_⟩
  obtain ⟨out, ho, hm, hg⟩ := ready_vals hr hs hF hX hXr cg
  refine ⟨out, ho, fun out₁ ho₁ => ?_⟩
  have hF₁ : st₁.chofac ≠ none := by
    intro h
    unfold evalModel at ho₁
    rw [h] at ho₁
    cases ho₁
  obtain ⟨out₂, ho₂, hm₂, hg₂⟩ := ready_vals hr hs' hF₁ hX hXr cg
  obtain rfl := Except.ok.inj (ho₁.symm.trans ho₂)
  rw [hm₂, hm, hg₂, hg, hc', hd]
  exact ⟨rfl, rfl⟩

/-- **C136.** Without preconditioning the number that `setup_eval_model(calc_cond = True)` records is within the absolute limit `c` for a model that can be
evaluated, so relative errors up to `u` with `u c < 1` are bounded as in `C136_inexact_factor` for all hyperparameters, with `u c` in place of `u κ`. -/
theorem C136_within_limit {g : Gp} {hp : HpVals} {v β : ℝ} (hr : ReadyV g hp v β) (hη : if g.o.etaConst then 0 < g.o.etaK else 1 < g.o.condMaxTarget)
    (hpre : g.o.precon = false) {st : EvalState g.nData} (hst : setupEvalModel g hp true = .ok st) {N : Vec g.nData} {K : Mat g.nData g.nData}
    (hN : IsNoise g hp N) (hK : IsKern g hp K) {X : Arr2} (hX : X.c = g.dim) (hXr : 0 < X.r) {cg : Bool} {out : EvalOut X.r g.dim}
    (hout : evalModel g st hp X cg false = .ok out) {u : ℝ} (hu0 : 0 ≤ u) (hu : u * g.o.condMaxAbs < 1) :
    ∃ κ, st.condK = some κ ∧ IsCondNum g.o.fro (factored g.o.precon (K + diagonal (tau g K N st.etaK))) κ ∧ u * κ < 1 ∧
      u * κ / (1 - u * κ) ≤ u * g.o.condMaxAbs / (1 - u * g.o.condMaxAbs) := by
  obtain ⟨st', κ, h1, h2, -, h3, h4⟩ := C137_recorded hr hη hN hK
  obtain rfl := Except.ok.inj (h1.symm.trans hst)
  have hle : κ ≤ g.o.condMaxAbs := by
    by_contra h
    have := (h4 hX hXr cg).2 hpre (not_le.mp h)
    rw [hout] at this
    cases this
  have hm : u * κ ≤ u * g.o.condMaxAbs := mul_le_mul_of_nonneg_left hle hu0
  refine ⟨κ, h2, h3, hm.trans_lt hu, ?_⟩
  rw [div_le_div_iff₀ (by linarith) (by linarith)]
  nlinarith

-- three noisy evaluations, with a nugget and without preconditioning
example : ∃ (st : EvalState (exGpSeq (fun x => x 0) 2).nData) (κ : ℝ), setupEvalModel (exGpSeq (fun x => x 0) 2) exHpQuiet true = .ok st ∧ st.condK = some κ := by
  have hr := (exReadySeq (fun x => x 0) 2).toV
  obtain ⟨st₀, h1, -⟩ := ready_total hr (by norm_num [exGpSeq])
  obtain ⟨N, K, hs, hN⟩ := ready_setup hr h1
  obtain ⟨st, κ, a, b, -⟩ := C137_recorded hr (by norm_num [exGpSeq]) hN hs.isKern
  exact ⟨st, κ, a, b⟩

end Props
