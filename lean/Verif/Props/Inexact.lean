import Verif.Model.EvalApprox
import Verif.Spec.SolveSpec
import Verif.Props.Average
import Verif.Props.NearData
import Verif.Props.Lipschitz

/-! Property C131: inexact linear solves. -/

open Np Spec GP Matrix

noncomputable section

namespace GP

variable {g : Gp} {hp : HpVals}

/-- With exact solutions it is `eval_model`. -/
theorem evalModelBy_exact {X : Arr2} {st : EvalState g.nData} {F : ChoFac g.nData} (hF : st.chofac = some F) (cg : Bool) :
    evalModelBy g (X := X) (choSolve F) st hp cg = evalModel g st hp X cg false := by
  unfold evalModelBy evalModel
  simp only [hF]
  rfl

theorem crossKern_vals (hg : GpOk g) (hh : HpAdm g hp) {X : Arr2} (hX : X.c = g.dim)
    (hq : g.kernel = .ratQuad → fullMask g.bvec g.nEval ∨ g.nGrad = 1) (cg : Bool) :
    ∃ A dK, crossKern g hp X cg = .ok (A, dK) ∧ A.r = g.nData ∧ A.c = X.r ∧
      (∀ (q : Fin g.nData) (a : Fin X.r), A.get q a = kv g hp (X.get a) q) ∧
      (cg = true → ∃ D, dK = some D ∧ D.r = X.r * g.dim ∧ D.c = g.nData ∧ ((g.kernel = .ratQuad → fullMask g.bvec g.nEval) →
        ∀ (a : Fin X.r) (i : Fin g.dim), dkRow D X.r g.dim a i = kd g hp (X.get a) i)) := by
  by_cases hf : g.kernel = .ratQuad → fullMask g.bvec g.nEval
  · obtain ⟨A, dK, h1, h2, h3, h4, h5⟩ := crossKern_ok hg hh hX hf cg
    refine ⟨A, dK, h1, h2, h3, h4, fun hc => ?_⟩
    obtain ⟨D, d1, d2, d3, d4⟩ := h5 hc
    exact ⟨D, d1, d2, d3, fun _ => d4⟩
  · have hf' := hf
    rw [Classical.not_imp] at hf
    obtain ⟨hk, hf⟩ := hf
    have h1 : g.nGrad = 1 := (hq hk).resolve_left hf
    have hu : g.useGrad = true := by
      cases h : g.useGrad with
      | true => rfl
      | false => rw [hg.nGrad] at h1; simp [h] at h1
    rw [hg_mask hg hu] at h1
    rcases Option.eq_none_or_eq_some g.bvec with hb' | ⟨l, hl⟩
    · exact absurd (by rw [hb']; rfl) hf
    · rw [hl] at h1
      have hn : g.nEval ≠ 1 := by
        intro hn
        refine hf ?_
        rw [fullMask, hl, hn, ← hn, h1, hn]
      obtain ⟨A, D, a1, a2, a3, a4, a5, a6, -⟩ := crossKern_one hg hh hX hk hu hl h1 hn cg
      exact ⟨A, some D, a1, a2, a3, a4, fun _ => ⟨D, rfl, a5, a6, fun h => absurd h hf'⟩⟩

open Classical in
/-- What `eval_model` returns with inexact solutions. -/
theorem evalModelBy_ok (hg : GpOk g) (hh : HpAdm g hp) {v : ℝ} (hvk : hp.varK = some v)
    {beta : Arr1} (hbeta : hp.beta = some beta) (hb : beta.n = 1) {st : EvalState g.nData} {F : ChoFac g.nData} (hF : st.chofac = some F)
    (hhp : st.hp = hp) {w : Vec g.nData} (hw : st.w = some w) {X : Arr2} (hX : X.c = g.dim) (hXr : 0 < X.r)
    (hq : g.kernel = .ratQuad → fullMask g.bvec g.nEval ∨ g.nGrad = 1) (solve : Mat g.nData X.r → Mat g.nData X.r) (cg : Bool)
    {Ky : Mat g.nData X.r} (hKy : Ky = of fun q (a : Fin X.r) => kv g hp (X.get a) q) :
    ((∃ a : Fin X.r, 1 - kv g hp (X.get a) ⬝ᵥ (fun q => solve Ky q a) < 0) → evalModelBy g solve st hp cg = .error .assertion) ∧
    ((∀ a : Fin X.r, 0 ≤ 1 - kv g hp (X.get a) ⬝ᵥ (fun q => solve Ky q a)) → ∃ out, evalModelBy g solve st hp cg = .ok out ∧
      (∀ a : Fin X.r, out.mu a = beta.get 0 + kv g hp (X.get a) ⬝ᵥ w) ∧
      (∀ a : Fin X.r, out.sig a = Real.sqrt (1 - kv g hp (X.get a) ⬝ᵥ (fun q => solve Ky q a)) * Real.sqrt v) ∧
      (cg = true → (g.kernel = .ratQuad → fullMask g.bvec g.nEval) → ∃ dmu, out.dmu = some dmu ∧
        ∀ (a : Fin X.r) (i : Fin g.dim), dmu a i = kd g hp (X.get a) i ⬝ᵥ w)) := by
  obtain ⟨A, dK, hA, hAr, hAc, hAg, hD⟩ := crossKern_vals hg hh hX hq cg
  obtain ⟨vv, G, h, hmf, hv1, hv2, hG1, hG2, hG3⟩ := mean_ok (X := X) hX (m := none) (by simp [maskOk]) hb cg false
  have hAK : toMat g.nData X.r A = Ky := by
    rw [hKy]
    ext q a
    exact hAg q a
  have hcol : ∀ a : Fin X.r, (fun q => Ky q a) = kv g hp (X.get a) := fun a => by rw [hKy]; rfl
  have hs2 : ∀ a : Fin X.r, 1 - (Kyᵀ * solve Ky) a a = 1 - kv g hp (X.get a) ⬝ᵥ (fun q => solve Ky q a) := by
    intro a
    rw [← hcol a]
    rfl
  have hmu : ∀ a : Fin X.r, vv.get a + (Kyᵀ *ᵥ w) a = beta.get 0 + kv g hp (X.get a) ⬝ᵥ w := by
    intro a
    rw [hv2 a a.2, ← hcol a]
    rfl
  have hun : evalModelBy g solve st hp cg = (do
      pyAssert (∀ a : Fin X.r, 0 ≤ 1 - kv g hp (X.get a) ⬝ᵥ (fun q => solve Ky q a))
      evalDerivs g hp X F w dK (solve Ky) (if cg = true then some G else none) (fun a : Fin X.r => beta.get 0 + kv g hp (X.get a) ⬝ᵥ w)
        (fun a : Fin X.r => Real.sqrt (if 1 - kv g hp (X.get a) ⬝ᵥ (fun q => solve Ky q a) < 0 then 0 else
          1 - kv g hp (X.get a) ⬝ᵥ (fun q => solve Ky q a)) * Real.sqrt v) (Real.sqrt v) cg false) := by
    unfold evalModelBy
    simp only [hF, hhp, ne_eq, not_true_eq_false, if_false, hbeta, hvk, need, ok_bind]
    simp only [hA, ok_bind, hAr, hAc, and_self, if_true, hw, hmf, if_neg hXr.ne', hAK, hs2, hmu]
  rw [hun]
  constructor
  · rintro ⟨a, ha⟩
    rw [pyAssert_false (fun h => absurd (h a) (not_le.mpr ha))]
    rfl
  · intro hnn
    rw [pyAssert_true hnn]
    simp only [ok_bind]
    have hif : ∀ a : Fin X.r, (if 1 - kv g hp (X.get a) ⬝ᵥ (fun q => solve Ky q a) < 0 then 0 else
          1 - kv g hp (X.get a) ⬝ᵥ (fun q => solve Ky q a)) = 1 - kv g hp (X.get a) ⬝ᵥ (fun q => solve Ky q a) := fun a =>
      if_neg (not_lt.mpr (hnn a))
    simp only [hif]
    cases cg with
    | false => exact ⟨_, rfl, fun a => rfl, fun a => rfl, fun h => by cases h⟩
    | true =>
      obtain ⟨D, rfl, d2, d3, d4⟩ := hD rfl
      unfold evalDerivs
      simp only [if_true, need, ok_bind, d2, d3, and_self]
      refine ⟨_, rfl, fun a => rfl, fun a => rfl, fun _ hf => ⟨_, rfl, fun a i => ?_⟩⟩
      show dkRow D X.r g.dim a i ⬝ᵥ w + G.get a i = _
      rw [d4 hf, hG3 a (by simp [gN]) i i.2, add_zero]

end GP

namespace Props

/-- **C131** Rounding errors of the linear solves. Let `K + diag τ` be the covariance matrix of the data, `τ > 0` the noise variances and nugget added for
them. If the weights solve their linear system with a residual of at most `ε` (weighted by `1/τ`) and the systems solved by `eval_model` for each point
have residuals of at most `δ`, with `δ (1 + ∑ k_i(x)²/τ_i) ≤ 1`, then `eval_model` still succeeds, the mean is wrong by at most `ε` and the variance by
at most `v δ`. -/
theorem C131_accurate {g : Gp} {hp : HpVals} {v β : ℝ} (hr : ReadyV g hp v β) {cc : Bool} {st : EvalState g.nData}
    (hst : setupEvalModel g hp cc = .ok st) (hF : st.chofac ≠ none) {N : Vec g.nData} {K : Mat g.nData g.nData} (hN : IsNoise g hp N)
    (hK : IsKern g hp K) (hτ : ∀ q, 0 < tau g K N st.etaK q) {y : Vec g.nData} (hy : DataSpec g y) {X : Arr2} (hX : X.c = g.dim) (hXr : 0 < X.r)
    {ε δ : ℝ} (hε : 0 ≤ ε) (hδ : 0 ≤ δ) {w' : Vec g.nData}
    (hw : SolvesUpTo (K + diagonal (tau g K N st.etaK)) (tau g K N st.etaK) ε w' (y - priorMean g β))
    {solve : Mat g.nData X.r → Mat g.nData X.r}
    (hsolve : ∀ B : Mat g.nData X.r, (∀ a : Fin X.r, IsCross g hp (X.get a) fun q => B q a) → ∀ a : Fin X.r,
      SolvesUpTo (K + diagonal (tau g K N st.etaK)) (tau g K N st.etaK) δ (fun q => solve B q a) (fun q => B q a))
    (hsmall : ∀ (a : Fin X.r) (k : Vec g.nData), IsCross g hp (X.get a) k → δ * (1 + ∑ q, k q ^ 2 / tau g K N st.etaK q) ≤ 1) (cg : Bool) :
    ∃ out out' : EvalOut X.r g.dim, evalModel g st hp X cg false = .ok out ∧
      evalModelBy g solve { st with w := some w' } hp cg = .ok out' ∧
      ∀ a : Fin X.r, |out'.mu a - out.mu a| ≤ ε ∧ |out'.sig a ^ 2 - out.sig a ^ 2| ≤ v * δ := by
  obtain ⟨N₀, K₀, hs, -⟩ := ready_setup hr hst
  obtain ⟨rfl, rfl, hcov, -⟩ := cov_tau hr hs hN hK
  have hpd := ready_pd hs hF
  have hu : IsUnit st.KernEta.det := (posDef_detne hpd).isUnit
  obtain ⟨out, ho, hmu, hsg⟩ := ready_vals hr hs hF hX hXr cg
  have e1 : y = st.dataVec := data_unique hr.ok hy hs.data
  obtain ⟨b, hb, hbn, hb0⟩ := hr.beta
  obtain ⟨F, hF'⟩ := Option.ne_none_iff_exists'.mp hF
  set Ky : Mat g.nData X.r := of fun q (a : Fin X.r) => kv g hp (X.get a) q with hKy
  rw [← hcov] at hw
  simp only [← hcov] at hsolve
  -- an inexact solution, tested with `k`
  have key : ∀ {e : ℝ}, 0 ≤ e → ∀ (x : Pt) (z r : Vec g.nData), SolvesUpTo st.KernEta (tau g K N st.etaK) e z r →
      |kv g hp x ⬝ᵥ z - kv g hp x ⬝ᵥ st.KernEta⁻¹ *ᵥ r| ≤ e := by
    intro e he x z r hz
    set k := kv g hp x
    have hz' : z - st.KernEta⁻¹ *ᵥ r = st.KernEta⁻¹ *ᵥ (st.KernEta *ᵥ z - r) := by
      rw [mulVec_sub, mulVec_mulVec, nonsing_inv_mul _ hu, one_mulVec]
    rw [← dotProduct_sub, hz']
    have h1 := inv_cs hpd k (st.KernEta *ᵥ z - r)
    have h2 := inv_diag_le hpd hs.psd hτ hcov (st.KernEta *ᵥ z - r)
    obtain ⟨h3, h4, -⟩ := reduction_le hr.ok hr.adm hK (fun i => (hτ i).le) hcov hpd x
    refine abs_le_of_sq_le_sq ?_ he
    refine h1.trans ?_
    have h5 : (st.KernEta *ᵥ z - r) ⬝ᵥ st.KernEta⁻¹ *ᵥ (st.KernEta *ᵥ z - r) ≤ e ^ 2 := h2.trans hz
    calc _ ≤ (k ⬝ᵥ st.KernEta⁻¹ *ᵥ k) * e ^ 2 := mul_le_mul_of_nonneg_left h5 h3
      _ ≤ 1 * e ^ 2 := mul_le_mul_of_nonneg_right h4 (sq_nonneg e)
      _ = e ^ 2 := one_mul _
  have hcross : ∀ a : Fin X.r, IsCross g hp (X.get a) fun q => Ky q a := fun a => kv_isCross hr.adm (X.get a)
  have hred : ∀ a : Fin X.r, |kv g hp (X.get a) ⬝ᵥ (fun q => solve Ky q a) - kv g hp (X.get a) ⬝ᵥ st.KernEta⁻¹ *ᵥ kv g hp (X.get a)| ≤ δ :=
    fun a => key hδ (X.get a) _ _ (hsolve Ky hcross a)
  have hnn : ∀ a : Fin X.r, 0 ≤ 1 - kv g hp (X.get a) ⬝ᵥ (fun q => solve Ky q a) := by
    intro a
    have h1 := s2_floor hr.ok hr.adm hK hτ hcov hpd (X.get a)
    have h2 := hsmall a _ (hcross a)
    have hQ0 : 0 ≤ ∑ q, kv g hp (X.get a) q ^ 2 / tau g K N st.etaK q :=
      Finset.sum_nonneg fun q _ => div_nonneg (sq_nonneg _) (hτ q).le
    have h3 : δ ≤ 1 / (1 + ∑ q, kv g hp (X.get a) q ^ 2 / tau g K N st.etaK q) := by
      rw [le_div_iff₀ (by linarith)]
      exact h2
    have h4 := (abs_le.mp (hred a)).2
    unfold s2F at h1
    linarith
  obtain ⟨out', ho', hmu', hsg', -⟩ := (evalModelBy_ok hr.ok hr.adm hr.varK hb hbn (st := { st with w := some w' }) hF' hs.hp_eq rfl hX hXr hr.mask
    solve cg hKy).2 hnn
  refine ⟨out, out', ho, ho', fun a => ⟨?_, ?_⟩⟩
  · rw [hmu' a, hmu, hb0]
    simp only [muF]
    rw [add_sub_add_left_eq_sub]
    exact key hε (X.get a) _ _ (by rw [← e1]; exact hw)
  · rw [hsg' a, hsg]
    simp only [sgF_sq hr hs hF]
    rw [mul_pow, Real.sq_sqrt (hnn a), Real.sq_sqrt hr.vpos.le, s2F, mul_comm _ v, ← mul_sub, abs_mul, abs_of_pos hr.vpos]
    refine mul_le_mul_of_nonneg_left ?_ hr.vpos.le
    rw [sub_sub_sub_cancel_left, abs_sub_comm]
    exact hred a

/-- **C131** The gradient of the mean that `eval_model` returns with inexact solves: its `i`-th component is wrong by at most `ε √(2 c θ_i)`, with
`c = 1` (squared exponential, rational quadratic) or `5/6` (Matérn). -/
theorem C131_gradient {g : Gp} {hp : HpVals} {v β : ℝ} (hr : Ready g hp v β) {cc : Bool} {st : EvalState g.nData}
    (hst : setupEvalModel g hp cc = .ok st) (hF : st.chofac ≠ none) {th : Arr1} (hth : hp.theta = some th) {N : Vec g.nData}
    {K : Mat g.nData g.nData} (hN : IsNoise g hp N)
    (hK : IsKern g hp K) (hτ : ∀ q, 0 < tau g K N st.etaK q) {y : Vec g.nData} (hy : DataSpec g y) {X : Arr2} (hX : X.c = g.dim) (hXr : 0 < X.r)
    {ε : ℝ} (hε : 0 ≤ ε) {w' : Vec g.nData}
    (hw : SolvesUpTo (K + diagonal (tau g K N st.etaK)) (tau g K N st.etaK) ε w' (y - priorMean g β))
    {solve : Mat g.nData X.r → Mat g.nData X.r} {out' : EvalOut X.r g.dim}
    (hout' : evalModelBy g solve { st with w := some w' } hp true = .ok out') :
    ∃ out dmu dmu', evalModel g st hp X true false = .ok out ∧ out.dmu = some dmu ∧ out'.dmu = some dmu' ∧
      ∀ (a : Fin X.r) (i : Fin g.dim), (dmu' a i - dmu a i) ^ 2 ≤ 2 * slope0 g.kernel * th.get i * ε ^ 2 := by
  obtain ⟨N₀, K₀, hs, -⟩ := ready_setup hr.toV hst
  obtain ⟨rfl, rfl, hcov, -⟩ := cov_tau hr.toV hs hN hK
  obtain ⟨th', hth', hn, hpos⟩ := hr.adm.theta
  obtain rfl := Option.some.inj (hth.symm.trans hth')
  have hpd := ready_pd hs hF
  have hu : IsUnit st.KernEta.det := (posDef_detne hpd).isUnit
  have e1 : y = st.dataVec := data_unique hr.ok hy hs.data
  obtain ⟨b, hb, hbn, hb0⟩ := hr.beta
  obtain ⟨F, hF'⟩ := Option.ne_none_iff_exists'.mp hF
  rw [← hcov, e1] at hw
  have hok := evalModelBy_ok hr.ok hr.adm hr.varK hb hbn (st := { st with w := some w' }) hF' hs.hp_eq rfl hX hXr hr.toV.mask solve true rfl
  have hnn := not_imp_not.mpr hok.1 (by rw [hout']; intro h; cases h)
  push Not at hnn
  obtain ⟨o, ho, -, -, hd⟩ := hok.2 hnn
  obtain rfl := Except.ok.inj (hout'.symm.trans ho)
  obtain ⟨dmu', hd1, hd2⟩ := hd rfl hr.mask
  refine ⟨_, _, dmu', ready_eval hr hs hF hX hXr true false noHess, rfl, hd1, fun a i => ?_⟩
  set w₀ := st.KernEta⁻¹ *ᵥ (st.dataVec - priorMean g β) with hw₀
  set x := X.get a with hx
  set z := w' - w₀ with hz
  have hi := hpos i i.2
  have hc := slope0_pos g.kernel
  have e2 : dmu' a i - dmuF g hp w₀ x i = dmuF g hp z x i := by
    rw [hd2, dmuF, dmuF, hz, dotProduct_sub]
  show (dmu' a i - dmuF g hp w₀ x i) ^ 2 ≤ _
  rw [e2]
  -- the error of the weights has norm at most `ε` in the native space
  have hMz : st.KernEta *ᵥ z = st.KernEta *ᵥ w' - (st.dataVec - priorMean g β) := by
    rw [hz, mulVec_sub, hw₀, mulVec_mulVec, mul_nonsing_inv _ hu, one_mulVec]
  have hzz : z = st.KernEta⁻¹ *ᵥ (st.KernEta *ᵥ z) := by rw [mulVec_mulVec, nonsing_inv_mul _ hu, one_mulVec]
  have hzM : z ⬝ᵥ st.KernEta *ᵥ z ≤ ε ^ 2 := by
    have h2 := inv_diag_le hpd hs.psd hτ hcov (st.KernEta *ᵥ z)
    rw [← hzz, dotProduct_comm] at h2
    refine h2.trans ?_
    rw [hMz]
    exact hw
  obtain ⟨hq0, hq⟩ := comb_norm hr.ok hr.adm hK z
  have hzK : z ⬝ᵥ K *ᵥ z ≤ ε ^ 2 := by
    refine le_trans ?_ hzM
    rw [hcov, add_mulVec, dotProduct_add]
    have : 0 ≤ z ⬝ᵥ diagonal (tau g K N st.etaK) *ᵥ z := by
      simp only [dotProduct, mulVec_diagonal]
      exact Finset.sum_nonneg fun q _ => by nlinarith [hτ q, sq_nonneg (z q), mul_nonneg (hτ q).le (sq_nonneg (z q))]
    linarith
  refine slope_bound (muF_deriv hr.ok hr.adm z 0 x i.2) (by positivity) fun t => ?_
  simp only [Function.update_eq_self]
  have h8 := hq 2 ![Function.update x i t, x] ![1, -1]
  have hself : ∀ a, gpKern g hp a a = 1 := fun a => by
    rw [gpKern_canon hr.adm]
    unfold radial
    rw [wdist2_self]
    exact prφ_zero g.kernel _
  have hsym : ∀ a b, gpKern g hp a b = gpKern g hp b a := fun a b => by
    rw [gpKern_canon hr.adm]; unfold radial; rw [wdist2_comm]
  simp only [Fin.sum_univ_two, cons_val_zero, cons_val_one, hself, hsym x, Real.sq_sqrt hq0] at h8
  have h9 := one_sub_kern hr.adm (Function.update x i t) x
  rw [hth] at h9
  have hwd : wdist2 g.dim th.get (Function.update x i t) x = th.get i * (t - x i) ^ 2 := by
    show ∑ d ∈ Finset.range g.dim, th.get d * (Function.update x i t d - x d) ^ 2 = _
    rw [Finset.sum_eq_single_of_mem (i : ℕ) (Finset.mem_range.mpr i.2)]
    · rw [Function.update_self]
    · intro d _ hd
      rw [Function.update_of_ne hd]
      ring
  simp only [Option.getD_some, hwd] at h9
  calc (muF g hp z 0 (Function.update x i t) - muF g hp z 0 x) ^ 2
      = (1 * (kv g hp (Function.update x i t) ⬝ᵥ z) + -1 * (kv g hp x ⬝ᵥ z)) ^ 2 := by simp only [muF]; ring
    _ ≤ _ := h8
    _ = (z ⬝ᵥ K *ᵥ z) * (2 * (1 - gpKern g hp (Function.update x i t) x)) := by ring
    _ ≤ (z ⬝ᵥ K *ᵥ z) * (2 * (slope0 g.kernel * (th.get i * (t - x i) ^ 2))) :=
        mul_le_mul_of_nonneg_left (by linarith) hq0
    _ ≤ ε ^ 2 * (2 * (slope0 g.kernel * (th.get i * (t - x i) ^ 2))) := mul_le_mul_of_nonneg_right hzK (by positivity)
    _ = _ := by ring

/-- **C131** Wherever the predicted standard deviation is zero (at an evaluated point of a model without noise and nugget), linear solves with arbitrarily
small relative residuals in every entry make `eval_model` raise: the assertion `min(sig2_wo_sigK) >= 0` comes before the line that clips small negative
values. -/
theorem C131_raises {g : Gp} {hp : HpVals} {v β : ℝ} (hr : ReadyV g hp v β) {cc : Bool} {st : EvalState g.nData}
    (hst : setupEvalModel g hp cc = .ok st) (hF : st.chofac ≠ none) {N : Vec g.nData} {K : Mat g.nData g.nData} (hN : IsNoise g hp N)
    (hK : IsKern g hp K) {X : Arr2} (hX : X.c = g.dim) (hXr : 0 < X.r) {cg : Bool} {out : EvalOut X.r g.dim}
    (ho : evalModel g st hp X cg false = .ok out) {a : Fin X.r} (ha : out.sig a = 0) {ε : ℝ} (hε : 0 < ε) :
    ∃ solve : Mat g.nData X.r → Mat g.nData X.r,
      (∀ (B : Mat g.nData X.r) (i : Fin g.nData) (j : Fin X.r), |((K + diagonal (tau g K N st.etaK)) * solve B - B) i j| ≤ ε * |B i j|) ∧
      evalModelBy g solve st hp cg = .error .assertion := by
  obtain ⟨N₀, K₀, hs, -⟩ := ready_setup hr hst
  obtain ⟨rfl, rfl, hcov, -⟩ := cov_tau hr hs hN hK
  have hpd := ready_pd hs hF
  have hu : IsUnit st.KernEta.det := (posDef_detne hpd).isUnit
  obtain ⟨out₀, ho₀, hmu, hsg⟩ := ready_vals hr hs hF hX hXr cg
  rw [ho] at ho₀
  cases ho₀
  obtain ⟨b, hb, hbn, hb0⟩ := hr.beta
  obtain ⟨F, hF'⟩ := Option.ne_none_iff_exists'.mp hF
  have h0 : s2F g hp st.KernEta (X.get a) = 0 := by
    have h1 := sgF_sq hr hs hF (X.get a)
    rw [hsg] at ha
    simp only at ha
    rw [ha] at h1
    have := hr.vpos.ne'
    simpa [this] using h1.symm
  rw [← hcov]
  refine ⟨fun B => (1 + ε) • (st.KernEta⁻¹ * B), fun B i j => ?_, ?_⟩
  · rw [Matrix.mul_smul, ← Matrix.mul_assoc, mul_nonsing_inv _ hu, Matrix.one_mul, add_smul, one_smul, add_sub_cancel_left, Matrix.smul_apply,
      smul_eq_mul, abs_mul, abs_of_pos hε]
  · refine (evalModelBy_ok hr.ok hr.adm hr.varK hb hbn hF' hs.hp_eq (hs.w F hF') hX hXr hr.mask _ cg rfl).1 ⟨a, ?_⟩
    have h1 : kv g hp (X.get a) ⬝ᵥ st.KernEta⁻¹ *ᵥ kv g hp (X.get a) = 1 := by
      unfold s2F at h0
      linarith
    have h2 : (fun q => ((1 + ε) • (st.KernEta⁻¹ * (of fun q (a : Fin X.r) => kv g hp (X.get a) q : Mat g.nData X.r))) q a) =
        (1 + ε) • (st.KernEta⁻¹ *ᵥ kv g hp (X.get a)) := by
      ext q
      rfl
    rw [h2, dotProduct_smul, h1, smul_eq_mul]
    linarith

/-- The hypotheses of C131 are met: three noisy evaluations and a linear solver whose solutions are all slightly too large. -/
example : ∃ (st : EvalState (exGpSeq (fun x => x 0) 2).nData) (solve : Mat 3 1 → Mat 3 1) (δ : ℝ) (out out' : EvalOut 1 2), 0 < δ ∧
    setupEvalModel (exGpSeq (fun x => x 0) 2) exHpQuiet false = .ok st ∧
    evalModel (exGpSeq (fun x => x 0) 2) st exHpQuiet ⟨1, 2, fun _ _ => 0⟩ true false = .ok out ∧
    evalModelBy (exGpSeq (fun x => x 0) 2) (X := ⟨1, 2, fun _ _ => 0⟩) solve st exHpQuiet true = .ok out' ∧
    |out'.sig 0 ^ 2 - out.sig 0 ^ 2| ≤ 3 * δ := by
  set h : Pt → ℝ := fun x => x 0
  have hη : if (exGpSeq h 2).o.etaConst then 0 < (exGpSeq h 2).o.etaK else 1 < (exGpSeq h 2).o.condMaxTarget := by
    norm_num [exGpSeq]
  have hr := (exReadySeq h 2).toV
  obtain ⟨st, h1, h2⟩ := ready_total hr hη
  obtain ⟨N, K, hs, hN⟩ := ready_setup hr h1
  have hτ : ∀ q, 0 < tau (exGpSeq h 2) K N st.etaK q := by
    intro q
    obtain ⟨A, hA, hNA⟩ := hN
    have h4 := hA.val q q.2
    have h5 := hs.etaConst rfl
    unfold tau
    rw [hNA, h4, h5]
    norm_num [exGpSeq, valVar, exGpQuiet, exGp]
  set X : Arr2 := ⟨1, 2, fun _ _ => 0⟩ with hX
  set k := kv (exGpSeq h 2) exHpQuiet (X.get 0) with hk
  set Q := ∑ q, k q ^ 2 / tau (exGpSeq h 2) K N st.etaK q with hQ
  have hQ0 : 0 ≤ Q := Finset.sum_nonneg fun q _ => div_nonneg (sq_nonneg _) (hτ q).le
  have hpd := ready_pd hs h2
  have hu : IsUnit st.KernEta.det := (posDef_detne hpd).isUnit
  have hcr : ∀ (a : Fin X.r) (k' : Vec (exGpSeq h 2).nData), IsCross (exGpSeq h 2) exHpQuiet (X.get a) k' → k' = k := by
    intro a k' hk'
    rw [isCross_eq hr.ok hr.adm hk']
  obtain ⟨F, hF⟩ := Option.ne_none_iff_exists'.mp h2
  have hM : st.KernEta = K + diagonal (tau (exGpSeq h 2) K N st.etaK) := hs.cov
  set δ : ℝ := 1 / (1 + Q) with hδ
  have hδ0 : 0 < δ := by positivity
  set t : ℝ := δ / (1 + Q) with ht
  have hst' : ({ st with w := some (st.KernEta⁻¹ *ᵥ (st.dataVec - priorMean (exGpSeq h 2) 4)) } : EvalState (exGpSeq h 2).nData) = st := by
    rw [← hs.w F hF]
  have hA : SolvesUpTo (K + diagonal (tau (exGpSeq h 2) K N st.etaK)) (tau (exGpSeq h 2) K N st.etaK) 0
      (st.KernEta⁻¹ *ᵥ (st.dataVec - priorMean (exGpSeq h 2) 4)) (st.dataVec - priorMean (exGpSeq h 2) 4) := by
    unfold SolvesUpTo
    rw [← hM, mulVec_mulVec, mul_nonsing_inv _ hu, one_mulVec, sub_self]
    simp
  have hB : ∀ B : Mat (exGpSeq h 2).nData X.r, (∀ a : Fin X.r, IsCross (exGpSeq h 2) exHpQuiet (X.get a) fun q => B q a) → ∀ a : Fin X.r,
      SolvesUpTo (K + diagonal (tau (exGpSeq h 2) K N st.etaK)) (tau (exGpSeq h 2) K N st.etaK) δ
        (fun q => ((1 + t) • (st.KernEta⁻¹ * B)) q a) (fun q => B q a) := by
    intro B hB a
    have e1 : (fun q => ((1 + t) • (st.KernEta⁻¹ * B)) q a) = (1 + t) • (st.KernEta⁻¹ *ᵥ fun q => B q a) := by
      ext q
      rfl
    have e2 : st.KernEta *ᵥ ((1 + t) • (st.KernEta⁻¹ *ᵥ k)) - k = t • k := by
      rw [mulVec_smul, mulVec_mulVec, mul_nonsing_inv _ hu, one_mulVec, add_smul, one_smul, add_sub_cancel_left]
    unfold SolvesUpTo
    rw [← hM, e1, hcr a _ (hB a), e2]
    have e3 : ∑ i, (t • k) i ^ 2 / tau (exGpSeq h 2) K N st.etaK i = t ^ 2 * Q := by
      rw [hQ, Finset.mul_sum]
      refine Finset.sum_congr rfl fun i _ => ?_
      simp only [Pi.smul_apply, smul_eq_mul]
      ring
    rw [e3, ht, div_pow, div_mul_eq_mul_div, div_le_iff₀ (by positivity)]
    refine mul_le_mul_of_nonneg_left ?_ (sq_nonneg δ)
    nlinarith
  have hC : ∀ (a : Fin X.r) (k' : Vec (exGpSeq h 2).nData), IsCross (exGpSeq h 2) exHpQuiet (X.get a) k' →
      δ * (1 + ∑ q, k' q ^ 2 / tau (exGpSeq h 2) K N st.etaK q) ≤ 1 := by
    intro a k' hk'
    rw [hcr a k' hk', ← hQ, hδ, one_div, inv_mul_cancel₀ (by positivity)]
  obtain ⟨out, out', k1, k2, k3⟩ := C131_accurate hr h1 h2 hN hs.isKern hτ hs.data (X := X) rfl Nat.one_pos le_rfl hδ0.le hA hB hC true
  rw [hst'] at k2
  exact ⟨st, _, δ, out, out', hδ0, h1, k1, k2, (k3 ⟨0, Nat.one_pos⟩).2⟩

theorem posDef_one {M : Mat 1 1} (h : 0 < M 0 0) : M.PosDef := by
  refine PosDef.of_dotProduct_mulVec_pos ?_ ?_
  · ext i j
    obtain rfl : i = j := Subsingleton.elim _ _
    simp
  · intro x hx
    have hx0 : x 0 ≠ 0 := fun h0 => hx (funext fun i => by rw [Subsingleton.elim i 0]; exact h0)
    show 0 < ∑ i, x i * ∑ j, M i j * x j
    rw [Fin.sum_univ_one, Fin.sum_univ_one]
    have := mul_pos h (mul_self_pos.mpr hx0)
    linarith

/-- One evaluation without noise and without nugget. -/
def exGpAlone : Gp := { exGpQuiet with
  nEval := 1
  nData := 1
  o := { exGp.o with precon := false, etaConst := true, etaK := 0 }
  x := ⟨1, 2, fun _ d => d + 1⟩
  fval := ⟨1, fun _ => 7⟩
  stdFval := some ⟨1, fun _ => 0⟩ }

theorem exReadyAlone : Ready exGpAlone exHpQuiet 3 4 where
  ok := by
    constructor
    all_goals first
      | rfl
      | exact fun _ => rfl
      | exact fun _ => ⟨_, rfl, rfl⟩
      | (simp [exGpAlone, exGpQuiet, exGp]; done)
      | (intro h; simp [exGpAlone, exGpQuiet, exGp] at h; done)
      | (intro _ h; simp [exGpAlone, exGpQuiet, exGp] at h; done)
  adm := ⟨⟨exTheta, rfl, rfl, exTheta_pos⟩, by intro h; simp [exGpAlone, exGpQuiet] at h, fun _ => rfl,
    by intro h; simp [exGpAlone, exGpQuiet, exGp] at h, by intro h; simp [exGpAlone, exGpQuiet] at h, by intro h; simp [exGpAlone, exGpQuiet] at h⟩
  noise := .inr rfl
  precon := by intro h; simp [exGpAlone] at h
  ne := by simp [exGpAlone]
  vpos := by norm_num
  varK := rfl
  beta := ⟨_, rfl, rfl, rfl⟩
  eta := by norm_num [exGpAlone]
  mask := by intro h; simp [exGpAlone, exGpQuiet] at h

/-- The hypotheses of `C131_raises` are met: a prediction at the evaluated point of this model. -/
example : ∃ (st : EvalState 1) (out : EvalOut 1 2), setupEvalModel exGpAlone exHpQuiet false = .ok st ∧
    evalModel exGpAlone st exHpQuiet ⟨1, 2, fun _ d => d + 1⟩ true false = .ok out ∧ out.sig 0 = 0 ∧
    ∃ solve : Mat 1 1 → Mat 1 1, evalModelBy exGpAlone (X := ⟨1, 2, fun _ d => d + 1⟩) solve st exHpQuiet true = .error .assertion := by
  have hr := exReadyAlone.toV
  obtain ⟨N, K, st, h1, hs⟩ := GP.setup_ok hr.ok hr.adm hr.noise hr.precon hr.ne hr.vpos hr.varK (beta := ⟨1, fun _ => 4⟩) rfl rfl false
  obtain ⟨A, hA, hNA⟩ := hs.noise
  have hN : IsNoise exGpAlone exHpQuiet N := ⟨A, hA, fun i => by rw [hNA]; rfl⟩
  have hpd : st.KernEta.PosDef := by
    obtain ⟨-, -, hcov, hτ⟩ := cov_tau hr hs hN hs.isKern
    refine posDef_one (M := st.KernEta) ?_
    have h3 := hτ ⟨0, Nat.one_pos⟩
    have h4 := hs.diag ⟨0, Nat.one_pos⟩
    have h5 : st.KernEta ⟨0, Nat.one_pos⟩ ⟨0, Nat.one_pos⟩ = K ⟨0, Nat.one_pos⟩ ⟨0, Nat.one_pos⟩ + tau exGpAlone K N st.etaK ⟨0, Nat.one_pos⟩ := by
      rw [hcov, Matrix.add_apply, diagonal_apply_eq]
    show 0 < st.KernEta ⟨0, Nat.one_pos⟩ ⟨0, Nat.one_pos⟩
    rw [h5]
    linarith
  obtain ⟨F, hF⟩ := hs.facSome (.inl rfl) hpd
  have hF' : st.chofac ≠ none := by rw [hF]; exact Option.some_ne_none F
  obtain ⟨out, k1, k2⟩ := C125_near_data hr h1 hF' hN hs.isKern (X := ⟨1, 2, fun _ d => d + 1⟩) rfl Nat.one_pos true
  have hτ0 : tau exGpAlone K N st.etaK ⟨0, Nat.one_pos⟩ = 0 := by
    have h4 := hA.val 0 (by decide)
    have h5 := hs.etaConst rfl
    unfold tau
    rw [hNA, h5]
    show A.get 0 + _ = 0
    rw [h4]
    norm_num [exGpAlone, valVar, exGpQuiet, exGp]
  have h6 := (k2 ⟨0, Nat.one_pos⟩ ⟨0, Nat.one_pos⟩ Nat.one_pos).2 (fun d _ => rfl)
  rw [hτ0] at h6
  simp only [zero_div, mul_zero, Real.sqrt_zero] at h6
  obtain ⟨o₂, j1, j2⟩ := C37_variance_bounds hr h1 hF' (X := ⟨1, 2, fun _ d => d + 1⟩) rfl Nat.one_pos true
  rw [k1] at j1
  cases j1
  have h7 : out.sig ⟨0, Nat.one_pos⟩ = 0 := le_antisymm h6 (j2 ⟨0, Nat.one_pos⟩).1
  obtain ⟨solve, -, hsol⟩ := C131_raises hr h1 hF' hN hs.isKern (X := ⟨1, 2, fun _ d => d + 1⟩) rfl Nat.one_pos k1 h7 one_pos
  exact ⟨st, out, h1, k1, h7, solve, hsol⟩

/-- The hypotheses of `C131_gradient` are met: wrong weights, for three noisy evaluations. -/
example : ∃ (st : EvalState (exGpSeq (fun x => x 0) 2).nData) (w' : Vec 3) (solve : Mat 3 1 → Mat 3 1) (ε : ℝ) (out out' : EvalOut 1 2)
    (dmu dmu' : Mat 1 2), 0 < ε ∧ st.w ≠ some w' ∧ setupEvalModel (exGpSeq (fun x => x 0) 2) exHpQuiet false = .ok st ∧
    evalModel (exGpSeq (fun x => x 0) 2) st exHpQuiet ⟨1, 2, fun _ _ => 0⟩ true false = .ok out ∧ out.dmu = some dmu ∧
    evalModelBy (exGpSeq (fun x => x 0) 2) (X := ⟨1, 2, fun _ _ => 0⟩) solve { st with w := some w' } exHpQuiet true = .ok out' ∧
    out'.dmu = some dmu' ∧ |out'.mu 0 - out.mu 0| ≤ ε ∧ (dmu' 0 1 - dmu 0 1) ^ 2 ≤ 2 * exTheta.get 1 * ε ^ 2 := by
  set h : Pt → ℝ := fun x => x 0
  have hη : if (exGpSeq h 2).o.etaConst then 0 < (exGpSeq h 2).o.etaK else 1 < (exGpSeq h 2).o.condMaxTarget := by
    norm_num [exGpSeq]
  have hr := (exReadySeq h 2).toV
  obtain ⟨st, h1, h2⟩ := ready_total hr hη
  obtain ⟨N, K, hs, hN⟩ := ready_setup hr h1
  have hτ : ∀ q, 0 < tau (exGpSeq h 2) K N st.etaK q := by
    intro q
    obtain ⟨A, hA, hNA⟩ := hN
    have h4 := hA.val q q.2
    have h5 := hs.etaConst rfl
    unfold tau
    rw [hNA, h4, h5]
    norm_num [exGpSeq, valVar, exGpQuiet, exGp]
  have hpd := ready_pd hs h2
  have hu : IsUnit st.KernEta.det := (posDef_detne hpd).isUnit
  obtain ⟨F, hF⟩ := Option.ne_none_iff_exists'.mp h2
  have hM : st.KernEta = K + diagonal (tau (exGpSeq h 2) K N st.etaK) := hs.cov
  set r := st.dataVec - priorMean (exGpSeq h 2) 4 with hrr
  set u : Vec (exGpSeq h 2).nData := fun _ => 1 with hu1
  set S := ∑ q, u q ^ 2 / tau (exGpSeq h 2) K N st.etaK q with hS
  have hS0 : 0 < S := Finset.sum_pos (fun q _ => div_pos (by norm_num [hu1]) (hτ q)) ⟨(0 : Fin 3), Finset.mem_univ _⟩
  set w' := st.KernEta⁻¹ *ᵥ (r + u) with hw'
  have hA : SolvesUpTo (K + diagonal (tau (exGpSeq h 2) K N st.etaK)) (tau (exGpSeq h 2) K N st.etaK) (Real.sqrt S) w' r := by
    unfold SolvesUpTo
    rw [← hM, hw', mulVec_mulVec, mul_nonsing_inv _ hu, one_mulVec, add_sub_cancel_left, Real.sq_sqrt hS0.le]
  have hB : ∀ B : Mat (exGpSeq h 2).nData 1, (∀ a : Fin 1, IsCross (exGpSeq h 2) exHpQuiet (fun _ => 0) fun q => B q a) → ∀ a : Fin 1,
      SolvesUpTo (K + diagonal (tau (exGpSeq h 2) K N st.etaK)) (tau (exGpSeq h 2) K N st.etaK) 0
        (fun q => (st.KernEta⁻¹ * B) q a) (fun q => B q a) := by
    intro B _ a
    have e1 : (fun q => (st.KernEta⁻¹ * B) q a) = st.KernEta⁻¹ *ᵥ fun q => B q a := by
      ext q
      rfl
    unfold SolvesUpTo
    rw [← hM, e1, mulVec_mulVec, mul_nonsing_inv _ hu, one_mulVec, sub_self]
    simp
  obtain ⟨out, out', k1, k2, k3⟩ := C131_accurate hr h1 h2 hN hs.isKern hτ hs.data (X := ⟨1, 2, fun _ _ => 0⟩) rfl Nat.one_pos (Real.sqrt_nonneg S) le_rfl
    hA hB (fun _ _ _ => by norm_num) true
  obtain ⟨o, dmu, dmu', j1, j2, j3, j4⟩ := C131_gradient (exReadySeq h 2) h1 h2 (th := exTheta) rfl hN hs.isKern hτ hs.data (X := ⟨1, 2, fun _ _ => 0⟩) rfl
    Nat.one_pos (Real.sqrt_nonneg S) hA k2
  obtain rfl := Except.ok.inj (k1.symm.trans j1)
  refine ⟨st, w', _, Real.sqrt S, out, out', dmu, dmu', Real.sqrt_pos.mpr hS0, ?_, h1, k1, j2, k2, j3, (k3 ⟨0, Nat.one_pos⟩).1, ?_⟩
  · rw [hs.w F hF]
    intro he
    have h5 := congrArg (st.KernEta *ᵥ ·) (Option.some.inj he)
    simp only [hw', mulVec_mulVec, mul_nonsing_inv _ hu, one_mulVec] at h5
    have h6 : r (0 : Fin 3) = (r + u) (0 : Fin 3) := congrFun h5 (0 : Fin 3)
    have h7 : (r + u) (0 : Fin 3) = r (0 : Fin 3) + 1 := rfl
    linarith
  · have := j4 ⟨0, Nat.one_pos⟩ ⟨1, by decide⟩
    simpa [slope0, exGpSeq, exGpQuiet, exGp] using this

end Props
