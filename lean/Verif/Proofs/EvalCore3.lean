import Verif.Proofs.EvalCore2

/-! `setup_eval_model`, `eval_model` and `eval_model_var` on well-formed objects. -/

open Np Spec Matrix

noncomputable section

namespace GP

/-- The constant mean function. -/
theorem mean_ok {dim : ℕ} {X : Arr2} (hX : X.c = dim) {m : Option (List Bool)} (hm : maskOk m X.r) {beta : Arr1}
    (hb : beta.n = 1) (cg ch : Bool) :
    ∃ v G h, evalMeanFun dim nBetaCoeff X beta m cg ch = .ok (v, (if cg then some G else none), h) ∧ v.n = X.r ∧
      (∀ p < X.r, v.get p = beta.get 0) ∧ G.r = gN m X.r ∧ G.c = dim ∧ (∀ a < gN m X.r, ∀ i < dim, G.get a i = 0) := by
  obtain ⟨B, hB, hr, hc, hBv⟩ := vandBase_ok (nb := nBetaCoeff) hX (.inl rfl)
  obtain ⟨G, hG, g1, g2, g3, g4⟩ := vandGrad_ok (dim := dim) (nb := nBetaCoeff) (X := X) (.inl rfl)
  obtain ⟨H, hH, k1, k2, k3, k4⟩ := maskRowsOpt_ok (A := G) (m := m) (by rw [g2]; exact hm)
  rw [g2] at k2
  refine ⟨⟨B.r, fun p => ∑ k ∈ Finset.range B.c, B.get p k * beta.get k⟩, einsumMeanGrad H beta,
    if cg && ch then some (Arr3.zeros X.r dim dim) else none, ?_, hr, ?_, k2, by simp [einsumMeanGrad, k1, g1], ?_⟩
  · unfold evalMeanFun meanGradPart
    rw [pyAssert_true (show beta.n = nBetaCoeff from hb)]
    cases cg <;> simp only [hB, ok_bind, hG, hH, pure_eq_ok, if_true, Bool.false_eq_true, if_false]
  · intro p hp
    simp only [hc, nBetaCoeff, Finset.sum_range_one]
    rw [hBv p hp 0 (by decide)]
    simp [polyBasis]
  · intro a ha i hi
    simp only [einsumMeanGrad, k3, g3]
    refine Finset.sum_eq_zero fun k hk => ?_
    have hk' := Finset.mem_range.mp hk
    rw [k4, g4 i hi _ (gSel_lt hm ha) k hk', if_neg, zero_mul]
    have : nBetaCoeff = 1 := rfl
    omega

theorem dataVec_ok {g : Gp} (hg : GpOk g) : (makeDataVec g.fval g.grad).n = g.nData ∧
    DataSpec g (toVec g.nData (makeDataVec g.fval g.grad)) := by
  cases hu : g.useGrad with
  | false =>
    have h0 : g.nGrad = 0 := by rw [hg.nGrad]; simp [hu]
    rw [hg.grad_none hu]
    refine ⟨by show g.fval.n = _; rw [hg.fval_n, hg.nData, h0]; simp, ⟨fun q _ => rfl, ?_⟩⟩
    intro G hG
    rw [hg.grad_none hu] at hG; cases hG
  | true =>
    obtain ⟨G, hG, hr, hc⟩ := hg.grad_some hu
    rw [hG]
    obtain ⟨-, -, h1, h2, h3⟩ := Props.C69_data_vector g.fval G
    refine ⟨by rw [h1, hg.fval_n, hr, hc, hg.nData], ⟨?_, ?_⟩⟩
    · intro q hq
      exact h2 q (by rw [hg.fval_n]; exact hq)
    · intro G' hG' q i hi a ha hq
      rw [hG] at hG'
      cases hG'
      have := h3 i (by rw [hc]; exact hi) a (by rw [hr]; exact ha)
      rw [hg.fval_n, hr] at this
      rw [toVec, hq]; exact this

theorem meanVec_ok {g : Gp} (hg : GpOk g) {v : Arr1} {G : Arr2} {β : ℝ} (hv : v.n = g.nEval) (hvv : ∀ p < g.nEval, v.get p = β)
    (hr : G.r = gN g.bvec g.nEval) (hc : G.c = g.dim) (hG : ∀ a < gN g.bvec g.nEval, ∀ i < g.dim, G.get a i = 0) :
    (makeDataVec v (if g.useGrad then some G else none)).n = g.nData ∧
      toVec g.nData (makeDataVec v (if g.useGrad then some G else none)) = priorMean g β := by
  cases hu : g.useGrad with
  | false =>
    have h0 : g.nGrad = 0 := by rw [hg.nGrad]; simp [hu]
    simp only [Bool.false_eq_true, if_false]
    have hnd : g.nData = g.nEval := by rw [hg.nData, h0]; simp
    refine ⟨by show v.n = _; rw [hv, hnd], ?_⟩
    funext q
    have hq : (q : ℕ) < g.nEval := q.2.trans_eq hnd
    simp [priorMean, hq, toVec, makeDataVec, hvv]
  | true =>
    have hng : g.nGrad = gN g.bvec g.nEval := by rw [hg.nGrad]; simp [hu]
    simp only [if_true]
    obtain ⟨-, -, h1, h2, h3⟩ := Props.C69_data_vector v G
    refine ⟨by rw [h1, hv, hr, hc, hg.nData, hng], ?_⟩
    funext q
    have hq : (q : ℕ) < g.nEval + g.nGrad * g.dim := by rw [← hg.nData]; exact q.2
    rcases row_cases hq with h | ⟨i, a, hi, ha, he⟩
    · simp only [priorMean, h, if_true, toVec]
      rw [h2 q (by rw [hv]; exact h), hvv q h]
    · have hn : ¬ (q : ℕ) < g.nEval := by omega
      simp only [priorMean, hn, if_false, toVec]
      have := h3 i (by rw [hc]; exact hi) a (by rw [hr, ← hng]; exact ha)
      rw [hv, hr, ← hng, ← he] at this
      rw [this, hG a (by rw [← hng]; exact ha) i hi]

/-- The diagonal that `setup_eval_model` adds to the kernel matrix `K`: noise variances `N` and nugget. -/
def addDiag (g : Gp) (K : Mat g.nData g.nData) (N : Vec g.nData) (η : ℝ) : Vec g.nData := fun i =>
  N i + η * (if g.o.precon then K i i + N i else 1)

/-- What a successful `setup_eval_model` leaves behind. -/
structure SetupSpec (g : Gp) (hp : HpVals) (β : ℝ) (cc : Bool) (N : Vec g.nData) (K : Mat g.nData g.nData)
    (st : EvalState g.nData) : Prop where
  hp_eq : st.hp = hp
  data : DataSpec g st.dataVec
  noise : ∃ Na, NoiseSpec g hp Na ∧ N = toVec g.nData Na
  isKern : IsKern g hp K
  psd : K.PosSemidef
  diag : ∀ i, 0 < K i i
  kern : st.Kern = K
  cov : st.KernEta = K + diagonal (addDiag g K N st.etaK)
  fac : ∀ F, st.chofac = some F → F.mat = st.KernEta ∧ st.KernEta.PosDef
  w : ∀ F, st.chofac = some F → st.w = some (st.KernEta⁻¹ *ᵥ (st.dataVec - priorMean g β))
  facSome : cc = false ∨ g.o.precon = true → st.KernEta.PosDef → ∃ F, st.chofac = some F
  etaConst : g.o.etaConst = true → st.etaK = g.o.etaK
  etaNonneg : (if g.o.etaConst then 0 ≤ g.o.etaK else 1 < g.o.condMaxTarget) → 0 ≤ st.etaK
  etaPos : (if g.o.etaConst then 0 < g.o.etaK else 1 < g.o.condMaxTarget) → 0 < st.etaK
  etaEq : st.etaK = if g.o.etaConst then g.o.etaK else
    (⨆ i, ∑ j, |(if g.o.precon then corr (kwn 1 K N) else K) i j|) / (g.o.condMaxTarget - 1)

theorem setup_ok {g : Gp} (hg : GpOk g) {hp : HpVals} (hh : HpAdm g hp) (hk : g.useGrad = true ∨ g.knownFval = true)
    (hprec : g.o.precon = true → g.useGrad = true) (hne : 0 < g.nEval) {v : ℝ} (hv : 0 < v) (hvk : hp.varK = some v)
    {beta : Arr1} (hbeta : hp.beta = some beta) (hb : beta.n = 1) (cc : Bool) :
    ∃ N K st, setupEvalModel g hp cc = .ok st ∧ SetupSpec g hp (beta.get 0) cc N K st := by
  obtain ⟨R, hR, -⟩ := calcRtensor_ok (X := g.x) (Y := g.x) rfl
  obtain ⟨Na, K, out, hN, hNs, hK, hpsd, hdiag, hone, hout, hs⟩ := calcAllK_ok hg hh hk hprec hne hR true cc none true
    (v := 1) one_pos ⟨⟨v, by simpa using hvk, fun h => by cases h⟩, fun _ => rfl⟩
  obtain ⟨vv, G, h, hmf, hv1, hv2, hG1, hG2, hG3⟩ := mean_ok (X := g.x) hg.x_c (m := g.bvec) (by rw [hg.x_r]; exact hg.mask) hb
    g.useGrad false
  rw [hg.x_r] at hv1 hv2 hG1 hG3
  obtain ⟨hm1, hm2⟩ := meanVec_ok hg hv1 hv2 hG1 hG2 hG3
  obtain ⟨hd1, hd2⟩ := dataVec_ok hg
  set dvec := makeDataVec g.fval g.grad with hdvec
  set st : EvalState g.nData := { hp := hp, dataVec := toVec g.nData dvec, Kern := out.Kern, KernEta := out.Kcov, chofac := out.chofac
                                  condK := out.condK, etaK := out.etaK
                                  w := out.chofac.map fun F => choSolveV F (toVec g.nData dvec - priorMean g (beta.get 0)) } with hst
  have hset : setupEvalModel g hp cc = .ok st := by
    unfold setupEvalModel
    simp only [hR, ok_bind, hbeta, need, hmf, hout]
    rw [if_pos ⟨hd1, hm1⟩, hm2]
    rfl
  have hNn := NoiseSpec.nonneg hg hh hNs
  have hM0 : 0 ≤ ⨆ i, ∑ j, |(if g.o.precon then corr (kwn 1 K (toVec g.nData Na)) else K) i j| :=
    Real.iSup_nonneg fun i => Finset.sum_nonneg fun j _ => abs_nonneg _
  refine ⟨toVec g.nData Na, K, st, hset, ⟨rfl, hd2, ⟨Na, hNs, rfl⟩, hK, hpsd, hdiag, hs.kern, ?_, ?_, ?_, ?_, ?_, ?_, ?_, hs.eta⟩⟩
  · ext i j
    show out.Kcov i j = _
    rw [Props.cov_entry hs one_pos]
    simp only [Props.covEntry, Matrix.add_apply, diagonal_apply, addDiag, one_mul]
    rfl
  · intro F hF
    obtain ⟨h1, -, h3⟩ := hs.fac F hF
    exact ⟨h1, h3⟩
  · intro F hF
    obtain ⟨h1, -, -⟩ := hs.fac F hF
    show out.chofac.map _ = _
    rw [show out.chofac = some F from hF]
    simp only [Option.map_some, choSolveV, h1]
    rfl
  · intro h1 h2
    exact hs.facSome rfl (fun h3 h4 => by rw [h3, h4] at h1; simp at h1) h2
  · intro he
    show out.etaK = _
    rw [hs.eta, if_pos he]
  · intro he
    show 0 ≤ out.etaK
    rw [hs.eta]
    cases hc : g.o.etaConst with
    | true => simpa [hc] using he
    | false =>
      simp only [hc, Bool.false_eq_true, if_false] at he ⊢
      exact div_nonneg hM0 (by linarith)
  · intro he
    obtain ⟨R', out', hR', hout', -, hpos, -⟩ := Props.C19_posDef hg hh hk hprec hne hv hvk he true cc true
    rw [hR] at hR'
    cases hR'
    rw [hout] at hout'
    cases hout'
    exact hpos

section
variable (g : Gp) (hp : HpVals) (M : Mat g.nData g.nData) (w : Vec g.nData) (β v : ℝ)

/-- Predicted mean. -/
def muF (x : Pt) : ℝ := β + kv g hp x ⬝ᵥ w
/-- Relative predicted variance. -/
def s2F (x : Pt) : ℝ := 1 - kv g hp x ⬝ᵥ M⁻¹ *ᵥ kv g hp x
/-- Predicted standard deviation. -/
def sgF (x : Pt) : ℝ := Real.sqrt (s2F g hp M x) * Real.sqrt v
/-- Gradient of the mean. -/
def dmuF (x : Pt) (i : ℕ) : ℝ := kd g hp x i ⬝ᵥ w
/-- Gradient of the standard deviation. -/
def dsgF (x : Pt) (i : ℕ) : ℝ := -(if sgF g hp M v x ≠ 0 then 1 / sgF g hp M v x else 0) * ((kd g hp x i ⬝ᵥ M⁻¹ *ᵥ kv g hp x) * v)
/-- Hessian of the mean. -/
def d2muF (x : Pt) (e i : ℕ) : ℝ := kh g hp x e i ⬝ᵥ w
/-- Hessian of the standard deviation. -/
def d2sgF (x : Pt) (e i : ℕ) : ℝ := 1 / (2 * sgF g hp M v x) *
  (-2 * v * (kh g hp x e i ⬝ᵥ M⁻¹ *ᵥ kv g hp x + kd g hp x e ⬝ᵥ M⁻¹ *ᵥ kd g hp x i)
    - 2 * (dsgF g hp M v x e * dsgF g hp M v x i))

open Classical in
/-- What `eval_model` returns. -/
def evalClosed (X : Arr2) (cg ch : Bool) : EvalOut X.r g.dim where
  mu := fun a => muF g hp w β (X.get a)
  sig := fun a => sgF g hp M v (X.get a)
  dmu := if cg then some (of fun a i => dmuF g hp w (X.get a) i) else none
  dsig := if cg then some (of fun a i => dsgF g hp M v (X.get a) i) else none
  d2mu := if ch then some (of fun e i => d2muF g hp w (X.get 0) e i) else none
  d2sig := if ch then some (if sgF g hp M v (X.get 0) = 0 then none else some (of fun e i => d2sgF g hp M v (X.get 0) e i)) else none
end

/-- When Hessians can be requested. -/
def HessOk (g : Gp) (hp : HpVals) (X : Arr2) (cg ch : Bool) : Prop :=
  ch = true → cg = true ∧ X.r = 1 ∧ (g.useGrad = true → g.nGrad = g.nEval) ∧ SepAt g hp (X.get 0)

theorem s2_nonneg {g : Gp} (hg : GpOk g) {hp : HpVals} (hh : HpAdm g hp) {β : ℝ} {cc : Bool} {N : Vec g.nData} {K : Mat g.nData g.nData}
    {st : EvalState g.nData} (hs : SetupSpec g hp β cc N K st) (hη : 0 ≤ st.etaK) (hpd : st.KernEta.PosDef) (x : Pt) :
    0 ≤ s2F g hp st.KernEta x ∧ s2F g hp st.KernEta x ≤ 1 ∧ (0 < st.etaK → 0 < s2F g hp st.KernEta x) := by
  obtain ⟨Na, hNa, rfl⟩ := hs.noise
  have hN := NoiseSpec.nonneg hg hh hNa
  have hf : ∀ i, 0 < (if g.o.precon then K i i + toVec g.nData Na i else 1) := by
    intro i
    split_ifs
    · have := hs.diag i; have := hN i; linarith
    · norm_num
  obtain ⟨h1, h2, h3⟩ := reduction_le hg hh hs.isKern (d := addDiag g K (toVec g.nData Na) st.etaK)
    (fun i => add_nonneg (hN i) (mul_nonneg hη (hf i).le)) hs.cov hpd x
  refine ⟨by unfold s2F; linarith, by unfold s2F; linarith, fun hpos => ?_⟩
  have := h3 fun i => add_pos_of_nonneg_of_pos (hN i) (mul_pos hpos (hf i))
  unfold s2F; linarith

theorem evalModel_ok {g : Gp} (hg : GpOk g) {hp : HpVals} (hh : HpAdm g hp) {v : ℝ} (hv : 0 < v) (hvk : hp.varK = some v)
    {beta : Arr1} (hbeta : hp.beta = some beta) (hb : beta.n = 1) {cc : Bool} {N : Vec g.nData} {K : Mat g.nData g.nData}
    {st : EvalState g.nData} (hs : SetupSpec g hp (beta.get 0) cc N K st) (hη : 0 ≤ st.etaK) {F : ChoFac g.nData}
    (hF : st.chofac = some F) {X : Arr2} (hX : X.c = g.dim) (hXr : 0 < X.r) (hq : g.kernel = .ratQuad → fullMask g.bvec g.nEval)
    (cg ch : Bool) (hch : HessOk g hp X cg ch) :
    evalModel g st hp X cg ch = .ok (evalClosed g hp st.KernEta (st.KernEta⁻¹ *ᵥ (st.dataVec - priorMean g (beta.get 0)))
      (beta.get 0) v X cg ch) := by
  obtain ⟨hFm, hpd⟩ := hs.fac F hF
  obtain ⟨A, dK, hA, hAr, hAc, hAg, hD⟩ := crossKern_ok hg hh hX hq cg
  obtain ⟨vv, G, h, hmf, hv1, hv2, hG1, hG2, hG3⟩ := mean_ok (X := X) hX (m := none) (by simp [maskOk]) hb cg ch
  have hW := hs.w F hF
  set w := st.KernEta⁻¹ *ᵥ (st.dataVec - priorMean g (beta.get 0)) with hw
  have hcol : ∀ a : Fin X.r, (fun q => toMat g.nData X.r A q a) = kv g hp (X.get a) := fun a => funext fun q => hAg q a
  have hkinv : ∀ a : Fin X.r, (fun q => choSolve F (toMat g.nData X.r A) q a) = st.KernEta⁻¹ *ᵥ kv g hp (X.get a) := by
    intro a
    funext q
    simp only [choSolve, hFm, mul_apply, mulVec, dotProduct]
    refine Finset.sum_congr rfl fun p _ => ?_
    rw [← hAg p a]; rfl
  have hs2 : ∀ a : Fin X.r, 1 - ((toMat g.nData X.r A)ᵀ * choSolve F (toMat g.nData X.r A)) a a = s2F g hp st.KernEta (X.get a) := by
    intro a
    rw [s2F, ← hkinv a, ← hcol a]
    rfl
  have hmu : ∀ a : Fin X.r, vv.get a + ((toMat g.nData X.r A)ᵀ *ᵥ w) a = muF g hp w (beta.get 0) (X.get a) := by
    intro a
    rw [hv2 a a.2, muF, ← hcol a]
    rfl
  have hnn : ∀ a : Fin X.r, ¬ s2F g hp st.KernEta (X.get a) < 0 := fun a => not_lt.mpr (s2_nonneg hg hh hs hη hpd _).1
  have hsq : Real.sqrt v ^ 2 = v := Real.sq_sqrt hv.le
  unfold evalModel
  simp only [hF, hs.hp_eq, ne_eq, not_true_eq_false, if_false, hbeta, hvk, need, ok_bind]
  rw [pyAssert_true (fun h => (hch h).1)]
  simp only [ok_bind, hA, hAr, hAc, and_self, if_true, hW, hmf, if_neg hXr.ne', hs2, hmu]
  rw [pyAssert_true (fun a => (s2_nonneg hg hh hs hη hpd _).1)]
  simp only [ok_bind, hnn, if_false]
  cases cg with
  | false =>
    have hch' : ch = false := by
      cases ch with
      | false => rfl
      | true => exact absurd (hch rfl).1 (by simp)
    subst hch'
    rfl
  | true =>
    obtain ⟨D, rfl, hDr, hDc, hDg⟩ := hD rfl
    have hdmu : (calcDmu D w G : Mat X.r g.dim) = of fun (a : Fin X.r) (i : Fin g.dim) => dmuF g hp w (X.get a) i := by
      ext a i
      simp only [calcDmu, of_apply, hDg, dmuF]
      rw [hG3 a a.2 i i.2, add_zero]
    have hdsig : (calcDsig D (choSolve F (toMat g.nData X.r A)) (fun a => Real.sqrt (s2F g hp st.KernEta (X.get a)) * Real.sqrt v)
        (Real.sqrt v) : Mat X.r g.dim) = of fun (a : Fin X.r) (i : Fin g.dim) => dsgF g hp st.KernEta v (X.get a) i := by
      ext a i
      simp only [calcDsig, of_apply, hDg, hkinv, hsq]
      rfl
    unfold evalDerivs
    simp only [if_true, need, ok_bind, hDr, hDc, and_self, hdmu, hdsig]
    cases ch with
    | false => rfl
    | true =>
      obtain ⟨-, h1, hfull, hsep⟩ := hch rfl
      obtain ⟨H, hH, H1, H2, H3, H4, H5⟩ := crossHess_ok hg hh hX h1 hfull hsep
      simp only [if_true, hH, ok_bind]
      rw [pyAssert_true ⟨H1, H2, H3⟩, ok_bind, dif_pos ⟨h1, H4⟩]
      have hd2mu : (calcD2mu H w : Mat g.dim g.dim) = of fun (e i : Fin g.dim) => d2muF g hp w (X.get 0) e i := by
        ext e i
        simp only [calcD2mu, of_apply, d2muF, dotProduct, H5]
      have hk0 := hkinv ⟨0, by omega⟩
      have hk0' : ∀ q, choSolve F (toMat g.nData X.r A) q ⟨0, by omega⟩ = (st.KernEta⁻¹ *ᵥ kv g hp (X.get 0)) q := fun q => congrFun hk0 q
      have hD0 : ∀ i : Fin g.dim, (dkRow D 1 g.dim 0 i : Vec g.nData) = kd g hp (X.get 0) i := by
        intro i
        rw [← hDg ⟨0, by omega⟩ i]
        funext q
        simp only [dkRow, h1]
        rfl
      have hd2sig : calcD2sig H F D (of fun q _ => choSolve F (toMat g.nData X.r A) q ⟨0, by omega⟩)
          (Real.sqrt (s2F g hp st.KernEta (X.get 0)) * Real.sqrt v)
          (of fun _ i => dsgF g hp st.KernEta v (X.get 0) i) (Real.sqrt v) =
          if sgF g hp st.KernEta v (X.get 0) = 0 then none else
            some (of fun (e i : Fin g.dim) => d2sgF g hp st.KernEta v (X.get 0) e i) := by
        unfold calcD2sig
        simp only [hsq]
        by_cases h0 : sgF g hp st.KernEta v (X.get 0) = 0
        · rw [if_pos h0]
          exact if_pos h0
        · rw [if_neg h0]
          refine (if_neg h0).trans (congrArg some ?_)
          ext e i
          simp only [Matrix.smul_apply, Matrix.sub_apply, Matrix.add_apply, of_apply, smul_eq_mul, d2sgF, hk0', H5]
          have ht2 : ((of fun (i : Fin g.dim) (q : Fin g.nData) => dkRow (n := g.nData) D 1 g.dim 0 i q) *
              choSolve F (of fun (i : Fin g.dim) (q : Fin g.nData) => dkRow (n := g.nData) D 1 g.dim 0 i q)ᵀ) e i =
              kd g hp (X.get 0) e ⬝ᵥ st.KernEta⁻¹ *ᵥ kd g hp (X.get 0) i := by
            simp only [choSolve, hFm, mul_apply, of_apply, transpose_apply, dotProduct, mulVec, hD0]
          rw [ht2]
          rfl
      simp only [of_apply] at hd2sig ⊢
      rw [hd2mu, hd2sig]
      rfl

theorem evalModelVar_ok {g : Gp} (hg : GpOk g) {hp : HpVals} (hh : HpAdm g hp) {v : ℝ} (hv : 0 < v) (hvk : hp.varK = some v)
    {beta : Arr1} (hbeta : hp.beta = some beta) (hb : beta.n = 1) {cc : Bool} {N : Vec g.nData} {K : Mat g.nData g.nData}
    {st : EvalState g.nData} (hs : SetupSpec g hp (beta.get 0) cc N K st) (hη : 0 ≤ st.etaK) {F : ChoFac g.nData}
    (hF : st.chofac = some F) {X : Arr2} (hX : X.c = g.dim) (hXr : 0 < X.r) (hq : g.kernel = .ratQuad → fullMask g.bvec g.nEval)
    (cg : Bool) :
    evalModelVar g st hp X cg false = .ok
      { sig2 := fun a => v * s2F g hp st.KernEta (X.get a)
        dsig2 := if cg then some (of fun a i => -2 * (kd g hp (X.get a) i ⬝ᵥ st.KernEta⁻¹ *ᵥ kv g hp (X.get a)) * v) else none } := by
  obtain ⟨hFm, hpd⟩ := hs.fac F hF
  obtain ⟨A, dK, hA, hAr, hAc, hAg, hD⟩ := crossKern_ok hg hh hX hq cg
  obtain ⟨vv, G, h, hmf, hv1, hv2, hG1, hG2, hG3⟩ := mean_ok (X := X) hX (m := none) (by simp [maskOk]) hb cg false
  have hcol : ∀ a : Fin X.r, (fun q => toMat g.nData X.r A q a) = kv g hp (X.get a) := fun a => funext fun q => hAg q a
  have hkinv : ∀ a : Fin X.r, (fun q => choSolve F (toMat g.nData X.r A) q a) = st.KernEta⁻¹ *ᵥ kv g hp (X.get a) := by
    intro a
    funext q
    simp only [choSolve, hFm, mul_apply, mulVec, dotProduct]
    refine Finset.sum_congr rfl fun p _ => ?_
    rw [← hAg p a]; rfl
  have hs2 : ∀ a : Fin X.r, 1 - ((toMat g.nData X.r A)ᵀ * choSolve F (toMat g.nData X.r A)) a a = s2F g hp st.KernEta (X.get a) := by
    intro a
    rw [s2F, ← hkinv a, ← hcol a]
    rfl
  unfold evalModelVar
  simp only [hF, hs.hp_eq, ne_eq, not_true_eq_false, if_false, hbeta, hvk, need, ok_bind]
  rw [pyAssert_true (fun h => by cases h)]
  simp only [ok_bind, hA, hAr, hAc, and_self, if_true, hmf, if_neg hXr.ne', hs2]
  rw [pyAssert_true (fun a => mul_nonneg hv.le (s2_nonneg hg hh hs hη hpd _).1)]
  simp only [ok_bind]
  unfold evalVarDerivs
  cases cg with
  | false => rfl
  | true =>
    obtain ⟨D, rfl, hDr, hDc, hDg⟩ := hD rfl
    simp only [Bool.false_eq_true, if_false, if_true, need, ok_bind, hDr, hDc, and_self, hDg, hkinv, pure_eq_ok]

/-- The second-derivative tensor has one column per value and per partial derivative of *every* point. -/
theorem crossHess_shape {g : Gp} (hg : GpOk g) {hp : HpVals} (hh : HpAdm g hp) {X : Arr2} (hX : X.c = g.dim) (h1 : X.r = 1)
    (hu : g.useGrad = true) :
    ∃ H, crossHess g hp X = .ok H ∧ H.d = g.dim ∧ H.r = g.dim ∧ H.c = hessNData g := by
  obtain ⟨th, ht, hn, -⟩ := hh.theta
  obtain ⟨R, hR, -⟩ := calcRtensor_ok (X := X) (Y := g.x) (by rw [hg.x_c, hX])
  have hI := (calcRtensor_isR hR).2
  obtain ⟨H, F, hH, hrep⟩ := calcKernGradGradX_shape g.kernel (α := alphaOf g.kernel hp.kernel) (R := R) (theta := th)
    (by rw [hI.d, hX, hn])
  rw [← gradX_canon hh.kernel] at hH
  have hd := hrep.d
  have hr := hrep.r
  have hc := hrep.c
  rw [hI.d, hX] at hd
  rw [hI.r, hI.d, h1, hX] at hr
  rw [hI.c, hI.d, hX, hg.x_r] at hc
  refine ⟨H, ?_, hd, by rw [hr]; omega, by rw [hc, hessNData, hu]; simp; ring⟩
  unfold crossHess
  rw [ht]
  simp only [need, ok_bind, hR, hu, if_true, hH]

/-- With gradients at only some of the points, a request for Hessians fails. -/
theorem evalModel_partial_mask {g : Gp} (hg : GpOk g) {hp : HpVals} (hh : HpAdm g hp) {v : ℝ} (hvk : hp.varK = some v)
    {beta : Arr1} (hbeta : hp.beta = some beta) (hb : beta.n = 1) {cc : Bool} {N : Vec g.nData} {K : Mat g.nData g.nData}
    {st : EvalState g.nData} (hs : SetupSpec g hp (beta.get 0) cc N K st) (hη : 0 ≤ st.etaK) {F : ChoFac g.nData}
    (hF : st.chofac = some F) {X : Arr2} (hX : X.c = g.dim) (hXr : X.r = 1) (hq : g.kernel = .ratQuad → fullMask g.bvec g.nEval)
    (hu : g.useGrad = true) (hpart : g.nGrad < g.nEval) (hdim : 0 < g.dim) :
    evalModel g st hp X true true = .error .shape := by
  obtain ⟨hFm, hpd⟩ := hs.fac F hF
  obtain ⟨A, dK, hA, hAr, hAc, hAg, hD⟩ := crossKern_ok hg hh hX hq true
  obtain ⟨vv, G, h, hmf, hv1, hv2, hG1, hG2, hG3⟩ := mean_ok (X := X) hX (m := none) (by simp [maskOk]) hb true true
  have hcol : ∀ a : Fin X.r, (fun q => toMat g.nData X.r A q a) = kv g hp (X.get a) := fun a => funext fun q => hAg q a
  have hkinv : ∀ a : Fin X.r, (fun q => choSolve F (toMat g.nData X.r A) q a) = st.KernEta⁻¹ *ᵥ kv g hp (X.get a) := by
    intro a
    funext q
    simp only [choSolve, hFm, mul_apply, mulVec, dotProduct]
    refine Finset.sum_congr rfl fun p _ => ?_
    rw [← hAg p a]; rfl
  have hs2 : ∀ a : Fin X.r, 1 - ((toMat g.nData X.r A)ᵀ * choSolve F (toMat g.nData X.r A)) a a = s2F g hp st.KernEta (X.get a) := by
    intro a
    rw [s2F, ← hkinv a, ← hcol a]
    rfl
  obtain ⟨H, hH, H1, H2, H3⟩ := crossHess_shape hg hh hX hXr hu
  have hne : ¬ (X.r = 1 ∧ H.c = g.nData) := by
    rintro ⟨-, h⟩
    rw [H3, hessNData, hu, hg.nData] at h
    simp only [if_true] at h
    have : g.nGrad * g.dim < g.nEval * g.dim := Nat.mul_lt_mul_of_pos_right hpart hdim
    have e : g.nEval * (1 + g.dim) = g.nEval + g.nEval * g.dim := by ring
    omega
  unfold evalModel
  simp only [hF, hs.hp_eq, ne_eq, not_true_eq_false, if_false, hbeta, hvk, need, ok_bind]
  rw [pyAssert_true (show (True → True) from fun h => h)]
  simp only [ok_bind, hA, hAr, hAc, and_self, if_true, hs.w F hF, hmf, if_neg (show X.r ≠ 0 by omega), hs2]
  rw [pyAssert_true (fun a => (s2_nonneg hg hh hs hη hpd _).1)]
  obtain ⟨D, rfl, hDr, hDc, hDg⟩ := hD rfl
  unfold evalDerivs
  simp only [if_true, need, ok_bind, hDr, hDc, and_self, hH]
  rw [pyAssert_true ⟨H1, H2, H3⟩, ok_bind, dif_neg hne]

/-- The second-derivative tensor has `dim` rows per point. -/
theorem crossHess_rows {g : Gp} (hg : GpOk g) {hp : HpVals} (hh : HpAdm g hp) {X : Arr2} (hX : X.c = g.dim) :
    ∃ H, crossHess g hp X = .ok H ∧ H.r = X.r * g.dim := by
  obtain ⟨th, ht, hn, -⟩ := hh.theta
  obtain ⟨R, hR, -⟩ := calcRtensor_ok (X := X) (Y := g.x) (by rw [hg.x_c, hX])
  have hI := (calcRtensor_isR hR).2
  unfold crossHess
  rw [ht]
  simp only [need, ok_bind, hR]
  cases hu : g.useGrad with
  | true =>
    obtain ⟨H, F, hH, hrep⟩ := calcKernGradGradX_shape g.kernel (α := alphaOf g.kernel hp.kernel) (R := R) (theta := th)
      (by rw [hI.d, hX, hn])
    rw [← gradX_canon hh.kernel] at hH
    exact ⟨H, by simp only [if_true, hH], by rw [hrep.r, hI.r, hI.d, hX]; ring⟩
  | false =>
    obtain ⟨H, hH, hrep⟩ := calcKernBaseHessX_ok g.kernel (α := alphaOf g.kernel hp.kernel) (R := R) (theta := th)
      (by rw [hI.d, hX, hn])
    rw [← hessX_canon hh.kernel] at hH
    exact ⟨H, by simp only [Bool.false_eq_true, if_false, hH], by rw [hrep.r, hI.r, hI.d, hX]; ring⟩

/-- A request for Hessians at two or more points fails. -/
theorem evalModel_several {g : Gp} (hg : GpOk g) {hp : HpVals} (hh : HpAdm g hp) {v : ℝ} (hvk : hp.varK = some v)
    {beta : Arr1} (hbeta : hp.beta = some beta) (hb : beta.n = 1) {cc : Bool} {N : Vec g.nData} {K : Mat g.nData g.nData}
    {st : EvalState g.nData} (hs : SetupSpec g hp (beta.get 0) cc N K st) (hη : 0 ≤ st.etaK) {F : ChoFac g.nData}
    (hF : st.chofac = some F) {X : Arr2} (hX : X.c = g.dim) (hXr : 2 ≤ X.r) (hq : g.kernel = .ratQuad → fullMask g.bvec g.nEval)
    (hdim : 0 < g.dim) :
    evalModel g st hp X true true = .error .assertion := by
  obtain ⟨hFm, hpd⟩ := hs.fac F hF
  obtain ⟨A, dK, hA, hAr, hAc, hAg, hD⟩ := crossKern_ok hg hh hX hq true
  obtain ⟨vv, G, h, hmf, hv1, hv2, hG1, hG2, hG3⟩ := mean_ok (X := X) hX (m := none) (by simp [maskOk]) hb true true
  have hcol : ∀ a : Fin X.r, (fun q => toMat g.nData X.r A q a) = kv g hp (X.get a) := fun a => funext fun q => hAg q a
  have hkinv : ∀ a : Fin X.r, (fun q => choSolve F (toMat g.nData X.r A) q a) = st.KernEta⁻¹ *ᵥ kv g hp (X.get a) := by
    intro a
    funext q
    simp only [choSolve, hFm, mul_apply, mulVec, dotProduct]
    refine Finset.sum_congr rfl fun p _ => ?_
    rw [← hAg p a]; rfl
  have hs2 : ∀ a : Fin X.r, 1 - ((toMat g.nData X.r A)ᵀ * choSolve F (toMat g.nData X.r A)) a a = s2F g hp st.KernEta (X.get a) := by
    intro a
    rw [s2F, ← hkinv a, ← hcol a]
    rfl
  obtain ⟨H, hH, H2⟩ := crossHess_rows hg hh hX
  unfold evalModel
  simp only [hF, hs.hp_eq, ne_eq, not_true_eq_false, if_false, hbeta, hvk, need, ok_bind]
  rw [pyAssert_true (show (True → True) from fun h => h)]
  simp only [ok_bind, hA, hAr, hAc, and_self, if_true, hs.w F hF, hmf, if_neg (show X.r ≠ 0 by omega), hs2]
  rw [pyAssert_true (fun a => (s2_nonneg hg hh hs hη hpd _).1)]
  obtain ⟨D, rfl, hDr, hDc, hDg⟩ := hD rfl
  unfold evalDerivs
  simp only [if_true, need, ok_bind, hDr, hDc, and_self, hH]
  have hbad : ¬ (H.d = g.dim ∧ H.r = g.dim ∧ H.c = hessNData g) := by
    rintro ⟨-, h, -⟩
    rw [H2] at h
    have : 2 * g.dim ≤ X.r * g.dim := Nat.mul_le_mul_right _ hXr
    omega
  unfold pyAssert
  rw [if_neg hbad]
  rfl

end GP
