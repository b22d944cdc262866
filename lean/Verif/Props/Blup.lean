import Verif.Spec.BlupSpec
import Verif.Proofs.Blup
import Verif.Props.BestLin
import Verif.Props.FarAway
import Verif.Props.Restate
import Verif.Props.Invariance

/-! Claim theorems for C119: with the estimated mean coefficient the prediction is the best linear unbiased prediction. -/

open Np GP Spec Matrix MeasureTheory

noncomputable section

namespace Props

/-- The nugget of a noise-free object. -/
def quietEta (g : Gp) (K : Mat g.nData g.nData) : ℝ := if g.o.etaConst then g.o.etaK else
  (⨆ i, ∑ j, |(if g.o.precon then corr (kwn 1 K 0) else K) i j|) / (g.o.condMaxTarget - 1)

/-- The correlation matrix of a noise-free object with its nugget. -/
def quietMat (g : Gp) (K : Mat g.nData g.nData) : Mat g.nData g.nData := K + diagonal (addDiag g K 0 (quietEta g K))

theorem fitted_ready {g : Gp} {hp : HpVals} {v β₀ : ℝ} (hr : Ready g hp v β₀) {f : Arr1} {G : Option Arr2} (h : ValuesOk g f G)
    (β : ℝ) {u : ℝ} (hu : 0 < u) : Ready (withValues g f G) (fitted hp β u) u β := by
  have hw := withValues_ready hr h β
  exact ⟨hw.ok, ⟨hw.adm.theta, hw.adm.kernel, hw.adm.vf_none, hw.adm.vf_some, hw.adm.vg_none, hw.adm.vg_some⟩, hw.noise, hw.precon, hw.ne, hu, rfl,
    ⟨_, rfl, rfl, rfl⟩, hw.eta, hw.mask⟩

theorem quiet_setup {g : Gp} (hg : GpOk g) (hno : g.noisy = false) {hp : HpVals} (hadm : HpAdm g hp) {β : ℝ} {cc : Bool} {N : Vec g.nData}
    {K K' : Mat g.nData g.nData} {st : EvalState g.nData} (hs : SetupSpec g hp β cc N K' st) (hK : IsKern g hp K) :
    st.etaK = quietEta g K ∧ st.KernEta = quietMat g K := by
  obtain rfl := isKern_unique hg hadm hs.isKern hK
  obtain ⟨Na, h1, h2⟩ := hs.noise
  have h0 : N = 0 := h2.trans (noise_zero hg hno h1)
  have e1 : st.etaK = quietEta g K' := by
    rw [hs.etaEq, h0]; rfl
  refine ⟨e1, ?_⟩
  rw [hs.cov, h0, e1]; rfl

theorem quiet_lkd {g : Gp} (hg : GpOk g) (hno : g.noisy = false) {hp : HpVals} (hadm : HpAdm g hp) {K : Mat g.nData g.nData} (hK : IsKern g hp K)
    (hk : g.useGrad = true ∨ g.knownFval = true) (hprec : g.o.precon = true → g.useGrad = true) (hne : 0 < g.nEval)
    (hη : if g.o.etaConst then 0 < g.o.etaK else 1 < g.o.condMaxTarget) {env : LkdEnv} {cl : Bool} {li : LkdInfo nBetaCoeff env.info.nHp}
    (hli : calcLkdAll g env hp cl false = .ok (li, true)) {y : Vec g.nData} (hy : DataSpec g y) :
    ∃ V : Mat g.nData nBetaCoeff, (∀ q j, V q j = priorMean g 1 q) ∧ (quietMat g K).PosDef ∧ li.beta = some (gls (quietMat g K) V y) := by
  obtain ⟨Na, K', out, y', V, li', h1, h2, -, -, -, h6, -, h8, h9, -, h11, h12, -, -, h15⟩ := lkd_form hg hadm hk hprec hne hη env cl
    (v := 1) one_pos (by unfold vkArg; rw [hno]; rfl)
  rw [hli] at h12
  have e := Except.ok.inj h12
  have e1 : li = li' := congrArg Prod.fst e
  have e2 : true = out.chofac.isSome := congrArg Prod.snd e
  obtain rfl := isKern_unique hg hadm h2 hK
  obtain rfl := dataSpec_unique hg h9 hy
  have h0 := noise_zero hg hno h1
  have hη' : out.etaK = quietEta g K' := by
    rw [h6.eta, h0]; rfl
  have hM : out.Kcov = quietMat g K' := by
    rw [h6.cov, h0, hη', one_smul]
    ext i j
    unfold quietMat kwn addDiag
    by_cases hij : i = j
    · subst hij
      cases g.o.precon <;> simp
    · cases g.o.precon <;> simp [hij, one_apply, diagonal_apply]
  refine ⟨V, fun q j => ?_, hM ▸ h8, ?_⟩
  · rw [h11]; rfl
  · rw [e1, (h15 e2.symm).1, hM]

theorem priorMean_smul (g : Gp) (β : ℝ) : priorMean g β = β • priorMean g 1 := by
  funext q
  simp only [priorMean, Pi.smul_apply, smul_eq_mul, mul_ite, mul_one, mul_zero]

theorem priorMean_ne {g : Gp} (hg : GpOk g) (hne : 0 < g.nEval) : priorMean g 1 ≠ 0 := by
  intro h
  have hlt : 0 < g.nData := by rw [hg.nData]; omega
  have := congrFun h ⟨0, hlt⟩
  simp [priorMean, hne] at this

/-- **C119.** Noise-free data. `calc_lkd_all` estimates the mean coefficient from the data, and predictions are made with the estimate and with any
process variance (also one estimated from the data). The predicted value is a linear function of the data that is unbiased whatever the mean
of the function is. If the function has the correlations of the model (with the nugget) and any constant mean `β` and variance `v`, then no other linear unbiased
prediction has a smaller mean squared error. The error is the reported variance, for process variance `v`, plus what the uncertainty of the
estimated mean coefficient adds: its variance times the square of the change `c` of the predicted value per unit of the coefficient. -/
theorem C119_best_unbiased {Ω : Type*} [MeasurableSpace Ω] {P : Measure Ω} [IsProbabilityMeasure P] {g : Gp} {hp : HpVals} {v₀ β₀ : ℝ}
    (hr : Ready g hp v₀ β₀) (hno : g.noisy = false) (hη : if g.o.etaConst then 0 < g.o.etaK else 1 < g.o.condMaxTarget)
    {K : Mat g.nData g.nData} (hK : IsKern g hp K)
    {f : Ω → Arr1} {G : Ω → Option Arr2} (hf : ∀ ω, ValuesOk g (f ω) (G ω)) {Y : Ω → Vec g.nData}
    (hY : ∀ ω, DataSpec (withValues g (f ω) (G ω)) (Y ω)) {env : LkdEnv} {cl : Bool} {li : Ω → LkdInfo nBetaCoeff env.info.nHp}
    (hli : ∀ ω, calcLkdAll (withValues g (f ω) (G ω)) env (unfitted hp) cl false = .ok (li ω, true))
    {u : Ω → ℝ} (hu : ∀ ω, 0 < u ω) {cc : Bool} {st : Ω → ℝ → EvalState g.nData}
    (hst : ∀ ω b, setupEvalModel (withValues g (f ω) (G ω)) (fitted hp b (u ω)) cc = .ok (st ω b)) (hF : ∀ ω b, (st ω b).chofac ≠ none)
    {X : Arr2} (hX : X.c = g.dim) (hXr : 0 < X.r) (cg : Bool) :
    ∃ (b : Ω → ℝ) (out : Ω → ℝ → EvalOut X.r g.dim) (s c : Vec X.r) (η : ℝ),
      (∀ ω, (li ω).beta = some fun _ => b ω) ∧
      (∀ ω b', evalModel (withValues g (f ω) (G ω)) (st ω b') (fitted hp b' (u ω)) X cg false = .ok (out ω b') ∧ (st ω b').etaK = η ∧
        ∀ a, (out ω b').sig a = Real.sqrt (u ω) * s a ∧ (out ω b').mu a = (out ω (b ω)).mu a + c a * (b' - b ω)) ∧
      ∀ a : Fin X.r, (∃ w, (∀ β, w ⬝ᵥ priorMean g β = β) ∧ ∀ ω, (out ω (b ω)).mu a = w ⬝ᵥ Y ω) ∧
        ∀ k, IsCross g hp (X.get a) k → ∀ (β v : ℝ) (F : Ω → ℝ), 0 < v →
          HasMoments P (priorMean g β) β (noisyCov g.o.precon v K 0 η) (v • k) v Y F →
          ∫ ω, ((out ω (b ω)).mu a - F ω) ∂P = 0 ∧
          (∀ w0 w, (∀ β, w0 + w ⬝ᵥ priorMean g β = β) → ∫ ω, ((out ω (b ω)).mu a - F ω) ^ 2 ∂P ≤ ∫ ω, (w0 + w ⬝ᵥ Y ω - F ω) ^ 2 ∂P) ∧
          ∫ ω, b ω ∂P = β ∧ 0 < ∫ ω, (b ω - β) ^ 2 ∂P ∧
          ∫ ω, ((out ω (b ω)).mu a - F ω) ^ 2 ∂P = v * s a ^ 2 + c a ^ 2 * ∫ ω, (b ω - β) ^ 2 ∂P := by
  obtain ⟨ω₀⟩ : Nonempty Ω := P.nonempty_of_neZero
  have hrω := fun ω b' => fitted_ready hr (hf ω) b' (hu ω)
  choose N' K' hs hN' using fun ω b' => ready_setup (hrω ω b').toV (hst ω b')
  have hq : ∀ ω b', (st ω b').etaK = quietEta g K ∧ (st ω b').KernEta = quietMat g K := fun ω b' =>
    quiet_setup (g := withValues g (f ω) (G ω)) (hrω ω b').ok hno (hrω ω b').adm (hs ω b') hK
  have hun : HpAdm g (unfitted hp) := ⟨hr.adm.theta, hr.adm.kernel, hr.adm.vf_none, hr.adm.vf_some, hr.adm.vg_none, hr.adm.vg_some⟩
  have hL : ∀ ω, ∃ V : Mat g.nData nBetaCoeff, (∀ q j, V q j = priorMean g 1 q) ∧ (quietMat g K).PosDef ∧
      (li ω).beta = some (gls (quietMat g K) V (Y ω)) := fun ω =>
    quiet_lkd (g := withValues g (f ω) (G ω)) (hrω ω 0).ok hno ⟨hun.theta, hun.kernel, hun.vf_none, hun.vf_some, hun.vg_none, hun.vg_some⟩ hK hr.noise hr.precon
      hr.ne hη (hli ω) (hY ω)
  have hpd : (quietMat g K).PosDef := (hL ω₀).choose_spec.2.1
  set M := quietMat g K with hM
  set m := priorMean g 1 with hm
  have hm0 : m ≠ 0 := priorMean_ne hr.ok hr.ne
  have hq0 := inv_quad_pos hpd hm0
  set b : Ω → ℝ := fun ω => (m ⬝ᵥ M⁻¹ *ᵥ Y ω) / (m ⬝ᵥ M⁻¹ *ᵥ m) with hb
  have hdat : ∀ ω b', (st ω b').dataVec = Y ω := fun ω b' => dataSpec_unique (hrω ω b').ok (hs ω b').data (hY ω)
  have hout : ∀ ω b', ∃ out : EvalOut X.r g.dim, evalModel (withValues g (f ω) (G ω)) (st ω b') (fitted hp b' (u ω)) X cg false = .ok out ∧
      (∀ a, out.mu a = b' + kv g hp (X.get a) ⬝ᵥ (M⁻¹ *ᵥ (Y ω - b' • m))) ∧ ∀ a, out.sig a = Real.sqrt (u ω) * sgF g hp M 1 (X.get a) := by
    intro ω b'
    refine ⟨_, ready_eval (hrω ω b') (hs ω b') (hF ω b') hX hXr cg false noHess, fun a => ?_, fun a => ?_⟩
    · show b' + kv g hp (X.get a) ⬝ᵥ ((st ω b').KernEta⁻¹ *ᵥ ((st ω b').dataVec - priorMean g b')) = _
      rw [(hq ω b').2, hdat, priorMean_smul g b']
    · show sgF g hp (st ω b').KernEta (u ω) (X.get a) = _
      rw [(hq ω b').2, sgF, sgF, Real.sqrt_one]
      ring
  choose out ho hmu hsig using hout
  have hpred : ∀ ω a, (out ω (b ω)).mu a = blupW M m (kv g hp (X.get a)) ⬝ᵥ Y ω := fun ω a =>
    (hmu ω (b ω) a).trans (blup_pred hpd hm0 (kv g hp (X.get a)) (Y ω))
  have hwm : ∀ a : Fin X.r, blupW M m (kv g hp (X.get a)) ⬝ᵥ m = 1 := fun a => blup_unbiased hpd hm0 _
  refine ⟨b, out, fun a => sgF g hp M 1 (X.get a), fun a => 1 - kv g hp (X.get a) ⬝ᵥ M⁻¹ *ᵥ m, quietEta g K, fun ω => ?_,
    fun ω b' => ⟨ho ω b', (hq ω b').1, fun a => ⟨hsig ω b' a, ?_⟩⟩, fun a => ⟨⟨_, fun β => ?_, fun ω => hpred ω a⟩, ?_⟩⟩
  · obtain ⟨V, hV, -, h⟩ := hL ω
    rw [h]
    exact congrArg some (funext fun j => gls_one rfl hpd hm0 V hV (Y ω) j)
  · rw [hmu, hmu]
    simp only [mulVec_sub, mulVec_smul, dotProduct_sub, dotProduct_smul, smul_eq_mul]
    ring
  · rw [priorMean_smul, dotProduct_smul, hwm, smul_eq_mul, mul_one]
  intro k hk β v F hv hmom
  obtain rfl := isCross_eq hr.ok hr.adm hk
  set k := kv g hp (X.get a) with hkd
  have hC : noisyCov g.o.precon v K 0 (quietEta g K) = v • M := by
    rw [hM]
    ext i j
    simp only [noisyCov, quietMat, addDiag, of_apply, Matrix.smul_apply, Matrix.add_apply, diagonal_apply, Pi.zero_apply, smul_eq_mul]
    by_cases hij : i = j
    · simp only [hij, if_true]
      split_ifs <;> ring
    · simp only [hij, if_false]; ring
  rw [hC] at hmom
  have hmse : ∀ w, w ⬝ᵥ m = 1 → ∫ ω, (w ⬝ᵥ Y ω - F ω) ^ 2 ∂P = v * (1 - (2 * (w ⬝ᵥ k) - w ⬝ᵥ M *ᵥ w)) := by
    intro w hw
    have := mse_linear hmom 0 w
    simp only [zero_add] at this
    rw [this, priorMean_smul, dotProduct_smul, hw, smul_mulVec, dotProduct_smul, dotProduct_smul]
    simp only [smul_eq_mul]
    ring
  -- the estimate
  have hmomB : HasMoments P (priorMean g β) β (v • M) 0 0 Y (fun _ => β) :=
    ⟨hmom.memY, memLp_const β, hmom.meanY, by simp, hmom.cov, fun i => by simp, by simp⟩
  set wb : Vec g.nData := (m ⬝ᵥ M⁻¹ *ᵥ m)⁻¹ • (M⁻¹ *ᵥ m) with hwb
  have hbw : ∀ ω, b ω = wb ⬝ᵥ Y ω := fun ω => by
    rw [hwb, smul_dotProduct, smul_eq_mul, dotProduct_comm (M⁻¹ *ᵥ m) (Y ω), inv_swap hpd (Y ω) m]
    show _ / _ = _
    rw [div_eq_inv_mul]
  have hwbm : wb ⬝ᵥ m = 1 := by
    rw [hwb, smul_dotProduct, smul_eq_mul, dotProduct_comm (M⁻¹ *ᵥ m) m]
    exact inv_mul_cancel₀ hq0.ne'
  have hvarb : ∫ ω, (b ω - β) ^ 2 ∂P = v * (m ⬝ᵥ M⁻¹ *ᵥ m)⁻¹ := by
    have := mse_linear hmomB 0 wb
    simp only [zero_add] at this
    simp only [hbw]
    rw [this, priorMean_smul, dotProduct_smul, hwbm, smul_mulVec, dotProduct_smul]
    have e : wb ⬝ᵥ M *ᵥ wb = (m ⬝ᵥ M⁻¹ *ᵥ m)⁻¹ := by
      rw [hwb, mulVec_smul, mul_inv_vec hpd, dotProduct_smul, ← hwb, hwbm, smul_eq_mul, mul_one]
    rw [e]
    simp
  have hmean : ∀ w, w ⬝ᵥ m = 1 → ∫ ω, w ⬝ᵥ Y ω ∂P = β := by
    intro w hw
    simp only [dotProduct]
    rw [integral_finset_sum _ fun i _ => ((hmom.memY i).integrable one_le_two).const_mul _]
    simp only [integral_const_mul, hmom.meanY]
    show w ⬝ᵥ priorMean g β = β
    rw [priorMean_smul, dotProduct_smul, hw, smul_eq_mul, mul_one]
  have hint : ∀ w : Vec g.nData, Integrable (fun ω => w ⬝ᵥ Y ω) P := fun w =>
    integrable_finset_sum _ fun i _ => ((hmom.memY i).integrable one_le_two).const_mul _
  refine ⟨?_, fun w0 w hw => ?_, ?_, ?_, ?_⟩
  · simp only [hpred]
    rw [integral_sub (hint _) (hmom.memF.integrable one_le_two), hmean _ (hwm a), hmom.meanF, sub_self]
  · have h0 : w0 = 0 := by
      have := hw 0
      rw [priorMean_smul, zero_smul, dotProduct_zero, add_zero] at this
      exact this
    have h1 : w ⬝ᵥ m = 1 := by
      have := hw 1
      rwa [h0, zero_add] at this
    simp only [hpred, h0, zero_add]
    rw [hmse _ (hwm a), hmse _ h1]
    have := blup_best hpd hm0 k w h1
    exact mul_le_mul_of_nonneg_left (by linarith) hv.le
  · simp only [hbw]
    exact hmean _ hwbm
  · rw [hvarb]; positivity
  · simp only [hpred]
    have hsq : sgF g hp M 1 (X.get a) ^ 2 = 1 - k ⬝ᵥ M⁻¹ *ᵥ k := by
      have h1 := fitted_ready hr (hf ω₀) 0 (hu ω₀)
      have e := (s2_nonneg (g := withValues g (f ω₀) (G ω₀)) (hrω ω₀ 0).ok (hrω ω₀ 0).adm (hs ω₀ 0) ((hs ω₀ 0).etaNonneg hr.eta)
        (ready_pd (g := withValues g (f ω₀) (G ω₀)) (hs ω₀ 0) (hF ω₀ 0)) (X.get a)).1
      have e' : 0 ≤ s2F g hp M (X.get a) := by
        have e2 : 0 ≤ s2F g hp (st ω₀ 0).KernEta (X.get a) := e
        rwa [(hq ω₀ 0).2] at e2
      rw [sgF, mul_pow, Real.sq_sqrt e', Real.sq_sqrt zero_le_one, mul_one]
      rfl
    rw [hmse _ (hwm a), blup_mse hpd hm0, hvarb, hsq]
    ring

/-- **C119, discrepancy.** The reported variance leaves out the uncertainty of the estimated mean coefficient: even with the true process
variance it is smaller than the mean squared error of the prediction at every point far enough from the data. -/
theorem C119_reported_variance_discrepancy {Ω : Type*} [MeasurableSpace Ω] {P : Measure Ω} [IsProbabilityMeasure P] {g : Gp} {hp : HpVals} {v₀ β₀ : ℝ}
    (hr : Ready g hp v₀ β₀) (hno : g.noisy = false) (hη : if g.o.etaConst then 0 < g.o.etaK else 1 < g.o.condMaxTarget)
    {K : Mat g.nData g.nData} (hK : IsKern g hp K)
    {f : Ω → Arr1} {G : Ω → Option Arr2} (hf : ∀ ω, ValuesOk g (f ω) (G ω)) {Y : Ω → Vec g.nData}
    (hY : ∀ ω, DataSpec (withValues g (f ω) (G ω)) (Y ω)) {env : LkdEnv} {cl : Bool} {li : Ω → LkdInfo nBetaCoeff env.info.nHp} {b : Ω → ℝ}
    (hli : ∀ ω, calcLkdAll (withValues g (f ω) (G ω)) env (unfitted hp) cl false = .ok (li ω, true)) (hb : ∀ ω, (li ω).beta = some fun _ => b ω)
    {v : ℝ} (hv : 0 < v) {st : Ω → EvalState g.nData}
    (hst : ∀ ω, setupEvalModel (withValues g (f ω) (G ω)) (fitted hp (b ω) v) false = .ok (st ω)) :
    ∃ R > 0, ∃ η, ∀ X : Arr2, X.c = g.dim → 0 < X.r → ∀ cg, ∃ out : Ω → EvalOut X.r g.dim,
      (∀ ω, evalModel (withValues g (f ω) (G ω)) (st ω) (fitted hp (b ω) v) X cg false = .ok (out ω) ∧ (st ω).etaK = η) ∧
      ∀ a : Fin X.r, (∀ p < g.nEval, R ≤ ∑ d ∈ Finset.range g.dim, (X.get a d - g.x.get p d) ^ 2) →
        ∀ k, IsCross g hp (X.get a) k → ∀ (β : ℝ) (F : Ω → ℝ), HasMoments P (priorMean g β) β (noisyCov g.o.precon v K 0 η) (v • k) v Y F →
          ∀ ω, (out ω).sig a ^ 2 < ∫ ω, ((out ω).mu a - F ω) ^ 2 ∂P := by
  obtain ⟨ω₀⟩ : Nonempty Ω := P.nonempty_of_neZero
  have hrω := fun ω b' => fitted_ready hr (hf ω) b' hv
  choose S hS hSF using fun ω b' => ready_total (hrω ω b').toV hη
  have hSS : ∀ ω, S ω (b ω) = st ω := fun ω => Except.ok.inj ((hS ω (b ω)).symm.trans (hst ω))
  obtain ⟨R0, hR0, h0⟩ := C84_far_away (hrω ω₀ 0).toV (hS ω₀ 0) (hSF ω₀ 0) (ε := 1 / 4) (by norm_num)
  obtain ⟨R1, hR1, h1⟩ := C84_far_away (hrω ω₀ 1).toV (hS ω₀ 1) (hSF ω₀ 1) (ε := 1 / 4) (by norm_num)
  obtain ⟨N, K', hs, -⟩ := ready_setup (hrω ω₀ 0).toV (hS ω₀ 0)
  refine ⟨max R0 R1, lt_max_of_lt_left hR0, (S ω₀ 0).etaK, fun X hX hXr cg => ?_⟩
  obtain ⟨b', out, s, c, η, e1, e2, e3⟩ := C119_best_unbiased (P := P) hr hno hη hK hf hY hli (fun _ => hv) hS hSF hX hXr cg
  have hbb : ∀ ω, b' ω = b ω := fun ω => congrFun (Option.some.inj ((e1 ω).symm.trans (hb ω))) ⟨0, Nat.one_pos⟩
  obtain rfl : b' = b := funext hbb
  have hη0 : (S ω₀ 0).etaK = η := (e2 ω₀ 0).2.1
  refine ⟨fun ω => out ω (b' ω), fun ω => ⟨?_, ?_⟩, fun a ha k hk β F hmom ω => ?_⟩
  · rw [← hSS]; exact (e2 ω (b' ω)).1
  · rw [← hSS, hη0]; exact (e2 ω (b' ω)).2.1
  rw [hη0] at hmom
  obtain ⟨-, -, -, hpos, hmse⟩ := (e3 a).2 k hk β v F hv hmom
  have hc : c a ≠ 0 := by
    obtain ⟨o0, p0, q0⟩ := h0 X hX hXr cg
    obtain ⟨o1, p1, q1⟩ := h1 X hX hXr cg
    have r0 : o0 = out ω₀ 0 := Except.ok.inj (p0.symm.trans (e2 ω₀ 0).1)
    have r1 : o1 = out ω₀ 1 := Except.ok.inj (p1.symm.trans (e2 ω₀ 1).1)
    have t0 := (q0 a fun p hp' => (le_max_left R0 R1).trans (ha p hp')).1
    have t1 := (q1 a fun p hp' => (le_max_right R0 R1).trans (ha p hp')).1
    rw [r0, ((e2 ω₀ 0).2.2 a).2] at t0
    rw [r1, ((e2 ω₀ 1).2.2 a).2] at t1
    intro hc
    rw [hc] at t0 t1
    rw [abs_lt] at t0 t1
    linarith [t0.1, t0.2, t1.1, t1.2]
  rw [hmse, ((e2 ω (b' ω)).2.2 a).1, mul_pow, Real.sq_sqrt hv.le]
  have : 0 < c a ^ 2 := by positivity
  have := mul_pos this hpos
  linarith

/-- Two noise-free values and any point: there are random data and a random value with these moments and, say, the mean 4 and the variance 3. The mean
coefficient is estimated from the data, and the mean squared error of the prediction is the reported variance plus a multiple of the variance of the estimate. -/
example (env : LkdEnv) (X : Arr2) (hX : X.c = 2) (hXr : 0 < X.r) (a : Fin X.r) : ∃ (P : Measure (Fin 3 × Bool)) (Y : Fin 3 × Bool → Vec 2) (F : Fin 3 × Bool → ℝ)
    (b : Fin 3 × Bool → ℝ) (li : Fin 3 × Bool → LkdInfo nBetaCoeff env.info.nHp)
    (st : Fin 3 × Bool → EvalState 2) (out : Fin 3 × Bool → EvalOut X.r 2) (s c : ℝ), IsProbabilityMeasure P ∧
    (∀ ω, calcLkdAll (withValues exGpQuiet ⟨2, fun p => if h : p < 2 then Y ω ⟨p, h⟩ else 0⟩ none) env (unfitted exHpQuiet) false false = .ok (li ω, true) ∧
      (li ω).beta = some (fun _ => b ω) ∧
      setupEvalModel (withValues exGpQuiet ⟨2, fun p => if h : p < 2 then Y ω ⟨p, h⟩ else 0⟩ none) (fitted exHpQuiet (b ω) 3) false = .ok (st ω) ∧
      evalModel (withValues exGpQuiet ⟨2, fun p => if h : p < 2 then Y ω ⟨p, h⟩ else 0⟩ none) (st ω) (fitted exHpQuiet (b ω) 3) X true false = .ok (out ω) ∧
      (out ω).sig a = s) ∧ 0 < ∫ ω, (b ω - 4) ^ 2 ∂P ∧
    ∫ ω, ((out ω).mu a - F ω) ^ 2 ∂P = s ^ 2 + c ^ 2 * ∫ ω, (b ω - 4) ^ 2 ∂P := by
  have hη : if exGpQuiet.o.etaConst then 0 < exGpQuiet.o.etaK else 1 < exGpQuiet.o.condMaxTarget := by norm_num [exGpQuiet, exGp]
  obtain ⟨st₀, hst₀, hF₀⟩ := ready_total exReadyQuiet.toV hη
  obtain ⟨N, K, hs, hN⟩ := ready_setup exReadyQuiet.toV hst₀
  have hN0 : N = 0 := by
    obtain ⟨Na, h1, h2⟩ := hs.noise
    exact h2.trans (noise_zero exReadyQuiet.ok rfl h1)
  obtain ⟨o₁, ho₁, hc⟩ := C36_mean_is_posterior_mean_partial exReadyQuiet.toV hst₀ hF₀ hN (.inl fun i => by rw [hN0]; rfl) hX hXr true
  obtain ⟨o₂, ho₂, hpos⟩ := C37_variance_bounds exReadyQuiet.toV hst₀ hF₀ hX hXr true
  rw [ho₁] at ho₂
  cases ho₂
  have hk := kv_isCross exReadyQuiet.adm (X.get a)
  have hb := (hc K hs.isKern st₀.dataVec hs.data a _ hk ((hpos a).2.2 hη)).2.1
  rw [hN0, (quiet_setup exReadyQuiet.ok rfl exReadyQuiet.adm hs hs.isKern).1] at hb
  obtain ⟨P, Y, F, hP, hm⟩ := moments_exist (priorMean exGpQuiet 4) 4 hb
  set f : Fin 3 × Bool → Arr1 := fun ω => ⟨2, fun p => if h : p < 2 then Y ω ⟨p, h⟩ else 0⟩ with hf
  have hv : ∀ ω, ValuesOk exGpQuiet (f ω) none := fun ω => ⟨rfl, rfl⟩
  have hrω := fun ω b' => fitted_ready exReadyQuiet (hv ω) b' (u := 3) (by norm_num)
  choose st hst hF using fun ω b' => ready_total (hrω ω b').toV hη
  have hun : ∀ ω, HpAdm (withValues exGpQuiet (f ω) none) (unfitted exHpQuiet) := fun ω =>
    ⟨(hrω ω 0).adm.theta, (hrω ω 0).adm.kernel, (hrω ω 0).adm.vf_none, (hrω ω 0).adm.vf_some, (hrω ω 0).adm.vg_none, (hrω ω 0).adm.vg_some⟩
  have hlk : ∀ ω, ∃ li : LkdInfo nBetaCoeff env.info.nHp,
      calcLkdAll (withValues exGpQuiet (f ω) none) env (unfitted exHpQuiet) false false = .ok (li, true) := by
    intro ω
    obtain ⟨Na, K', out, y', V, li', -, -, -, -, -, -, -, -, -, -, -, h12, h13, -, -⟩ := lkd_form (hrω ω 0).ok (hun ω) (.inr rfl)
      (fun h => (nomatch h)) (hrω ω 0).ne hη env false (v := 1) one_pos (by rfl)
    rw [h13.mpr fun h => (nomatch h)] at h12
    exact ⟨li', h12⟩
  choose li hli using hlk
  obtain ⟨b, out, s, c, η, e1, e2, e3⟩ := C119_best_unbiased (P := P) exReadyQuiet rfl hη hs.isKern hv (Y := Y)
    (fun ω => ⟨fun q hq => by
      have hq2 : (q : ℕ) < 2 := q.2
      show Y ω q = if h : (q : ℕ) < 2 then Y ω ⟨q, h⟩ else 0
      rw [dif_pos hq2]
      rfl, fun G hG => (nomatch hG)⟩) hli (fun _ => by norm_num) hst hF hX hXr true
  have hη' : quietEta exGpQuiet K = η := by
    obtain ⟨N₁, K₁, hs₁, -⟩ := ready_setup (hrω (0, true) 0).toV (hst (0, true) 0)
    have := (quiet_setup (hrω (0, true) 0).ok rfl (hrω (0, true) 0).adm hs₁ (K := K) hs.isKern).1
    exact this.symm.trans (e2 (0, true) 0).2.1
  rw [hη'] at hm
  obtain ⟨-, -, -, h3, h4⟩ := (e3 a).2 _ hk 4 3 F (by norm_num) hm
  refine ⟨P, Y, F, b, li, fun ω => st ω (b ω), fun ω => out ω (b ω), Real.sqrt 3 * s a, c a, hP,
    fun ω => ⟨hli ω, e1 ω, hst ω (b ω), (e2 ω (b ω)).1, ((e2 ω (b ω)).2.2 a).1⟩, h3, ?_⟩
  rw [mul_pow, Real.sq_sqrt (by norm_num)]
  exact h4

end Props
