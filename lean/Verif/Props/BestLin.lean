import Verif.Spec.BestLinSpec
import Verif.Proofs.MoreData
import Verif.Proofs.CondGauss
import Verif.Props.Values
import Mathlib.MeasureTheory.Function.L2Space
import Mathlib.Probability.ProbabilityMassFunction.Integrals
import Mathlib.Probability.Distributions.Uniform

/-! Claim theorems for C117: the prediction is the best linear prediction. -/

open Np GP Spec Matrix MeasureTheory

noncomputable section

namespace Props

theorem int_sq_sum {Ω : Type*} [MeasurableSpace Ω] {P : Measure Ω} {κ : Type*} [Fintype κ] {U : κ → Ω → ℝ} (hU : ∀ i, MemLp (U i) 2 P) (c : κ → ℝ) :
    ∫ ω, (∑ i, c i * U i ω) ^ 2 ∂P = ∑ i, ∑ j, c i * c j * ∫ ω, U i ω * U j ω ∂P := by
  have h : ∀ i j, Integrable (fun ω => U i ω * U j ω) P := fun i j => (hU i).integrable_mul (hU j)
  have e : ∀ ω, (∑ i, c i * U i ω) ^ 2 = ∑ i, ∑ j, c i * c j * (U i ω * U j ω) := by
    intro ω
    rw [sq, Finset.sum_mul_sum]
    exact Finset.sum_congr rfl fun i _ => Finset.sum_congr rfl fun j _ => by ring
  simp only [e]
  rw [integral_finset_sum _ fun i _ => integrable_finset_sum _ fun j _ => (h i j).const_mul _]
  refine Finset.sum_congr rfl fun i _ => ?_
  rw [integral_finset_sum _ fun j _ => (h i j).const_mul _]
  exact Finset.sum_congr rfl fun j _ => integral_const_mul _ _

/-- The mean squared error of a linear prediction. -/
theorem mse_linear {Ω : Type*} [MeasurableSpace Ω] {P : Measure Ω} [IsProbabilityMeasure P] {n : ℕ} {m : Vec n} {m0 : ℝ} {C : Mat n n} {k : Vec n}
    {v : ℝ} {Y : Ω → Vec n} {F : Ω → ℝ} (h : HasMoments P m m0 C k v Y F) (w0 : ℝ) (w : Vec n) :
    ∫ ω, (w0 + w ⬝ᵥ Y ω - F ω) ^ 2 ∂P = (w0 + w ⬝ᵥ m - m0) ^ 2 + (v - (2 * (w ⬝ᵥ k) - w ⬝ᵥ C *ᵥ w)) := by
  set A := w0 + w ⬝ᵥ m - m0 with hA
  set U : Option (Option (Fin n)) → Ω → ℝ := fun o => match o with
    | none => fun _ => 1
    | some none => fun ω => F ω - m0
    | some (some i) => fun ω => Y ω i - m i with hUdef
  set c : Option (Option (Fin n)) → ℝ := fun o => match o with
    | none => A
    | some none => -1
    | some (some i) => w i with hcdef
  have hU : ∀ o, MemLp (U o) 2 P := by
    intro o
    match o with
    | none => exact memLp_const 1
    | some none => exact h.memF.sub (memLp_const m0)
    | some (some i) => exact (h.memY i).sub (memLp_const (m i))
  have e : ∀ ω, w0 + w ⬝ᵥ Y ω - F ω = ∑ o, c o * U o ω := by
    intro ω
    rw [Fintype.sum_option, Fintype.sum_option]
    show w0 + w ⬝ᵥ Y ω - F ω = A * 1 + (-1 * (F ω - m0) + ∑ i, w i * (Y ω i - m i))
    simp only [hA, dotProduct, mul_sub, Finset.sum_sub_distrib]
    ring
  simp only [e]
  rw [int_sq_sum hU]
  have hY1 : ∀ i, ∫ ω, (Y ω i - m i) ∂P = 0 := fun i => by
    rw [integral_sub ((h.memY i).integrable one_le_two) (integrable_const _), h.meanY]
    simp
  have hF1 : ∫ ω, (F ω - m0) ∂P = 0 := by
    rw [integral_sub (h.memF.integrable one_le_two) (integrable_const _), h.meanF]
    simp
  have i1 : ∫ ω, U none ω * U none ω ∂P = 1 := by simp [hUdef]
  have i2 : ∫ ω, U none ω * U (some none) ω ∂P = 0 := by simpa [hUdef] using hF1
  have i2' : ∫ ω, U (some none) ω * U none ω ∂P = 0 := by simpa [hUdef] using hF1
  have i3 : ∀ i, ∫ ω, U none ω * U (some (some i)) ω ∂P = 0 := fun i => by simpa [hUdef] using hY1 i
  have i3' : ∀ i, ∫ ω, U (some (some i)) ω * U none ω ∂P = 0 := fun i => by simpa [hUdef] using hY1 i
  have i4 : ∫ ω, U (some none) ω * U (some none) ω ∂P = v := by
    rw [← h.var]
    exact integral_congr_ae (.of_forall fun ω => (sq _).symm)
  have i5 : ∀ i, ∫ ω, U (some (some i)) ω * U (some none) ω ∂P = k i := fun i => h.cross i
  have i5' : ∀ i, ∫ ω, U (some none) ω * U (some (some i)) ω ∂P = k i := fun i => by
    rw [← h.cross i]
    exact integral_congr_ae (.of_forall fun ω => mul_comm _ _)
  have i6 : ∀ i j, ∫ ω, U (some (some i)) ω * U (some (some j)) ω ∂P = C i j := fun i j => h.cov i j
  simp only [Fintype.sum_option, i1, i2, i2', i3, i3', i4, i5, i5', i6]
  have c1 : c none = A := rfl
  have c2 : c (some none) = -1 := rfl
  have c3 : ∀ i, c (some (some i)) = w i := fun _ => rfl
  simp only [c1, c2, c3, mul_zero, Finset.sum_const_zero, add_zero, zero_add, Finset.sum_add_distrib]
  have hq : w ⬝ᵥ C *ᵥ w = ∑ i, ∑ j, w i * w j * C i j := by
    simp only [dotProduct, mulVec, Finset.mul_sum]
    exact Finset.sum_congr rfl fun i _ => Finset.sum_congr rfl fun j _ => by ring
  have hk : ∀ s : ℝ, s * (w ⬝ᵥ k) = ∑ i, s * w i * k i := fun s => by
    simp only [dotProduct, Finset.mul_sum, mul_assoc]
  rw [hq, ← hk (-1)]
  have hk2 : ∑ i, w i * -1 * k i = -(w ⬝ᵥ k) := by
    simp only [dotProduct, ← Finset.sum_neg_distrib]
    exact Finset.sum_congr rfl fun i _ => by ring
  rw [hk2]
  ring

/-- **C117**, in general. The random data `Y` are observed: their values and gradients are stored in the object. Let the function have the prior mean, variance and correlations of the
model, and the observations, in addition, noise of variance `varK * N` (see `C36_posterior_with_scaled_noise`) and the nugget. Then the predicted
standard deviation does not depend on the observed data, its square is the mean squared error of the predicted value, and no linear
prediction from the data has a smaller mean squared error. No assumption of normality is made. -/
theorem C117_scaled_noise {Ω : Type*} [MeasurableSpace Ω] {P : Measure Ω} [IsProbabilityMeasure P] {g : Gp} {hp : HpVals} {v β₀ : ℝ}
    (hr : Ready g hp v β₀) (β : ℝ) {N : Vec g.nData} (hN : IsNoise g hp N) {K : Mat g.nData g.nData} (hK : IsKern g hp K)
    {f : Ω → Arr1} {G : Ω → Option Arr2} (hf : ∀ ω, ValuesOk g (f ω) (G ω)) {Y : Ω → Vec g.nData}
    (hY : ∀ ω, DataSpec (withValues g (f ω) (G ω)) (Y ω)) {cc : Bool} {st : Ω → EvalState g.nData}
    (hst : ∀ ω, setupEvalModel (withValues g (f ω) (G ω)) (withBeta hp β) cc = .ok (st ω)) (hF : ∀ ω, (st ω).chofac ≠ none)
    {X : Arr2} (hX : X.c = g.dim) (hXr : 0 < X.r) (cg : Bool) :
    ∃ (out : Ω → EvalOut X.r g.dim) (s : Vec X.r) (η : ℝ),
      (∀ ω, evalModel (withValues g (f ω) (G ω)) (st ω) (withBeta hp β) X cg false = .ok (out ω) ∧ (out ω).sig = s ∧ (st ω).etaK = η) ∧
      ∀ a : Fin X.r, ∀ k, IsCross g hp (X.get a) k → ∀ F : Ω → ℝ,
        HasMoments P (priorMean g β) β (noisyCov g.o.precon v K (v • N) η) (v • k) v Y F →
        ∫ ω, ((out ω).mu a - F ω) ^ 2 ∂P = s a ^ 2 ∧ ∀ w0 w, s a ^ 2 ≤ ∫ ω, (w0 + w ⬝ᵥ Y ω - F ω) ^ 2 ∂P := by
  obtain ⟨ω₀⟩ : Nonempty Ω := P.nonempty_of_neZero
  have hrω := fun ω => withValues_ready hr (hf ω) β
  choose N' K' hs hN' using fun ω => ready_setup (hrω ω).toV (hst ω)
  have hK' : ∀ ω, K' ω = K := fun ω => isKern_unique hr.ok hr.adm (show IsKern g hp (K' ω) from (hs ω).isKern) hK
  have hNω : ∀ ω, N' ω = N := fun ω => by
    obtain ⟨B, h2, h3⟩ := hN' ω
    exact isNoise_unique hr.ok (hp := hp) ⟨B, ⟨h2.n, h2.val, h2.grad⟩, h3⟩ hN
  have hη : ∀ ω, (st ω).etaK = (st ω₀).etaK := fun ω => by
    have e : ∀ ω, (st ω).etaK = if g.o.etaConst then g.o.etaK else
      (⨆ i, ∑ j, |(if g.o.precon then corr (kwn 1 (K' ω) (N' ω)) else K' ω) i j|) / (g.o.condMaxTarget - 1) := fun ω => (hs ω).etaEq
    rw [e ω, e ω₀, hK' ω, hK' ω₀, hNω ω, hNω ω₀]
    rfl
  have hM : ∀ ω, (st ω).KernEta = (st ω₀).KernEta := fun ω => by
    have e : ∀ ω, (st ω).KernEta = K' ω + diagonal (fun i => N' ω i + (st ω).etaK * (if g.o.precon then K' ω i i + N' ω i else 1)) :=
      fun ω => (hs ω).cov
    rw [e ω, e ω₀, hη ω, hK' ω, hK' ω₀, hNω ω, hNω ω₀]
    rfl
  set M := (st ω₀).KernEta with hMdef
  have hpd : M.PosDef := ready_pd (g := withValues g (f ω₀) (G ω₀)) (hs ω₀) (hF ω₀)
  have hdat : ∀ ω, (st ω).dataVec = Y ω := fun ω => dataSpec_unique (hrω ω).ok (hs ω).data (hY ω)
  have hout : ∀ ω, ∃ out : EvalOut X.r g.dim, evalModel (withValues g (f ω) (G ω)) (st ω) (withBeta hp β) X cg false = .ok out ∧
      (∀ a, out.mu a = β + kv g hp (X.get a) ⬝ᵥ (M⁻¹ *ᵥ (Y ω - priorMean g β))) ∧ out.sig = fun a : Fin X.r => sgF g hp M v (X.get a) := by
    intro ω
    refine ⟨_, ready_eval (hrω ω) (hs ω) (hF ω) hX hXr cg false noHess, fun a => ?_, ?_⟩
    · show β + kv g hp (X.get a) ⬝ᵥ ((st ω).KernEta⁻¹ *ᵥ ((st ω).dataVec - priorMean g β)) = _
      rw [hM, hdat]
    · funext a
      show sgF g hp (st ω).KernEta v (X.get a) = _
      rw [hM]
  choose out ho hmu0 hsig using hout
  refine ⟨out, fun a => sgF g hp M v (X.get a), (st ω₀).etaK, fun ω => ⟨ho ω, hsig ω, hη ω⟩, ?_⟩
  intro a k hk F hmom
  obtain rfl := isCross_eq hr.ok hr.adm hk
  have hC : noisyCov g.o.precon v K (v • N) (st ω₀).etaK = v • M := by
    have e : M = K + diagonal (fun i => N i + (st ω₀).etaK * (if g.o.precon then K i i + N i else 1)) := by
      rw [← hK' ω₀, ← hNω ω₀]
      exact (hs ω₀).cov
    rw [e]
    ext i j
    simp only [noisyCov, of_apply, Matrix.smul_apply, Matrix.add_apply, diagonal_apply, Pi.smul_apply, smul_eq_mul]
    by_cases hij : i = j
    · simp only [hij, if_true]
      split_ifs <;> ring
    · simp only [hij, if_false]; ring
  rw [hC] at hmom
  have hCpd : (v • M).PosDef := hpd.smul hr.vpos
  have hsq : sgF g hp M v (X.get a) ^ 2 = v - (v • kv g hp (X.get a)) ⬝ᵥ (v • M)⁻¹ *ᵥ (v • kv g hp (X.get a)) := by
    have e : sgF g hp M v (X.get a) ^ 2 = v * s2F g hp M (X.get a) := sgF_sq (hrω ω₀).toV (hs ω₀) (hF ω₀) (X.get a)
    rw [e, smul_inv_mulVec hpd hr.vpos, mulVec_smul, s2F]
    simp only [smul_dotProduct, dotProduct_smul, smul_eq_mul]
    have := hr.vpos.ne'
    field_simp
  set kk' := v • kv g hp (X.get a) with hkk
  set w := (v • M)⁻¹ *ᵥ kk' with hw
  have hmu : ∀ ω, (out ω).mu a = (β - w ⬝ᵥ priorMean g β) + w ⬝ᵥ Y ω := by
    intro ω
    rw [hmu0, hw]
    have hT : ((v • M)⁻¹)ᵀ = (v • M)⁻¹ := by
      rw [transpose_nonsing_inv]
      have := hCpd.isHermitian.eq
      rw [conjTranspose_eq_transpose_of_trivial] at this
      rw [this]
    have hsw : ∀ u : Vec g.nData, ((v • M)⁻¹ *ᵥ kk') ⬝ᵥ u = kk' ⬝ᵥ (v • M)⁻¹ *ᵥ u := fun u => by
      rw [dotProduct_mulVec, ← mulVec_transpose, hT]
    rw [hsw, hsw, smul_inv_mulVec hpd hr.vpos, smul_inv_mulVec hpd hr.vpos, hkk, mulVec_sub, dotProduct_sub]
    simp only [smul_dotProduct, dotProduct_smul, smul_eq_mul]
    have := hr.vpos.ne'
    field_simp
    ring
  refine ⟨?_, fun w0 w' => ?_⟩
  · simp only [hmu]
    rw [mse_linear hmom, hsq, hw, quad_eq hCpd]
    ring
  · show sgF g hp M v (X.get a) ^ 2 ≤ _
    rw [mse_linear hmom, hsq]
    have h1 := quad_ge hCpd kk' w'
    have h2 := sq_nonneg (w0 + w' ⬝ᵥ priorMean g β - β)
    linarith

/-- **C117.** For noise-free data, and for noisy data if the process variance is 1: if the function has the prior mean, variance and correlations of the model, the
square of the predicted standard deviation is the mean squared error of the predicted value, and no linear prediction from the data has a
smaller mean squared error. -/
theorem C117_best_linear {Ω : Type*} [MeasurableSpace Ω] {P : Measure Ω} [IsProbabilityMeasure P] {g : Gp} {hp : HpVals} {v β₀ : ℝ}
    (hr : Ready g hp v β₀) (β : ℝ) {N : Vec g.nData} (hN : IsNoise g hp N) (hv1 : (∀ i, N i = 0) ∨ v = 1) {K : Mat g.nData g.nData} (hK : IsKern g hp K)
    {f : Ω → Arr1} {G : Ω → Option Arr2} (hf : ∀ ω, ValuesOk g (f ω) (G ω)) {Y : Ω → Vec g.nData}
    (hY : ∀ ω, DataSpec (withValues g (f ω) (G ω)) (Y ω)) {cc : Bool} {st : Ω → EvalState g.nData}
    (hst : ∀ ω, setupEvalModel (withValues g (f ω) (G ω)) (withBeta hp β) cc = .ok (st ω)) (hF : ∀ ω, (st ω).chofac ≠ none)
    {X : Arr2} (hX : X.c = g.dim) (hXr : 0 < X.r) (cg : Bool) :
    ∃ (out : Ω → EvalOut X.r g.dim) (s : Vec X.r) (η : ℝ),
      (∀ ω, evalModel (withValues g (f ω) (G ω)) (st ω) (withBeta hp β) X cg false = .ok (out ω) ∧ (out ω).sig = s ∧ (st ω).etaK = η) ∧
      ∀ a : Fin X.r, ∀ k, IsCross g hp (X.get a) k → ∀ F : Ω → ℝ,
        HasMoments P (priorMean g β) β (noisyCov g.o.precon v K N η) (v • k) v Y F →
        ∫ ω, ((out ω).mu a - F ω) ^ 2 ∂P = s a ^ 2 ∧ ∀ w0 w, s a ^ 2 ≤ ∫ ω, (w0 + w ⬝ᵥ Y ω - F ω) ^ 2 ∂P := by
  have : v • N = N := by
    funext i
    rcases hv1 with h | h
    · simp [h i]
    · simp [h]
  have h := C117_scaled_noise (P := P) hr β hN hK hf hY hst hF hX hXr cg
  rwa [this] at h

/-! ### Concrete cases -/

/-- Every symmetric positive definite matrix is the covariance matrix of some random data (with a random number). -/
theorem moments_exist {n : ℕ} (m : Vec n) (m0 : ℝ) {C : Mat n n} {k : Vec n} {v : ℝ} (h : (border C k v).PosDef) :
    ∃ (P : Measure (Fin (n + 1) × Bool)) (Y : Fin (n + 1) × Bool → Vec n) (F : Fin (n + 1) × Bool → ℝ), IsProbabilityMeasure P ∧
      HasMoments P m m0 C k v Y F := by
  obtain ⟨L, hL⟩ := chol_exists h
  set B := Lᵀ with hBdef
  have hB' : ∀ i j, border C k v i j = ∑ l, B l i * B l j := fun i j => by
    rw [← hL.eq, mul_apply]
    rfl
  set P := (PMF.uniformOfFintype (Fin (n + 1) × Bool)).toMeasure with hP
  set σ : Bool → ℝ := fun b => if b then 1 else -1
  set Z : Fin (n + 1) → Fin (n + 1) × Bool → ℝ := fun i ω => Real.sqrt (n + 1) * σ ω.2 * B ω.1 i with hZ
  have hn : (0 : ℝ) < n + 1 := by positivity
  have hint : ∀ f : Fin (n + 1) × Bool → ℝ, ∫ ω, f ω ∂P = (∑ l, (f (l, true) + f (l, false))) / (2 * (n + 1)) := by
    intro f
    rw [hP, PMF.integral_eq_sum]
    simp only [PMF.uniformOfFintype_apply, Fintype.card_prod, Fintype.card_fin, Fintype.card_bool, smul_eq_mul]
    rw [← Finset.mul_sum, Fintype.sum_prod_type]
    simp only [Fintype.sum_bool]
    have : (((n + 1 : ℕ) * 2 : ℕ) : ENNReal)⁻¹.toReal = (2 * ((n : ℝ) + 1))⁻¹ := by
      rw [ENNReal.toReal_inv, ENNReal.toReal_natCast]
      push_cast
      ring
    rw [this]
    field_simp
  have hmem : ∀ f : Fin (n + 1) × Bool → ℝ, MemLp f 2 P := fun f => MemLp.of_discrete
  have hsum : ∀ i, ∫ ω, Z i ω ∂P = 0 := fun i => by
    rw [hint]
    simp [hZ, σ]
  have hcov : ∀ i j, ∫ ω, Z i ω * Z j ω ∂P = border C k v i j := fun i j => by
    rw [hint, hB', div_eq_iff (by positivity), Finset.sum_mul]
    refine Finset.sum_congr rfl fun l _ => ?_
    have h2 := Real.mul_self_sqrt hn.le
    simp only [hZ, σ, if_true, Bool.false_eq_true, if_false]
    linear_combination (2 * B l i * B l j) * h2
  have hconst : ∀ c : ℝ, ∫ _, c ∂P = c := fun c => by simp
  refine ⟨P, fun ω i => m i + Z i.castSucc ω, fun ω => m0 + Z (Fin.last n) ω, inferInstance, ⟨fun i => hmem _, hmem _, fun i => ?_, ?_, fun i j => ?_,
    fun i => ?_, ?_⟩⟩
  · rw [integral_add ((hmem _).integrable one_le_two) ((hmem _).integrable one_le_two), hsum, hconst, add_zero]
  · rw [integral_add ((hmem _).integrable one_le_two) ((hmem _).integrable one_le_two), hsum, hconst, add_zero]
  · simp only [add_sub_cancel_left]
    rw [hcov]
    simp [border]
  · simp only [add_sub_cancel_left]
    rw [hcov]
    simp [border]
  · simp only [add_sub_cancel_left, sq]
    rw [hcov]
    simp [border]

/-- Two noise-free values and any point: there are random data and a random value with these moments, and the prediction is the best. -/
example (X : Arr2) (hX : X.c = 2) (hXr : 0 < X.r) (a : Fin X.r) : ∃ (P : Measure (Fin 3 × Bool)) (Y : Fin 3 × Bool → Vec 2) (F : Fin 3 × Bool → ℝ)
    (st : Fin 3 × Bool → EvalState 2) (out : Fin 3 × Bool → EvalOut X.r 2) (s : ℝ), IsProbabilityMeasure P ∧
    (∀ ω, setupEvalModel (withValues exGpQuiet ⟨2, fun p => if h : p < 2 then Y ω ⟨p, h⟩ else 0⟩ none) (withBeta exHpQuiet 4) false = .ok (st ω) ∧
      evalModel (withValues exGpQuiet ⟨2, fun p => if h : p < 2 then Y ω ⟨p, h⟩ else 0⟩ none) (st ω) (withBeta exHpQuiet 4) X true false = .ok (out ω) ∧
      (out ω).sig a = s) ∧ 0 < s ∧
    ∫ ω, ((out ω).mu a - F ω) ^ 2 ∂P = s ^ 2 ∧ ∀ w0 w, s ^ 2 ≤ ∫ ω, (w0 + w ⬝ᵥ Y ω - F ω) ^ 2 ∂P := by
  have hη : if exGpQuiet.o.etaConst then 0 < exGpQuiet.o.etaK else 1 < exGpQuiet.o.condMaxTarget := by norm_num [exGpQuiet, exGp]
  obtain ⟨st₀, hst₀, hF₀⟩ := ready_total exReadyQuiet.toV hη
  obtain ⟨N, K, hs, hN⟩ := ready_setup exReadyQuiet.toV hst₀
  have hN0 : ∀ i, N i = 0 := by
    obtain ⟨Na, h1, h2⟩ := hN
    intro i
    rw [h2, h1.val i i.2]
    rfl
  obtain ⟨o₁, ho₁, hc⟩ := C36_mean_is_posterior_mean_partial exReadyQuiet.toV hst₀ hF₀ hN (.inl hN0) hX hXr true
  obtain ⟨o₂, ho₂, hpos⟩ := C37_variance_bounds exReadyQuiet.toV hst₀ hF₀ hX hXr true
  rw [ho₁] at ho₂
  cases ho₂
  have hk := kv_isCross exReadyQuiet.adm (X.get a)
  have hb := (hc K hs.isKern st₀.dataVec hs.data a _ hk ((hpos a).2.2 hη)).2.1
  obtain ⟨P, Y, F, hP, hm⟩ := moments_exist (priorMean exGpQuiet 4) 4 hb
  set f : Fin 3 × Bool → Arr1 := fun ω => ⟨2, fun p => if h : p < 2 then Y ω ⟨p, h⟩ else 0⟩ with hf
  have hv : ∀ ω, ValuesOk exGpQuiet (f ω) none := fun ω => ⟨rfl, rfl⟩
  choose st hst hF using fun ω => ready_total (withValues_ready exReadyQuiet (hv ω) 4).toV hη
  obtain ⟨out, s, η, h1, h2⟩ := C117_best_linear (P := P) exReadyQuiet 4 hN (.inl hN0) hs.isKern hv (Y := Y)
    (fun ω => ⟨fun q hq => by
      have hq2 : (q : ℕ) < 2 := q.2
      show Y ω q = if h : (q : ℕ) < 2 then Y ω ⟨q, h⟩ else 0
      rw [dif_pos hq2]
      rfl, fun G hG => (nomatch hG)⟩) hst hF hX hXr true
  obtain ⟨e1, o, o', g1, g2, g3, -⟩ := C82_sigma exReadyQuiet (hv (0, true)) 4 hst₀ (hst (0, true)) hF₀ (hF (0, true)) hX hXr true
  have e1 : η = st₀.etaK := (h1 (0, true)).2.2.symm.trans e1
  rw [ho₁] at g1
  cases g1
  have e2 := (h1 (0, true)).1
  have e3 : o' = out (0, true) := Except.ok.inj (g2.symm.trans e2)
  have g3 : s = o₁.sig := by rw [← (h1 (0, true)).2.1, ← e3, g3]
  subst e1
  obtain ⟨h3, h4⟩ := h2 a _ hk F hm
  exact ⟨P, Y, F, st, out, s a, hP, fun ω => ⟨hst ω, (h1 ω).1, congrFun (h1 ω).2.1 a⟩, by rw [g3]; exact (hpos a).2.2 hη, h3, h4⟩

end Props
