import Verif.Model.Acq
import Mathlib.MeasureTheory.Integral.IntegralEqImproper
import Mathlib.Analysis.SpecialFunctions.Gaussian.GaussianIntegral

/-! C106: the acquisition functions. -/

open GP MeasureTheory ProbabilityTheory Set Filter Topology NNReal

noncomputable section

namespace Props

theorem normPdf_eq (x : ℝ) : gaussianPDFReal 0 1 x = normPdf x := by
  simp only [gaussianPDFReal, normPdf, NNReal.coe_one, mul_one, sub_zero]
  exact (div_eq_inv_mul _ _).symm

theorem normPdf_deriv (x : ℝ) : HasDerivAt normPdf (-x * normPdf x) x := by
  have h : HasDerivAt (fun x : ℝ => -x ^ 2 / 2) (-x) x := by
    have := ((hasDerivAt_id x).pow 2).neg.div_const 2
    refine this.congr_deriv ?_
    simp
    ring
  have := h.exp.div_const (Real.sqrt (2 * Real.pi))
  refine this.congr_deriv ?_
  simp only [normPdf]
  ring

theorem normPdf_nonneg (x : ℝ) : 0 ≤ normPdf x := by unfold normPdf; positivity
theorem normPdf_pos (x : ℝ) : 0 < normPdf x := by unfold normPdf; positivity

theorem normPdf_integrable : Integrable normPdf := by
  have := integrable_gaussianPDFReal 0 1
  rwa [show gaussianPDFReal 0 1 = normPdf from funext normPdf_eq] at this

theorem normPdf_mul_integrable : Integrable fun x => -x * normPdf x := by
  have := (integrable_mul_exp_neg_mul_sq (b := 1 / 2) (by norm_num)).const_mul (-(1 / Real.sqrt (2 * Real.pi)))
  refine this.congr (Eventually.of_forall fun x => ?_)
  simp only [normPdf]
  rw [show -(1 / 2 : ℝ) * x ^ 2 = -x ^ 2 / 2 by ring]
  ring

theorem normPdf_tendsto : Tendsto normPdf atBot (𝓝 0) := by
  have h : Tendsto (fun x : ℝ => x ^ 2 / 2) atBot atTop :=
    ((tendsto_pow_atTop two_ne_zero).comp tendsto_neg_atBot_atTop |>.congr fun x => by simp).atTop_div_const (by norm_num)
  have := (Real.tendsto_exp_neg_atTop_nhds_zero.comp h).div_const (Real.sqrt (2 * Real.pi))
  rw [zero_div] at this
  refine this.congr fun x => ?_
  simp only [Function.comp_apply, normPdf]
  rw [neg_div]

theorem normCdf_eq (z : ℝ) : normCdf z = ∫ x in Iic z, normPdf x := by
  rw [normCdf, cdf_eq_real, measureReal_def, gaussianReal_apply_eq_integral 0 one_ne_zero,
    ENNReal.toReal_ofReal (integral_nonneg fun x => gaussianPDFReal_nonneg _ _ _)]
  exact setIntegral_congr_fun measurableSet_Iic fun x _ => normPdf_eq x

/-- The expected improvement for the standard normal distribution. -/
theorem std_improvement (z : ℝ) : ∫ x, max (z - x) 0 ∂(gaussianReal 0 1) = z * normCdf z + normPdf z := by
  rw [integral_gaussianReal_eq_integral_smul one_ne_zero]
  have h1 : (fun x => gaussianPDFReal 0 1 x • max (z - x) 0) =
      (Iic z).indicator fun x => z * normPdf x + -x * normPdf x := by
    funext x
    rw [smul_eq_mul, normPdf_eq]
    by_cases hx : x ≤ z
    · rw [indicator_of_mem (mem_Iic.2 hx), max_eq_left (by linarith)]; ring
    · rw [indicator_of_notMem (by simpa using hx), max_eq_right (by linarith)]; ring
  rw [h1, integral_indicator measurableSet_Iic,
    integral_add (normPdf_integrable.const_mul z).integrableOn normPdf_mul_integrable.integrableOn, integral_const_mul,
    ← normCdf_eq]
  congr 1
  have := integral_Iic_of_hasDerivAt_of_tendsto' (a := z) (fun x _ => normPdf_deriv x) normPdf_mul_integrable.integrableOn
    normPdf_tendsto
  rw [this, sub_zero]

/-- The normal distribution with mean `mu` and standard deviation `sig`. -/
def normalOf (mu sig : ℝ) : Measure ℝ := gaussianReal mu (Real.toNNReal (sig ^ 2))

theorem normalOf_map (mu sig : ℝ) : (gaussianReal 0 1).map (fun x => sig * x + mu) = normalOf mu sig := by
  have h1 := gaussianReal_map_const_mul (μ := 0) (v := 1) sig
  have h2 := gaussianReal_map_add_const (μ := sig * 0) (v := NNReal.mk (sig ^ 2) (sq_nonneg sig) * 1) mu
  rw [← h1, Measure.map_map (by fun_prop) (by fun_prop)] at h2
  unfold normalOf
  rw [show (fun x => sig * x + mu) = ((fun x => x + mu) ∘ fun x => sig * x) from rfl, h2]
  congr 1
  · ring
  · rw [mul_one]
    ext
    simp [Real.toNNReal_of_nonneg, sq_nonneg]

theorem improvement_eq {sig : ℝ} (hs : 0 < sig) (mu best : ℝ) :
    ∫ y, max (best - y) 0 ∂(normalOf mu sig) = (best - mu) * normCdf ((best - mu) / sig) + sig * normPdf ((best - mu) / sig) := by
  rw [← normalOf_map, integral_map (by fun_prop) (by fun_prop)]
  have : (fun x => max (best - (sig * x + mu)) 0) = fun x => sig * max ((best - mu) / sig - x) 0 := by
    funext x
    rw [mul_max_of_nonneg _ _ hs.le, mul_zero, mul_sub, mul_div_cancel₀ _ hs.ne']
    congr 1; ring
  rw [this, integral_const_mul, std_improvement]
  field_simp

/-- C106: the expected improvement. For a predicted mean `mu`, standard deviation `sig ≥ 0` and best value `best` the function returns minus
the expected value of `max(best - Y, 0)` for a normal variable `Y` with that mean and standard deviation; it is NaN exactly if
`sig = 0` and `mu = best`. -/
theorem C106_expected_improvement {sig : ℝ} (hs : 0 ≤ sig) (mu best : ℝ) :
    (acqExpImp mu sig best = none ↔ sig = 0 ∧ best = mu) ∧
    (¬ (sig = 0 ∧ best = mu) → acqExpImp mu sig best = some (-∫ y, max (best - y) 0 ∂(normalOf mu sig))) := by
  rcases hs.eq_or_lt with rfl | hs
  · have hd : normalOf mu 0 = Measure.dirac mu := by
      simp [normalOf, gaussianReal_zero_var]
    rw [hd, integral_dirac]
    unfold acqExpImp
    by_cases h : best = mu
    · simp [h]
    · refine ⟨by simp [h]; split_ifs <;> simp, fun _ => ?_⟩
      rw [if_pos rfl, if_neg h]
      split_ifs with hlt
      · rw [max_eq_left (by linarith)]; simp
      · rw [max_eq_right (by linarith)]; simp
  · rw [improvement_eq hs]
    unfold acqExpImp
    simp [hs.ne']

theorem improvement_map (mu sig best : ℝ) :
    ∫ y, max (best - y) 0 ∂(normalOf mu sig) = ∫ x, max (best - (sig * x + mu)) 0 ∂(gaussianReal 0 1) := by
  rw [← normalOf_map, integral_map (by fun_prop) (by fun_prop)]

theorem improvement_int (a b : ℝ) : Integrable (fun x => max (a - b * x) 0) (gaussianReal 0 1) := by
  have hid : Integrable (fun x : ℝ => x) (gaussianReal 0 1) := (memLp_id_gaussianReal 1).integrable le_rfl
  have := ((integrable_const a).sub (hid.const_mul b)).pos_part
  exact this

/-- C106: the expected improvement is positive where the prediction is uncertain, at least the improvement of the mean, and it grows when the
predicted mean falls or the standard deviation grows; the returned values are its negatives. -/
theorem C106_improvement_order {mu mu' sig sig' : ℝ} (best : ℝ) (hs : 0 ≤ sig) (hs' : sig ≤ sig') (hm : mu' ≤ mu) {e e' : ℝ}
    (he : acqExpImp mu sig best = some e) (he' : acqExpImp mu' sig' best = some e') :
    e' ≤ e ∧ e ≤ 0 ∧ e ≤ -(best - mu) ∧ (0 < sig → e < 0) := by
  have hne : ¬ (sig = 0 ∧ best = mu) := by
    intro h
    rw [(C106_expected_improvement hs mu best).1.2 h] at he
    cases he
  have hne' : ¬ (sig' = 0 ∧ best = mu') := by
    intro h
    rw [(C106_expected_improvement (hs.trans hs') mu' best).1.2 h] at he'
    cases he'
  rw [(C106_expected_improvement hs mu best).2 hne] at he
  rw [(C106_expected_improvement (hs.trans hs') mu' best).2 hne'] at he'
  obtain rfl := Option.some.inj he
  obtain rfl := Option.some.inj he'
  have form : ∀ m s x : ℝ, max (best - (s * x + m)) 0 = max ((best - m) - s * x) 0 := fun m s x => by congr 1; ring
  have hid : Integrable (fun x : ℝ => x) (gaussianReal 0 1) := (memLp_id_gaussianReal 1).integrable le_rfl
  have hflip : ∀ m s : ℝ, ∫ x, max ((best - m) - s * x) 0 ∂(gaussianReal 0 1) =
      ∫ x, max ((best - m) + s * x) 0 ∂(gaussianReal 0 1) := by
    intro m s
    conv_lhs => rw [show gaussianReal 0 1 = (gaussianReal 0 1).map (fun x => -x) by rw [gaussianReal_map_neg, neg_zero]]
    rw [integral_map (by fun_prop) (by fun_prop)]
    congr 1; funext x; congr 1; ring
  refine ⟨?_, ?_, ?_, ?_⟩
  · rw [neg_le_neg_iff, improvement_map, improvement_map]
    simp only [form]
    have i1 := improvement_int (best - mu) sig
    have i2 := improvement_int (best - mu') sig'
    have j1 : Integrable (fun x => max ((best - mu) + sig * x) 0) (gaussianReal 0 1) := by
      simpa using improvement_int (best - mu) (-sig)
    have j2 : Integrable (fun x => max ((best - mu') + sig' * x) 0) (gaussianReal 0 1) := by
      simpa using improvement_int (best - mu') (-sig')
    have key : ∫ x, (max ((best - mu) - sig * x) 0 + max ((best - mu) + sig * x) 0) ∂(gaussianReal 0 1) ≤
        ∫ x, (max ((best - mu') - sig' * x) 0 + max ((best - mu') + sig' * x) 0) ∂(gaussianReal 0 1) := by
      refine integral_mono (i1.add j1) (i2.add j2) fun x => ?_
      dsimp only
      have h1 : sig * |x| ≤ sig' * |x| := mul_le_mul_of_nonneg_right hs' (abs_nonneg x)
      rcases abs_cases x with ⟨hx, -⟩ | ⟨hx, -⟩ <;> rw [hx] at h1
      · have e1 : max ((best - mu) - sig * x) 0 ≤ max ((best - mu') - sig * x) 0 := max_le_max (by linarith) le_rfl
        have e2 : max ((best - mu) + sig * x) 0 ≤ max ((best - mu') + sig * x) 0 := max_le_max (by linarith) le_rfl
        have h2 : 0 ≤ sig * x := by nlinarith [abs_nonneg x]
        rcases max_cases ((best - mu') - sig * x) 0 with ⟨q1, q1'⟩ | ⟨q1, q1'⟩ <;>
        rcases max_cases ((best - mu') + sig * x) 0 with ⟨q2, q2'⟩ | ⟨q2, q2'⟩ <;>
        rcases max_cases ((best - mu') - sig' * x) 0 with ⟨q3, q3'⟩ | ⟨q3, q3'⟩ <;>
        rcases max_cases ((best - mu') + sig' * x) 0 with ⟨q4, q4'⟩ | ⟨q4, q4'⟩ <;> linarith
      · have e1 : max ((best - mu) - sig * x) 0 ≤ max ((best - mu') - sig * x) 0 := max_le_max (by linarith) le_rfl
        have e2 : max ((best - mu) + sig * x) 0 ≤ max ((best - mu') + sig * x) 0 := max_le_max (by linarith) le_rfl
        have h2 : 0 ≤ -(sig * x) := by nlinarith [abs_nonneg x]
        rcases max_cases ((best - mu') - sig * x) 0 with ⟨q1, q1'⟩ | ⟨q1, q1'⟩ <;>
        rcases max_cases ((best - mu') + sig * x) 0 with ⟨q2, q2'⟩ | ⟨q2, q2'⟩ <;>
        rcases max_cases ((best - mu') - sig' * x) 0 with ⟨q3, q3'⟩ | ⟨q3, q3'⟩ <;>
        rcases max_cases ((best - mu') + sig' * x) 0 with ⟨q4, q4'⟩ | ⟨q4, q4'⟩ <;> linarith
    rw [integral_add i1 j1, integral_add i2 j2, ← hflip, ← hflip] at key
    linarith
  · exact neg_nonpos.2 (integral_nonneg fun x => le_max_right _ _)
  · rw [neg_le_neg_iff, improvement_map]
    simp only [form]
    have hmean : ∫ x, ((best - mu) - sig * x) ∂(gaussianReal 0 1) = best - mu := by
      rw [integral_sub (integrable_const _) (hid.const_mul sig), integral_const_mul]
      have : ∫ x : ℝ, x ∂(gaussianReal 0 1) = 0 := integral_id_gaussianReal
      rw [this]
      simp
    calc best - mu = ∫ x, ((best - mu) - sig * x) ∂(gaussianReal 0 1) := hmean.symm
      _ ≤ _ := integral_mono ((integrable_const _).sub (hid.const_mul sig)) (improvement_int (best - mu) sig)
          fun x => le_max_left _ _
  · intro hpos
    rw [neg_lt_zero, improvement_map]
    simp only [form]
    refine (integral_pos_iff_support_of_nonneg (fun x => le_max_right _ _) (improvement_int (best - mu) sig)).2 ?_
    have hsub : Iio ((best - mu) / sig) ⊆ Function.support fun x => max ((best - mu) - sig * x) 0 := by
      intro x hx
      have : x < (best - mu) / sig := hx
      rw [lt_div_iff₀ hpos] at this
      simp only [Function.mem_support]
      rw [max_eq_left (by linarith)]
      exact ne_of_gt (by linarith)
    refine lt_of_lt_of_le ?_ (measure_mono hsub)
    have hopen := isOpen_Iio.measure_pos volume (⟨(best - mu) / sig - 1, by simp⟩ : (Iio ((best - mu) / sig)).Nonempty)
    by_contra hc
    have h0 : gaussianReal 0 1 (Iio ((best - mu) / sig)) = 0 := le_antisymm (not_lt.1 hc) bot_le
    exact hopen.ne' (gaussianReal_absolutelyContinuous' 0 one_ne_zero h0)

/-- C106: the other acquisition function is a lower confidence bound: the probability that the normal variable is at most
`fmu - beta * fsig` depends on `beta` only. -/
theorem C106_confidence_bound {sig : ℝ} (hs : 0 < sig) (mu beta : ℝ) :
    (normalOf mu sig).real (Iic (acqUpperConf mu sig beta)) = (gaussianReal 0 1).real (Iic (-beta)) := by
  rw [← normalOf_map, map_measureReal_apply (by fun_prop) measurableSet_Iic]
  congr 1
  ext x
  simp only [mem_preimage, mem_Iic, acqUpperConf]
  constructor
  · intro h; nlinarith
  · intro h; nlinarith

example : acqExpImp 2 1 3 = some (-∫ y, max (3 - y) 0 ∂(normalOf 2 1)) :=
  (C106_expected_improvement (by norm_num) 2 3).2 (by norm_num)

-- twice the uncertainty and a smaller mean
example : ∃ e e', acqExpImp 2 1 3 = some e ∧ acqExpImp 1 2 3 = some e' ∧ e' ≤ e ∧ e < 0 :=
  ⟨_, _, (C106_expected_improvement (by norm_num) 2 3).2 (by norm_num), (C106_expected_improvement (by norm_num) 1 3).2 (by norm_num),
    (C106_improvement_order (mu := 2) (mu' := 1) (sig := 1) (sig' := 2) 3 (by norm_num) (by norm_num) (by norm_num)
      ((C106_expected_improvement (by norm_num) 2 3).2 (by norm_num))
      ((C106_expected_improvement (by norm_num) 1 3).2 (by norm_num))).1,
    (C106_improvement_order (mu := 2) (mu' := 1) (sig := 1) (sig' := 2) 3 (by norm_num) (by norm_num) (by norm_num)
      ((C106_expected_improvement (by norm_num) 2 3).2 (by norm_num))
      ((C106_expected_improvement (by norm_num) 1 3).2 (by norm_num))).2.2.2 (by norm_num)⟩

end Props
