import Verif.Proofs.PsdVal
import Verif.Spec.Profiles
import Mathlib.Analysis.SpecialFunctions.Gamma.Basic
import Mathlib.Analysis.SpecialFunctions.Gaussian.GaussianIntegral
import Mathlib.MeasureTheory.Integral.IntegralEqImproper

/-! The rational quadratic and Matérn 5/2 profiles are mixtures of squared exponentials. -/

open MeasureTheory Set Filter Topology

noncomputable section

namespace Spec

theorem valPsd_se : ValPsd seφ := by
  have := valPsd_exp (t := 1) zero_le_one
  simp only [one_mul] at this
  exact this

theorem valPsd_rq {α : ℝ} (hα : 0 < α) : ValPsd (rqφ α) := by
  have hΓ := Real.Gamma_pos_of_pos hα
  have hint : ∀ s, 0 ≤ s → ∫ t in Ioi (0 : ℝ), t ^ (α - 1) * Real.exp (-((α + s) * t)) =
      (1 / (α + s)) ^ α * Real.Gamma α := fun s hs =>
    Real.integral_rpow_mul_exp_neg_mul_Ioi hα (by linarith)
  have hi0 : ∀ s, 0 ≤ s → IntegrableOn (fun t : ℝ => t ^ (α - 1) * Real.exp (-((α + s) * t))) (Ioi 0) := by
    intro s hs
    by_contra hni
    have h0 := hint s hs
    rw [integral_undef hni] at h0
    have : 0 < (1 / (α + s)) ^ α * Real.Gamma α := by
      apply mul_pos (Real.rpow_pos_of_pos (by positivity) _) hΓ
    linarith
  have heq : ∀ s t : ℝ, t ^ (α - 1) * Real.exp (-((α + s) * t)) =
      (t ^ (α - 1) * Real.exp (-(α * t))) * Real.exp (-(t * s)) := by
    intro s t
    rw [mul_assoc, ← Real.exp_add]
    congr 2; ring
  refine valPsd_mixture (S := Ioi 0) measurableSet_Ioi (fun t => t)
    (fun t => α ^ α / Real.Gamma α * (t ^ (α - 1) * Real.exp (-(α * t)))) (fun t ht => le_of_lt ht) ?_ ?_ ?_
  · intro t ht
    have : 0 < t := ht
    positivity
  · intro s hs
    have := (hi0 s hs).const_mul (α ^ α / Real.Gamma α)
    refine this.congr (Eventually.of_forall fun t => ?_)
    simp only [heq]; ring
  · intro s hs
    have : (fun t : ℝ => α ^ α / Real.Gamma α * (t ^ (α - 1) * Real.exp (-(α * t))) * Real.exp (-(t * s))) =
        fun t => α ^ α / Real.Gamma α * (t ^ (α - 1) * Real.exp (-((α + s) * t))) := by
      funext t; rw [heq]; ring
    rw [this, integral_const_mul, hint s hs]
    simp only [rqφ]
    have h1 : 1 + s / α = (α + s) / α := by field_simp
    rw [h1, Real.rpow_neg (by positivity), Real.div_rpow (by positivity) hα.le, Real.div_rpow zero_le_one (by positivity),
      Real.one_rpow]
    have := Real.rpow_pos_of_pos (show 0 < α + s by positivity) α
    have := Real.rpow_pos_of_pos hα α
    field_simp

/-! ### Matérn 5/2 -/

section Glasser
variable {a b : ℝ}

/-- `exp(-(a²x² + b²/x²))`. -/
def gE (a b x : ℝ) : ℝ := Real.exp (-(a ^ 2 * x ^ 2 + b ^ 2 / x ^ 2))

theorem gE_pos (a b x : ℝ) : 0 < gE a b x := Real.exp_pos _

theorem gE_le_one (a b x : ℝ) : gE a b x ≤ 1 := by
  unfold gE
  rw [Real.exp_le_one_iff]
  have : 0 ≤ a ^ 2 * x ^ 2 + b ^ 2 / x ^ 2 := by positivity
  linarith

/-- The error function without normalisation. -/
def gΦ (v : ℝ) : ℝ := ∫ t in (0 : ℝ)..v, Real.exp (-(1 : ℝ) * t ^ 2)

theorem gΦ_deriv (v : ℝ) : HasDerivAt gΦ (Real.exp (-(1 : ℝ) * v ^ 2)) v := by
  have hc : Continuous fun t : ℝ => Real.exp (-(1 : ℝ) * t ^ 2) := by fun_prop
  exact intervalIntegral.integral_hasDerivAt_right (hc.intervalIntegrable _ _)
    (hc.stronglyMeasurableAtFilter _ _) hc.continuousAt

/-- The two limits of the error function. -/
def gTop : ℝ := ∫ t in Ioi (0 : ℝ), Real.exp (-(1 : ℝ) * t ^ 2)
def gBot : ℝ := ∫ t in Iic (0 : ℝ), Real.exp (-(1 : ℝ) * t ^ 2)

theorem g_int : Integrable fun t : ℝ => Real.exp (-(1 : ℝ) * t ^ 2) := integrable_exp_neg_mul_sq one_pos

theorem gBot_add_gTop : gBot + gTop = Real.sqrt Real.pi := by
  unfold gBot gTop
  rw [intervalIntegral.integral_Iic_add_Ioi g_int.integrableOn g_int.integrableOn, integral_gaussian]
  simp

theorem gΦ_top : Tendsto gΦ atTop (𝓝 gTop) :=
  intervalIntegral_tendsto_integral_Ioi 0 g_int.integrableOn tendsto_id

theorem gΦ_bot : Tendsto gΦ atBot (𝓝 (-gBot)) := by
  have := (intervalIntegral_tendsto_integral_Iic 0 g_int.integrableOn (tendsto_id (α := ℝ) (x := atBot))).neg
  refine this.congr fun v => ?_
  unfold gΦ
  rw [id, intervalIntegral.integral_symm v 0]

theorem gE_deriv {x : ℝ} (hx : 0 < x) : HasDerivAt (gE a b) (gE a b x * (-(2 * a ^ 2 * x) + 2 * b ^ 2 / x ^ 3)) x := by
  unfold gE
  have h1 : HasDerivAt (fun x : ℝ => b ^ 2 / x ^ 2) (-(2 * b ^ 2 / x ^ 3)) x := by
    have := ((hasDerivAt_id' x).fun_pow 2).fun_inv (by positivity)
    refine ((this.const_mul (b ^ 2)).congr_deriv ?_).congr_of_eventuallyEq ?_
    · field_simp; push_cast; ring
    · exact Eventually.of_forall fun y => by simp only [div_eq_mul_inv]
  have := ((((hasDerivAt_id' x).fun_pow 2).const_mul (a ^ 2)).fun_add h1).fun_neg.exp
  refine this.congr_deriv ?_
  push_cast; ring

/-- An antiderivative of `x⁴ E` on the positive reals. -/
def gW (a b x : ℝ) : ℝ :=
  -(x ^ 3 * gE a b x) / (2 * a ^ 2) - 3 / (2 * a ^ 2) * (x * gE a b x) / (2 * a ^ 2)
  + (3 / (4 * a ^ 4) + b ^ 2 / a ^ 2) *
      ((Real.exp (-(2 * a * b)) * gΦ (a * x - b / x) + Real.exp (2 * a * b) * gΦ (a * x + b / x)) / (2 * a))
  + 3 * b ^ 2 / (2 * a ^ 4) *
      ((Real.exp (-(2 * a * b)) * gΦ (a * x - b / x) - Real.exp (2 * a * b) * gΦ (a * x + b / x)) / (2 * b))

theorem gW_deriv (ha : 0 < a) (hb : 0 < b) {x : ℝ} (hx : 0 < x) : HasDerivAt (gW a b) (x ^ 4 * gE a b x) x := by
  have hE := gE_deriv (a := a) (b := b) hx
  have hi : HasDerivAt (fun x : ℝ => b / x) (-(b / x ^ 2)) x := by
    have := (hasDerivAt_inv hx.ne').const_mul b
    refine (this.congr_deriv ?_).congr_of_eventuallyEq ?_
    · field_simp
    · exact Eventually.of_forall fun y => by simp only [div_eq_mul_inv]
  have hax : HasDerivAt (fun x : ℝ => a * x) a x := by
    simpa using (hasDerivAt_id' x).const_mul a
  have hP : HasDerivAt (fun x => gΦ (a * x - b / x)) (Real.exp (2 * a * b) * gE a b x * (a + b / x ^ 2)) x := by
    have := (gΦ_deriv (a * x - b / x)).comp x (hax.fun_sub hi)
    refine this.congr_deriv ?_
    unfold gE
    rw [← Real.exp_add, sub_neg_eq_add]
    congr 2
    field_simp; ring
  have hM : HasDerivAt (fun x => gΦ (a * x + b / x)) (Real.exp (-(2 * a * b)) * gE a b x * (a - b / x ^ 2)) x := by
    have := (gΦ_deriv (a * x + b / x)).comp x (hax.fun_add hi)
    refine this.congr_deriv ?_
    unfold gE
    rw [← Real.exp_add, ← sub_eq_add_neg]
    congr 2
    field_simp; ring
  have hA := (hP.const_mul (Real.exp (-(2 * a * b)))).fun_add (hM.const_mul (Real.exp (2 * a * b)))
  have hB := (hP.const_mul (Real.exp (-(2 * a * b)))).fun_sub (hM.const_mul (Real.exp (2 * a * b)))
  have hx3 := (((hasDerivAt_id' x).fun_pow 3).fun_mul hE).fun_neg.div_const (2 * a ^ 2)
  have hx1 := ((((hasDerivAt_id' x).fun_mul hE).const_mul (3 / (2 * a ^ 2))).div_const (2 * a ^ 2))
  have := ((hx3.fun_sub hx1).fun_add ((hA.div_const (2 * a)).const_mul (3 / (4 * a ^ 4) + b ^ 2 / a ^ 2))).fun_add
    ((hB.div_const (2 * b)).const_mul (3 * b ^ 2 / (2 * a ^ 4)))
  refine this.congr_deriv ?_
  have he : Real.exp (2 * a * b) ≠ 0 := (Real.exp_pos _).ne'
  rw [Real.exp_neg]
  generalize gE a b x = y at *
  generalize Real.exp (2 * a * b) = z at *
  push_cast
  field_simp
  ring

theorem gE_pow_zero (k : ℕ) : Tendsto (fun x => x ^ (k + 1) * gE a b x) (𝓝[>] 0) (𝓝 0) := by
  have h : Tendsto (fun x : ℝ => x ^ (k + 1)) (𝓝[>] 0) (𝓝 0) := by
    have : Tendsto (fun x : ℝ => x ^ (k + 1)) (𝓝 0) (𝓝 (0 ^ (k + 1))) := (continuous_pow (k + 1)).tendsto 0
    rw [zero_pow (by omega)] at this
    exact this.mono_left nhdsWithin_le_nhds
  refine tendsto_of_tendsto_of_tendsto_of_le_of_le' tendsto_const_nhds h ?_ ?_
  · filter_upwards [self_mem_nhdsWithin] with x hx
    have : 0 < x := hx
    have := gE_pos a b x
    positivity
  · filter_upwards [self_mem_nhdsWithin] with x hx
    have : 0 < x := hx
    exact mul_le_of_le_one_right (by positivity) (gE_le_one a b x)

theorem gE_pow_top (ha : 0 < a) (k : ℕ) : Tendsto (fun x => x ^ k * gE a b x) atTop (𝓝 0) := by
  refine tendsto_of_tendsto_of_tendsto_of_le_of_le' tendsto_const_nhds
    (Real.tendsto_pow_mul_exp_neg_atTop_nhds_zero k) ?_ ?_
  · filter_upwards [eventually_gt_atTop 0] with x hx
    have := gE_pos a b x
    positivity
  · filter_upwards [eventually_gt_atTop 0, eventually_ge_atTop (1 / a ^ 2)] with x hx hx2
    refine mul_le_mul_of_nonneg_left ?_ (by positivity)
    unfold gE
    apply Real.exp_le_exp.mpr
    have h1 : 0 ≤ b ^ 2 / x ^ 2 := by positivity
    have h2 : 1 ≤ a ^ 2 * x := by
      rw [div_le_iff₀ (by positivity)] at hx2; linarith
    nlinarith

theorem gM_zero (ha : 0 < a) (hb : 0 < b) : Tendsto (fun x => gΦ (a * x - b / x)) (𝓝[>] 0) (𝓝 (-gBot)) := by
  refine gΦ_bot.comp ?_
  have h1 : Tendsto (fun x : ℝ => b / x) (𝓝[>] 0) atTop := by
    have := (tendsto_inv_nhdsGT_zero (𝕜 := ℝ)).const_mul_atTop hb
    simpa only [div_eq_mul_inv] using this
  have h2 : Tendsto (fun x : ℝ => a * x) (𝓝[>] 0) (𝓝 0) := by
    have : Tendsto (fun x : ℝ => a * x) (𝓝 0) (𝓝 (a * 0)) := (continuous_const_mul a).tendsto 0
    rw [mul_zero] at this
    exact this.mono_left nhdsWithin_le_nhds
  have := h2.add_atBot (tendsto_neg_atTop_atBot.comp h1)
  simpa [sub_eq_add_neg, Function.comp_def] using this

theorem gP_zero (ha : 0 < a) (hb : 0 < b) : Tendsto (fun x => gΦ (a * x + b / x)) (𝓝[>] 0) (𝓝 gTop) := by
  refine gΦ_top.comp ?_
  have h1 : Tendsto (fun x : ℝ => b / x) (𝓝[>] 0) atTop := by
    have := (tendsto_inv_nhdsGT_zero (𝕜 := ℝ)).const_mul_atTop hb
    simpa only [div_eq_mul_inv] using this
  have h2 : Tendsto (fun x : ℝ => a * x) (𝓝[>] 0) (𝓝 0) := by
    have : Tendsto (fun x : ℝ => a * x) (𝓝 0) (𝓝 (a * 0)) := (continuous_const_mul a).tendsto 0
    rw [mul_zero] at this
    exact this.mono_left nhdsWithin_le_nhds
  exact h2.add_atTop h1

theorem g_top (ha : 0 < a) (b : ℝ) : Tendsto (fun x => gΦ (a * x + b / x)) atTop (𝓝 gTop) := by
  refine gΦ_top.comp ?_
  have h1 : Tendsto (fun x : ℝ => b / x) atTop (𝓝 0) := tendsto_const_nhds.div_atTop tendsto_id
  have h2 : Tendsto (fun x : ℝ => a * x) atTop atTop := tendsto_id.const_mul_atTop ha
  exact h2.atTop_add h1

/-- The two limits of the antiderivative. -/
def gLim (a b u v : ℝ) : ℝ :=
  (3 / (4 * a ^ 4) + b ^ 2 / a ^ 2) * ((Real.exp (-(2 * a * b)) * u + Real.exp (2 * a * b) * v) / (2 * a))
  + 3 * b ^ 2 / (2 * a ^ 4) * ((Real.exp (-(2 * a * b)) * u - Real.exp (2 * a * b) * v) / (2 * b))

theorem gW_lim {l : Filter ℝ} {u v : ℝ} (h3 : Tendsto (fun x => x ^ 3 * gE a b x) l (𝓝 0))
    (h1 : Tendsto (fun x => x ^ 1 * gE a b x) l (𝓝 0)) (hu : Tendsto (fun x => gΦ (a * x - b / x)) l (𝓝 u))
    (hv : Tendsto (fun x => gΦ (a * x + b / x)) l (𝓝 v)) : Tendsto (gW a b) l (𝓝 (gLim a b u v)) := by
  have hA := (hu.const_mul (Real.exp (-(2 * a * b)))).add (hv.const_mul (Real.exp (2 * a * b)))
  have hB := (hu.const_mul (Real.exp (-(2 * a * b)))).sub (hv.const_mul (Real.exp (2 * a * b)))
  simp only [pow_one] at h1
  have := (((h3.neg.div_const (2 * a ^ 2)).sub ((h1.const_mul (3 / (2 * a ^ 2))).div_const (2 * a ^ 2))).add
    ((hA.div_const (2 * a)).const_mul (3 / (4 * a ^ 4) + b ^ 2 / a ^ 2))).add
    ((hB.div_const (2 * b)).const_mul (3 * b ^ 2 / (2 * a ^ 4)))
  have e : gLim a b u v = -0 / (2 * a ^ 2) - 3 / (2 * a ^ 2) * 0 / (2 * a ^ 2) +
      (3 / (4 * a ^ 4) + b ^ 2 / a ^ 2) * ((Real.exp (-(2 * a * b)) * u + Real.exp (2 * a * b) * v) / (2 * a)) +
      3 * b ^ 2 / (2 * a ^ 4) * ((Real.exp (-(2 * a * b)) * u - Real.exp (2 * a * b) * v) / (2 * b)) := by
    unfold gLim; ring
  rw [e]
  exact this

/-- `∫ x⁴ exp(-(a²x²+b²/x²)) dx`. -/
theorem gE_integral (ha : 0 < a) (hb : 0 < b) :
    IntegrableOn (fun x => x ^ 4 * gE a b x) (Ioi 0) ∧
    ∫ x in Ioi (0 : ℝ), x ^ 4 * gE a b x = 3 * Real.sqrt Real.pi / (8 * a ^ 5) *
      ((1 + 2 * a * b + (2 * a * b) ^ 2 / 3) * Real.exp (-(2 * a * b))) := by
  have hz : Tendsto (gW a b) (𝓝[>] 0) (𝓝 (gLim a b (-gBot) gTop)) :=
    gW_lim (gE_pow_zero 2) (gE_pow_zero 0) (gM_zero ha hb) (gP_zero ha hb)
  have ht : Tendsto (gW a b) atTop (𝓝 (gLim a b gTop gTop)) := by
    refine gW_lim (gE_pow_top ha 3) (gE_pow_top ha 1) ?_ (g_top ha b)
    have := g_top ha (-b)
    refine this.congr fun x => ?_
    congr 1; ring
  set W := Function.update (gW a b) 0 (gLim a b (-gBot) gTop) with hW
  have hcont : ContinuousWithinAt W (Ici 0) 0 := by
    rw [hW, continuousWithinAt_update_same]
    have : Ici (0 : ℝ) \ {0} = Ioi 0 := Ici_sdiff_left
    rw [this]; exact hz
  have hder : ∀ x ∈ Ioi (0 : ℝ), HasDerivAt W (x ^ 4 * gE a b x) x := by
    intro x hx
    refine (gW_deriv ha hb hx).congr_of_eventuallyEq ?_
    filter_upwards [isOpen_ne.mem_nhds (ne_of_gt hx)] with y hy
    rw [hW, Function.update_of_ne hy]
  have hpos : ∀ x ∈ Ioi (0 : ℝ), 0 ≤ x ^ 4 * gE a b x := fun x _ =>
    mul_nonneg (by positivity) (gE_pos a b x).le
  have hlim : Tendsto W atTop (𝓝 (gLim a b gTop gTop)) := by
    refine ht.congr' ?_
    filter_upwards [eventually_gt_atTop 0] with y hy
    rw [hW, Function.update_of_ne (ne_of_gt hy)]
  refine ⟨integrableOn_Ioi_deriv_of_nonneg hcont hder hpos hlim, ?_⟩
  rw [integral_Ioi_of_hasDerivAt_of_nonneg hcont hder hpos hlim, hW, Function.update_self]
  rw [← gBot_add_gTop]
  unfold gLim
  generalize Real.exp (-(2 * a * b)) = y
  generalize Real.exp (2 * a * b) = z
  field_simp
  ring

end Glasser

theorem valPsd_ma : ValPsd maφ := by
  refine valPsd_of_shift maφ_cont.continuousOn fun ε hε => ?_
  set a : ℝ := Real.sqrt 5 / 2 with hadef
  have ha : 0 < a := by positivity
  set C := 3 * Real.sqrt Real.pi / (8 * a ^ 5) with hC
  have hCp : 0 < C := by
    have := Real.sqrt_pos.mpr Real.pi_pos
    positivity
  have heq : ∀ s, 0 ≤ s → ∀ x, 1 / C * (x ^ 4 * Real.exp (-(a ^ 2 * x ^ 2 + ε / x ^ 2))) * Real.exp (-(1 / x ^ 2 * s)) =
      1 / C * (x ^ 4 * gE a (Real.sqrt (s + ε)) x) := by
    intro s hs x
    unfold gE
    rw [Real.sq_sqrt (by linarith), mul_assoc, mul_assoc (x ^ 4), ← Real.exp_add]
    congr 3
    ring
  refine valPsd_mixture (S := Ioi 0) measurableSet_Ioi (fun x => 1 / x ^ 2)
    (fun x => 1 / C * (x ^ 4 * Real.exp (-(a ^ 2 * x ^ 2 + ε / x ^ 2)))) (fun t _ => by positivity)
    (fun t _ => by positivity) ?_ ?_
  · intro s hs
    simp only [heq s hs]
    exact ((gE_integral ha (Real.sqrt_pos.mpr (by linarith))).1).const_mul _
  · intro s hs
    simp only [heq s hs]
    rw [integral_const_mul, (gE_integral ha (Real.sqrt_pos.mpr (by linarith))).2, ← hC]
    unfold maφ
    have h5 : Real.sqrt 5 * Real.sqrt (s + ε) = 2 * a * Real.sqrt (s + ε) := by rw [hadef]; ring
    have h6 : (5 : ℝ) / 3 * Real.sqrt (s + ε) ^ 2 = (2 * a * Real.sqrt (s + ε)) ^ 2 / 3 := by
      rw [← h5, mul_pow, five_sq]; ring
    rw [neg_mul, h6, h5, ← mul_assoc, one_div, inv_mul_cancel₀ hCp.ne', one_mul]

end Spec
