import Verif.Props.KernCorr
import Mathlib.Analysis.SpecialFunctions.Complex.LogBounds
import Mathlib.Analysis.SpecialFunctions.Log.Deriv

/-! Claim theorems for C110: the rational quadratic kernel and the squared-exponential kernel. -/

open Np Spec GP Filter Topology

noncomputable section

namespace Props

theorem rq_lim0 (s : ℝ) : Tendsto (fun α => rqφ α s) atTop (𝓝 (seφ s)) := by
  have h := (Real.tendsto_one_add_div_rpow_exp s).inv₀ (Real.exp_pos s).ne'
  rw [← Real.exp_neg] at h
  refine h.congr' ?_
  filter_upwards [eventually_gt_atTop (max 0 (-s))] with α hα
  have h1 : 0 < α := (le_max_left _ _).trans_lt hα
  have h2 : -s < α := (le_max_right _ _).trans_lt hα
  have : 0 < 1 + s / α := by
    have : -1 < s / α := by rw [lt_div_iff₀ h1]; linarith
    linarith
  unfold rqφ
  rw [Real.rpow_neg this.le]

theorem rq_base (s : ℝ) : Tendsto (fun α : ℝ => 1 + s / α) atTop (𝓝 1) := by
  have : Tendsto (fun α : ℝ => s / α) atTop (𝓝 0) := tendsto_const_nhds.div_atTop tendsto_id
  simpa using this.const_add 1

theorem rq_pow {s : ℝ} (hs : 0 ≤ s) (k : ℕ) :
    Tendsto (fun α : ℝ => (1 + s / α) ^ (-α - (k : ℝ))) atTop (𝓝 (Real.exp (-s))) := by
  have h := (rq_lim0 s).mul (((rq_base s).pow k).inv₀ (by simp))
  have e : seφ s * (1 ^ k)⁻¹ = Real.exp (-s) := by simp [seφ]
  rw [e] at h
  refine h.congr' ?_
  filter_upwards [eventually_gt_atTop 0] with α hα
  have hb : 0 < 1 + s / α := rq_base_pos hα hs
  unfold rqφ
  rw [Real.rpow_sub hb, Real.rpow_natCast]; exact (div_eq_mul_inv _ _).symm

theorem rq_lim1 {s : ℝ} (hs : 0 ≤ s) : Tendsto (fun α => rqφ1 α s) atTop (𝓝 (seφ1 s)) := by
  have := (rq_pow hs 1).neg
  simpa [rqφ1, seφ1] using this

theorem rq_lim2 {s : ℝ} (hs : 0 ≤ s) : Tendsto (fun α => rqφ2 α s) atTop (𝓝 (seφ2 s)) := by
  have h2 := rq_pow hs 2
  have := ((rq_base 1).mul h2)
  simpa [rqφ2, seφ2] using this

theorem radKG_tendsto {dim : ℕ} {θ r : ℕ → ℝ} (hθ : ∀ d < dim, 0 ≤ θ d) (ox oy : Option ℕ) :
    Tendsto (fun α => radKG (rqφ α) (rqφ1 α) (rqφ2 α) dim θ r ox oy) atTop (𝓝 (radKG seφ seφ1 seφ2 dim θ r ox oy)) := by
  have hs := ssq_nonneg hθ r
  match ox, oy with
  | none, none => exact rq_lim0 _
  | some i, none => exact (rq_lim1 hs).const_mul _
  | none, some j => exact ((rq_lim1 hs).const_mul _).neg
  | some i, some j => exact ((rq_lim1 hs).const_mul _).neg.sub ((rq_lim2 hs).const_mul _)

/-- **C110.** As the shape parameter grows, every entry of the rational quadratic kernel matrix of values and gradients tends to that of
the squared-exponential kernel matrix for the same points and length scales. -/
theorem C110_limit (X Y : Arr2) (hc : X.c = Y.c) (theta : Arr1) (hn : theta.n = X.c) (hθ : ∀ d < X.c, 0 ≤ theta.get d)
    (hp : Option ℝ) :
    ∃ (R : Arr3) (A : ℝ → Arr2) (B : Arr2), calcRtensor X Y = .ok R ∧
      (∀ α, 0 < α → calcKernGrad .ratQuad R theta (some α) none none = .ok (A α)) ∧
      calcKernGrad .sqExp R theta hp none none = .ok B ∧
      B.r = X.r + X.r * X.c ∧ B.c = Y.r + Y.r * X.c ∧
      (∀ α, 0 < α → (A α).r = B.r ∧ (A α).c = B.c) ∧
      ∀ p < B.r, ∀ q < B.c, Tendsto (fun α => (A α).get p q) atTop (𝓝 (B.get p q)) := by
  obtain ⟨R, B, hR, hB, hr, hcc, k1, k2, k3, k4⟩ := kern_cov .sqExp X Y hc theta hn hθ one_pos
  have hA : ∀ α : ℝ, ∃ A, 0 < α → calcKernGrad .ratQuad R theta (some α) none none = .ok A := by
    intro α
    by_cases h : 0 < α
    · obtain ⟨R', A, hR', hA, -⟩ := kern_cov .ratQuad X Y hc theta hn hθ h
      obtain rfl : R = R' := by rw [hR] at hR'; exact Except.ok.inj hR'
      exact ⟨A, fun _ => hA⟩
    · exact ⟨B, fun h' => absurd h' h⟩
  choose A hA using hA
  have hK : ∀ α, 0 < α → ∃ A', A α = A' ∧ A'.r = X.r + X.r * X.c ∧ A'.c = Y.r + Y.r * X.c ∧ _ := fun α h => by
    obtain ⟨R', A', hR', hA', rest⟩ := kern_cov .ratQuad X Y hc theta hn hθ h
    obtain rfl : R = R' := by rw [hR] at hR'; exact Except.ok.inj hR'
    have e := hA α h
    rw [hA'] at e
    exact ⟨A', (Except.ok.inj e).symm, rest⟩
  refine ⟨R, A, B, hR, fun α h => hA α h, hB, hr, hcc, fun α h => ?_, fun p hp' q hq => ?_⟩
  · obtain ⟨A', rfl, h1, h2, -⟩ := hK α h
    exact ⟨h1.trans hr.symm, h2.trans hcc.symm⟩
  · rw [hr] at hp'
    rw [hcc] at hq
    rcases Np.row_cases hp' with h | ⟨i, a, hi, ha, rfl⟩ <;> rcases Np.row_cases hq with h' | ⟨j, b, hj, hb, rfl⟩
    · rw [k1 p h q h']
      refine (radKG_tendsto hθ none none).congr' ?_
      filter_upwards [eventually_gt_atTop 0] with α hα
      obtain ⟨A', rfl, -, -, e, -⟩ := hK α hα
      exact (e p h q h').symm
    · rw [k3 p h b hb j hj]
      refine (radKG_tendsto hθ none (some j)).congr' ?_
      filter_upwards [eventually_gt_atTop 0] with α hα
      obtain ⟨A', rfl, -, -, -, -, e, -⟩ := hK α hα
      exact (e p h b hb j hj).symm
    · rw [k2 a ha i hi q h']
      refine (radKG_tendsto hθ (some i) none).congr' ?_
      filter_upwards [eventually_gt_atTop 0] with α hα
      obtain ⟨A', rfl, -, -, -, e, -⟩ := hK α hα
      exact (e a ha i hi q h').symm
    · rw [k4 a ha i hi b hb j hj]
      refine (radKG_tendsto hθ (some i) (some j)).congr' ?_
      filter_upwards [eventually_gt_atTop 0] with α hα
      obtain ⟨A', rfl, -, -, -, -, -, e⟩ := hK α hα
      exact (e a ha i hi b hb j hj).symm

theorem rq_ge {α s : ℝ} (hα : 0 < α) (hs : 0 ≤ s) : seφ s ≤ rqφ α s := by
  have hb := rq_base_pos hα hs
  unfold seφ rqφ
  rw [Real.rpow_def_of_pos hb]
  apply Real.exp_le_exp.mpr
  have : Real.log (1 + s / α) ≤ s / α := by
    have := Real.log_le_sub_one_of_pos hb; linarith
  have h2 : Real.log (1 + s / α) * α ≤ s := by
    calc _ ≤ s / α * α := mul_le_mul_of_nonneg_right this hα.le
      _ = s := by field_simp
  linarith

theorem rq_anti {α β s : ℝ} (hα : 0 < α) (hαβ : α ≤ β) (hs : 0 ≤ s) : rqφ β s ≤ rqφ α s := by
  have hβ := hα.trans_le hαβ
  have ha := rq_base_pos hα hs
  have hb := rq_base_pos hβ hs
  unfold rqφ
  -- Bernoulli: (1 + s/β)^(β/α) ≥ 1 + s/α
  have hB : 1 + s / α ≤ (1 + s / β) ^ (β / α) := by
    have := one_add_mul_self_le_rpow_one_add (s := s / β) (p := β / α) (by have : 0 ≤ s / β := by positivity
                                                                           linarith) (by rw [le_div_iff₀ hα]; linarith)
    calc 1 + s / α = 1 + β / α * (s / β) := by field_simp
      _ ≤ _ := this
  rw [Real.rpow_neg hb.le, Real.rpow_neg ha.le]
  apply inv_anti₀ (Real.rpow_pos_of_pos ha _)
  calc (1 + s / α) ^ α ≤ ((1 + s / β) ^ (β / α)) ^ α := Real.rpow_le_rpow ha.le hB hα.le
    _ = (1 + s / β) ^ β := by rw [← Real.rpow_mul hb.le]; congr 1; field_simp

/-- **C110.** The correlation between two values falls as the shape parameter grows and stays above that of the squared-exponential
kernel. -/
theorem C110_order (X Y : Arr2) (hc : X.c = Y.c) (theta : Arr1) (hn : theta.n = X.c) (hθ : ∀ d < X.c, 0 ≤ theta.get d)
    (hp : Option ℝ) {α β : ℝ} (hα : 0 < α) (hαβ : α ≤ β) :
    ∃ R A B C, calcRtensor X Y = .ok R ∧ calcKernBase .ratQuad R theta (some α) = .ok A ∧
      calcKernBase .ratQuad R theta (some β) = .ok B ∧ calcKernBase .sqExp R theta hp = .ok C ∧
      ∀ p < X.r, ∀ q < Y.r, C.get p q ≤ B.get p q ∧ B.get p q ≤ A.get p q := by
  have hβ := hα.trans_le hαβ
  obtain ⟨R, A, hR, hA, -, -, eA⟩ := C05_base_entries .ratQuad X Y hc theta hn (some α) (fun _ => ⟨α, hα, rfl⟩)
  obtain ⟨R1, B, hR1, hB, -, -, eB⟩ := C05_base_entries .ratQuad X Y hc theta hn (some β) (fun _ => ⟨β, hβ, rfl⟩)
  obtain ⟨R2, C, hR2, hC, -, -, eC⟩ := C05_base_entries .sqExp X Y hc theta hn hp (by intro h; cases h)
  obtain rfl : R = R1 := by rw [hR] at hR1; exact Except.ok.inj hR1
  obtain rfl : R = R2 := by rw [hR] at hR2; exact Except.ok.inj hR2
  refine ⟨R, A, B, C, hR, hA, hB, hC, fun p h q h' => ?_⟩
  rw [eA p h q h', eB p h q h', eC p h q h']
  have hs := wdist2_nonneg hθ (X.get p) (Y.get q)
  exact ⟨rq_ge hβ hs, rq_anti hα hαβ hs⟩

example := C110_limit exX exX rfl exTheta rfl exTheta_nonneg none
example := C110_order exX exX rfl exTheta rfl exTheta_nonneg none (α := 2) (β := 3) (by norm_num) (by norm_num)

end Props
