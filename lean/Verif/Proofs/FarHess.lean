import Verif.Proofs.FarAway
import Verif.Proofs.EvalCore3

/-! The covariances with second derivatives vanish far away from the data. -/

open Np Spec Matrix Filter Topology

noncomputable section

namespace GP

theorem prφ3_lim (k : KType) {α : ℝ} (hα : 0 < α) : Tendsto (fun s => Real.sqrt s ^ 3 * prφ3 k α s) atTop (𝓝 0) := by
  have h3 : ∀ s : ℝ, 1 ≤ s → Real.sqrt s ^ 3 = s * Real.sqrt s := fun s hs => by
    rw [pow_succ, Real.sq_sqrt (by linarith)]
  cases k with
  | sqExp =>
    refine squeeze_zero_norm' ?_ (Real.tendsto_pow_mul_exp_neg_atTop_nhds_zero 2)
    filter_upwards [eventually_ge_atTop 1] with s hs
    have h1 : Real.sqrt s ≤ s := by
      rw [Real.sqrt_le_left (by linarith)]; nlinarith
    show ‖Real.sqrt s ^ 3 * -Real.exp (-s)‖ ≤ _
    rw [norm_mul, norm_neg, Real.norm_of_nonneg (by positivity), Real.norm_of_nonneg (Real.exp_pos _).le, h3 s hs, pow_two]
    exact mul_le_mul_of_nonneg_right (mul_le_mul_of_nonneg_left h1 (by linarith)) (Real.exp_pos _).le
  | matern =>
    have h := (pow_exp_lim 2).const_mul (-(5 * Real.sqrt 5 / 24))
    simp only [mul_zero] at h
    refine h.congr' ?_
    filter_upwards [eventually_ge_atTop 1] with s hs
    have h0 : Real.sqrt s ≠ 0 := (Real.sqrt_pos.mpr (by linarith)).ne'
    show _ = Real.sqrt s ^ 3 * maφ3 s
    unfold maφ3
    rw [mul_pow, Real.sq_sqrt (by norm_num : (0 : ℝ) ≤ 5)]
    field_simp
    ring
  | ratQuad =>
    have h : Tendsto (fun s : ℝ => (1 + 1 / α) * (1 + 2 / α) * (α ^ 3 / Real.sqrt s)) atTop (𝓝 0) := by
      have := (Real.tendsto_sqrt_atTop.const_div_atTop (α ^ 3)).const_mul ((1 + 1 / α) * (1 + 2 / α))
      simpa using this
    refine squeeze_zero_norm' ?_ h
    filter_upwards [eventually_ge_atTop 1] with s hs
    show ‖Real.sqrt s ^ 3 * -((1 + 1 / α) * (1 + 2 / α) * (1 + s / α) ^ (-α - 3))‖ ≤ _
    have hs0 : 0 < s := by linarith
    have hsa := div_pos hs0 hα
    have hpow : (1 + s / α) ^ (-α - 3) ≤ (α / s) ^ 3 := by
      calc (1 + s / α) ^ (-α - 3) ≤ (1 + s / α) ^ (-3 : ℝ) := Real.rpow_le_rpow_of_exponent_le (by linarith) (by linarith)
        _ = ((1 + s / α) ^ 3)⁻¹ := by rw [Real.rpow_neg (by linarith)]; norm_cast
        _ ≤ ((s / α) ^ 3)⁻¹ := by gcongr; linarith
        _ = (α / s) ^ 3 := by rw [← inv_pow, inv_div]
    have h1 : 0 ≤ (1 + s / α) ^ (-α - 3) := Real.rpow_nonneg (by linarith) _
    have hr := Real.sqrt_pos.mpr hs0
    have hr1 := Real.one_le_sqrt.mpr hs
    have hq : Real.sqrt s ^ 3 * (α / s) ^ 3 ≤ α ^ 3 / Real.sqrt s := by
      have e : Real.sqrt s ^ 3 * (α / s) ^ 3 = α ^ 3 / Real.sqrt s ^ 3 := by
        have := Real.sq_sqrt hs0.le
        rw [div_pow]
        nth_rewrite 2 [← this]
        field_simp
      rw [e]
      refine div_le_div_of_nonneg_left (by positivity) hr ?_
      exact le_self_pow₀ hr1 (by norm_num)
    rw [mul_neg, norm_neg, Real.norm_of_nonneg (by positivity)]
    calc Real.sqrt s ^ 3 * ((1 + 1 / α) * (1 + 2 / α) * (1 + s / α) ^ (-α - 3))
        ≤ Real.sqrt s ^ 3 * ((1 + 1 / α) * (1 + 2 / α) * (α / s) ^ 3) := by gcongr
      _ = (1 + 1 / α) * (1 + 2 / α) * (Real.sqrt s ^ 3 * (α / s) ^ 3) := by ring
      _ ≤ _ := by gcongr

/-- Covariances of one datum with a second derivative far away. -/
theorem radKGx_far (k : KType) {α : ℝ} (hα : 0 < α) {dim : ℕ} {θ : ℕ → ℝ} (hθ : ∀ d < dim, 0 < θ d) (c : Option ℕ) (hc : ∀ i ∈ c, i < dim)
    {e i : ℕ} (he : e < dim) (hi : i < dim) {δ : ℝ} (hδ : 0 < δ) :
    ∃ S, ∀ r : ℕ → ℝ, S ≤ ssq dim θ r → |radKGx (prφ1 k α) (prφ2 k α) (prφ3 k α) dim θ r e i c| < δ := by
  have hθa : ∀ d < dim, |θ d| = θ d := fun d hd => abs_of_pos (hθ d hd)
  -- all the decaying factors together
  have hL1 : Tendsto (fun s => |prφ1 k α s|) atTop (𝓝 0) := by simpa only [abs_zero] using (prφ11_lim k hα).abs
  have hL2 : Tendsto (fun s => |s * prφ2 k α s|) atTop (𝓝 0) := by simpa only [abs_zero] using (prφ2_lim k hα).abs
  have hL3 : Tendsto (fun s => |Real.sqrt s ^ 3 * prφ3 k α s|) atTop (𝓝 0) := by simpa only [abs_zero] using (prφ3_lim k hα).abs
  have key : ∀ a b d : ℝ, ∃ S ≥ (1 : ℝ), ∀ s, S ≤ s → a * |prφ1 k α s| + b * |s * prφ2 k α s| + d * |Real.sqrt s ^ 3 * prφ3 k α s| < δ := by
    intro a b d
    have h := ((hL1.const_mul a).add (hL2.const_mul b)).add (hL3.const_mul d)
    simp only [mul_zero, add_zero] at h
    obtain ⟨S, hS⟩ := eventually_atTop.mp ((h.eventually_lt_const hδ).and (eventually_ge_atTop 1))
    exact ⟨max S 1, le_max_right _ _, fun s hs => (hS s ((le_max_left _ _).trans hs)).1⟩
  have hr : ∀ r : ℕ → ℝ, ∀ d < dim, |r d| ≤ (Real.sqrt (θ d))⁻¹ * Real.sqrt (ssq dim θ r) := by
    intro r d hd
    rw [inv_mul_eq_div, le_div_iff₀ (Real.sqrt_pos.mpr (hθ d hd)), mul_comm, ← Real.sqrt_sq_eq_abs, ← Real.sqrt_mul (hθ d hd).le]
    exact Real.sqrt_le_sqrt (sq_le_ssq hθ hd)
  have hkr : ∀ a b : ℕ, |(kron a b : ℝ)| ≤ 1 := fun a b => by unfold kron; split_ifs <;> norm_num
  have hC : ∀ d, 0 ≤ (Real.sqrt (θ d))⁻¹ := fun d => inv_nonneg.mpr (Real.sqrt_nonneg _)
  cases c with
  | none =>
    obtain ⟨S, hS1, hS⟩ := key (2 * θ i) (4 * θ i * θ e * ((Real.sqrt (θ i))⁻¹ * (Real.sqrt (θ e))⁻¹)) 0
    refine ⟨S, fun r hrS => lt_of_le_of_lt ?_ (hS _ hrS)⟩
    set s := ssq dim θ r with hs
    have hs0 : 0 ≤ s := by linarith
    have ri := hr r i hi
    have re := hr r e he
    rw [← hs] at ri re
    have p := mul_le_mul ri re (abs_nonneg _) (mul_nonneg (hC i) (Real.sqrt_nonneg _))
    have hss := Real.mul_self_sqrt hs0
    show |2 * θ i * kron i e * prφ1 k α s + 4 * θ i * θ e * r i * r e * prφ2 k α s| ≤ _
    refine (abs_add_le _ _).trans ?_
    have hi0 := hθ i hi
    have he0 := hθ e he
    have t1 : |2 * θ i * kron i e * prφ1 k α s| ≤ 2 * θ i * |prφ1 k α s| := by
      rw [abs_mul, abs_mul, abs_mul, abs_two, hθa i hi]
      exact mul_le_mul_of_nonneg_right (mul_le_of_le_one_right (by positivity) (hkr _ _)) (abs_nonneg _)
    have t2 : |4 * θ i * θ e * r i * r e * prφ2 k α s| ≤ 4 * θ i * θ e * ((Real.sqrt (θ i))⁻¹ * (Real.sqrt (θ e))⁻¹) * |s * prφ2 k α s| := by
      have e1 : |4 * θ i * θ e * r i * r e * prφ2 k α s| = 4 * θ i * θ e * (|r i| * |r e|) * |prφ2 k α s| := by
        simp only [abs_mul]
        rw [hθa i hi, hθa e he, abs_of_pos (by norm_num : (0 : ℝ) < 4)]; ring
      rw [e1, abs_mul, abs_of_nonneg hs0]
      calc _ ≤ 4 * θ i * θ e * ((Real.sqrt (θ i))⁻¹ * Real.sqrt s * ((Real.sqrt (θ e))⁻¹ * Real.sqrt s)) * |prφ2 k α s| := by gcongr
        _ = 4 * θ i * θ e * ((Real.sqrt (θ i))⁻¹ * (Real.sqrt (θ e))⁻¹) * ((Real.sqrt s * Real.sqrt s) * |prφ2 k α s|) := by ring
        _ = _ := by rw [hss]
    linarith
  | some j =>
    have hj := hc j rfl
    have hi0 := hθ i hi
    have he0 := hθ e he
    have hj0 := hθ j hj
    obtain ⟨S, hS1, hS⟩ := key 0 (4 * θ i * θ j * ((Real.sqrt (θ j))⁻¹ + (Real.sqrt (θ i))⁻¹) + 4 * θ i * θ e * (Real.sqrt (θ e))⁻¹)
      (8 * θ i * θ j * θ e * ((Real.sqrt (θ i))⁻¹ * (Real.sqrt (θ j))⁻¹ * (Real.sqrt (θ e))⁻¹))
    refine ⟨S, fun r hrS => lt_of_le_of_lt ?_ (hS _ hrS)⟩
    set s := ssq dim θ r with hs
    have hs0 : 0 ≤ s := by linarith
    have ri := hr r i hi
    have re := hr r e he
    have rj := hr r j hj
    rw [← hs] at ri re rj
    have hT0 := Real.sqrt_nonneg s
    have hTs : Real.sqrt s ≤ s := by
      rw [Real.sqrt_le_left hs0]; nlinarith
    have ci := hC i
    have ce := hC e
    have cj := hC j
    show |-((4 * θ i * θ j * (kron i e * r j + kron j e * r i) + 4 * kron i j * θ i * θ e * r e)
        * prφ2 k α s + 8 * θ i * θ j * θ e * r i * r j * r e * prφ3 k α s)| ≤ _
    rw [abs_neg]
    refine (abs_add_le _ _).trans ?_
    have t1 : |4 * θ i * θ j * (kron i e * r j + kron j e * r i) + 4 * kron i j * θ i * θ e * r e| ≤
        (4 * θ i * θ j * ((Real.sqrt (θ j))⁻¹ + (Real.sqrt (θ i))⁻¹) + 4 * θ i * θ e * (Real.sqrt (θ e))⁻¹) * Real.sqrt s := by
      have u1 : |kron i e * r j + kron j e * r i| ≤ |r j| + |r i| := by
        refine (abs_add_le _ _).trans ?_
        rw [abs_mul, abs_mul]
        exact add_le_add (mul_le_of_le_one_left (abs_nonneg _) (hkr _ _)) (mul_le_of_le_one_left (abs_nonneg _) (hkr _ _))
      have u2 : |4 * kron i j * θ i * θ e * r e| ≤ 4 * θ i * θ e * |r e| := by
        have : |4 * kron i j * θ i * θ e * r e| = |kron i j| * (4 * θ i * θ e * |r e|) := by
          simp only [abs_mul]
          rw [hθa i hi, hθa e he, abs_of_pos (by norm_num : (0 : ℝ) < 4)]; ring
        rw [this]
        exact mul_le_of_le_one_left (by positivity) (hkr _ _)
      refine (abs_add_le _ _).trans ?_
      rw [abs_mul, abs_of_pos (by positivity : 0 < 4 * θ i * θ j)]
      calc _ ≤ 4 * θ i * θ j * ((Real.sqrt (θ j))⁻¹ * Real.sqrt s + (Real.sqrt (θ i))⁻¹ * Real.sqrt s) + 4 * θ i * θ e * ((Real.sqrt (θ e))⁻¹ * Real.sqrt s) := by
            refine add_le_add (mul_le_mul_of_nonneg_left (u1.trans (add_le_add rj ri)) (by positivity)) (u2.trans ?_)
            exact mul_le_mul_of_nonneg_left re (by positivity)
        _ = _ := by ring
    have t2 : |(4 * θ i * θ j * (kron i e * r j + kron j e * r i) + 4 * kron i j * θ i * θ e * r e) * prφ2 k α s| ≤
        (4 * θ i * θ j * ((Real.sqrt (θ j))⁻¹ + (Real.sqrt (θ i))⁻¹) + 4 * θ i * θ e * (Real.sqrt (θ e))⁻¹) * |s * prφ2 k α s| := by
      rw [abs_mul, abs_mul, abs_of_nonneg hs0, ← mul_assoc]
      refine mul_le_mul_of_nonneg_right (t1.trans ?_) (abs_nonneg _)
      exact mul_le_mul_of_nonneg_left hTs (by positivity)
    have t3 : |8 * θ i * θ j * θ e * r i * r j * r e * prφ3 k α s| ≤
        8 * θ i * θ j * θ e * ((Real.sqrt (θ i))⁻¹ * (Real.sqrt (θ j))⁻¹ * (Real.sqrt (θ e))⁻¹) * |Real.sqrt s ^ 3 * prφ3 k α s| := by
      have e1 : |8 * θ i * θ j * θ e * r i * r j * r e * prφ3 k α s| = 8 * θ i * θ j * θ e * (|r i| * |r j| * |r e|) * |prφ3 k α s| := by
        simp only [abs_mul]
        rw [hθa i hi, hθa e he, hθa j hj, abs_of_pos (by norm_num : (0 : ℝ) < 8)]; ring
      rw [e1, abs_mul, abs_of_nonneg (pow_nonneg hT0 3)]
      calc _ ≤ 8 * θ i * θ j * θ e * ((Real.sqrt (θ i))⁻¹ * Real.sqrt s * ((Real.sqrt (θ j))⁻¹ * Real.sqrt s) * ((Real.sqrt (θ e))⁻¹ * Real.sqrt s)) * |prφ3 k α s| := by
            gcongr
        _ = _ := by ring
    linarith

/-- The covariances of the data with every second derivative at a point far from all data points; the scaled distances are then large, too. -/
theorem kh_far {g : Gp} (hg : GpOk g) {hp : HpVals} (hh : HpAdm g hp) {δ : ℝ} (hδ : 0 < δ) :
    ∃ R > 0, ∀ x : Pt, (∀ p < g.nEval, R ≤ ∑ d ∈ Finset.range g.dim, (x d - g.x.get p d) ^ 2) →
      (∀ (e i : Fin g.dim) q, |kh g hp x e i q| < δ) ∧ ∀ p < g.nEval, 1 ≤ ssq g.dim (thF hp) (fun d => x d - g.x.get p d) := by
  have hα := alphaOf_pos hh.kernel
  have hθ := thF_pos hh
  choose S hS using fun t : Fin g.dim × Fin g.dim × Fin g.nData => radKGx_far g.kernel hα hθ (dco g t.2.2) (dco_lt hg t.2.2) t.1.2 t.2.1.2 hδ
  obtain ⟨c, hc, hcle⟩ : ∃ c > (0 : ℝ), ∀ d < g.dim, c ≤ thF hp d := by
    rcases Nat.eq_zero_or_pos g.dim with h0 | h0
    · exact ⟨1, one_pos, fun d hd => by omega⟩
    · obtain ⟨d, hd, hmin⟩ := Finset.exists_min_image (Finset.range g.dim) (thF hp) ⟨0, Finset.mem_range.mpr h0⟩
      exact ⟨thF hp d, hθ d (Finset.mem_range.mp hd), fun e he => hmin e (Finset.mem_range.mpr he)⟩
  obtain ⟨B, hB⟩ : ∃ B, ∀ t, S t ≤ B := by
    obtain ⟨B, hB⟩ := (Set.finite_range S).bddAbove
    exact ⟨B, fun t => hB ⟨t, rfl⟩⟩
  have hfar : ∀ x : Pt, (∀ p < g.nEval, max 1 (max 1 B / c) ≤ ∑ d ∈ Finset.range g.dim, (x d - g.x.get p d) ^ 2) →
      ∀ p < g.nEval, max 1 B ≤ ssq g.dim (thF hp) (fun d => x d - g.x.get p d) := by
    intro x hx p hp'
    have h2 : max 1 B / c ≤ ∑ d ∈ Finset.range g.dim, (x d - g.x.get p d) ^ 2 := (le_max_right _ _).trans (hx p hp')
    rw [div_le_iff₀ hc] at h2
    refine h2.trans ?_
    rw [Finset.sum_mul]
    unfold ssq
    refine Finset.sum_le_sum fun d hd => ?_
    rw [mul_comm]
    exact mul_le_mul_of_nonneg_right (hcle d (Finset.mem_range.mp hd)) (sq_nonneg _)
  refine ⟨max 1 (max 1 B / c), by positivity, fun x hx => ⟨fun e i q => hS (e, i, q) _ ?_, fun p hp' => (le_max_left _ _).trans (hfar x hx p hp')⟩⟩
  exact (hB _).trans ((le_max_right _ _).trans (hfar x hx _ (dpt_lt hg q)))

end GP
