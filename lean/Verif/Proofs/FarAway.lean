import Verif.Proofs.EvalMask1
import Mathlib.Analysis.SpecialFunctions.Pow.Asymptotics

/-! The covariances vanish far away from the data. -/

open Np Spec Matrix Filter Topology

noncomputable section

namespace GP

theorem sqrt_lim : Tendsto (fun s : ℝ => Real.sqrt 5 * Real.sqrt s) atTop atTop :=
  Real.tendsto_sqrt_atTop.const_mul_atTop (Real.sqrt_pos.mpr (by norm_num))

theorem pow_exp_lim (n : ℕ) : Tendsto (fun s : ℝ => (Real.sqrt 5 * Real.sqrt s) ^ n * Real.exp (-Real.sqrt 5 * Real.sqrt s)) atTop (𝓝 0) := by
  have := (Real.tendsto_pow_mul_exp_neg_atTop_nhds_zero n).comp sqrt_lim
  refine this.congr fun s => ?_
  simp only [Function.comp, neg_mul]

/-- Every kernel vanishes at infinity. -/
theorem prφ_lim (k : KType) {α : ℝ} (hα : 0 < α) : Tendsto (prφ k α) atTop (𝓝 0) := by
  cases k with
  | sqExp => exact Real.tendsto_exp_neg_atTop_nhds_zero
  | matern =>
    have h := ((pow_exp_lim 0).add (pow_exp_lim 1)).add ((pow_exp_lim 2).const_mul (1 / 3))
    simp only [mul_zero, add_zero] at h
    refine h.congr' (Eventually.of_forall fun s => ?_)
    show _ = maφ s
    have h5 := five_sq
    unfold maφ
    rw [mul_pow (Real.sqrt 5) (Real.sqrt s) 2, h5]
    ring
  | ratQuad =>
    have h1 : Tendsto (fun s : ℝ => 1 + s / α) atTop atTop := tendsto_atTop_add_const_left _ _ (tendsto_id.atTop_div_const hα)
    exact (tendsto_rpow_neg_atTop hα).comp h1

/-- So do the covariances with derivatives. -/
theorem prφ1_lim (k : KType) {α : ℝ} (hα : 0 < α) : Tendsto (fun s => Real.sqrt s * prφ1 k α s) atTop (𝓝 0) := by
  cases k with
  | sqExp =>
    have h := (Real.tendsto_pow_mul_exp_neg_atTop_nhds_zero 1)
    refine squeeze_zero_norm' ?_ h
    filter_upwards [eventually_ge_atTop 1] with s hs
    have h1 : Real.sqrt s ≤ s := by
      rw [Real.sqrt_le_left (by linarith)]; nlinarith
    show ‖Real.sqrt s * -Real.exp (-s)‖ ≤ _
    rw [norm_mul, norm_neg, Real.norm_of_nonneg (Real.sqrt_nonneg _), Real.norm_of_nonneg (Real.exp_pos _).le, pow_one]
    exact mul_le_mul_of_nonneg_right h1 (Real.exp_pos _).le
  | matern =>
    have h := ((pow_exp_lim 1).add (pow_exp_lim 2)).const_mul (-(5 / 6) * (1 / Real.sqrt 5))
    simp only [mul_zero, add_zero] at h
    refine h.congr' (Eventually.of_forall fun s => ?_)
    show _ = Real.sqrt s * maφ1 s
    have h5 : Real.sqrt 5 ≠ 0 := (Real.sqrt_pos.mpr (by norm_num)).ne'
    unfold maφ1
    field_simp
  | ratQuad =>
    have h : Tendsto (fun s : ℝ => α / Real.sqrt s) atTop (𝓝 0) := Real.tendsto_sqrt_atTop.const_div_atTop α
    refine squeeze_zero_norm' ?_ h
    filter_upwards [eventually_gt_atTop 0] with s hs
    show ‖Real.sqrt s * -(1 + s / α) ^ (-α - 1)‖ ≤ _
    have hb : 1 < 1 + s / α := by have := div_pos hs hα; linarith
    have hpow : (1 + s / α) ^ (-α - 1) ≤ α / s := by
      calc (1 + s / α) ^ (-α - 1) ≤ (1 + s / α) ^ (-1 : ℝ) := Real.rpow_le_rpow_of_exponent_le hb.le (by linarith)
        _ = 1 / (1 + s / α) := by rw [Real.rpow_neg_one, one_div]
        _ ≤ 1 / (s / α) := one_div_le_one_div_of_le (div_pos hs hα) (by linarith)
        _ = α / s := by field_simp
    rw [norm_mul, norm_neg, Real.norm_of_nonneg (Real.sqrt_nonneg _), Real.norm_of_nonneg (Real.rpow_nonneg (by linarith) _)]
    calc Real.sqrt s * (1 + s / α) ^ (-α - 1) ≤ Real.sqrt s * (α / s) := mul_le_mul_of_nonneg_left hpow (Real.sqrt_nonneg _)
      _ = α / Real.sqrt s := by
        have h2 := Real.sq_sqrt hs.le
        have h3 : Real.sqrt s ≠ 0 := (Real.sqrt_pos.mpr hs).ne'
        field_simp
        linarith

/-- And the covariances of derivatives. -/
theorem prφ11_lim (k : KType) {α : ℝ} (hα : 0 < α) : Tendsto (prφ1 k α) atTop (𝓝 0) := by
  refine squeeze_zero_norm' ?_ (by simpa only [norm_zero] using (prφ1_lim k hα).norm)
  filter_upwards [eventually_ge_atTop 1] with s hs
  rw [norm_mul, Real.norm_of_nonneg (Real.sqrt_nonneg _)]
  exact le_mul_of_one_le_left (norm_nonneg _) (Real.one_le_sqrt.mpr hs)

theorem prφ2_lim (k : KType) {α : ℝ} (hα : 0 < α) : Tendsto (fun s => s * prφ2 k α s) atTop (𝓝 0) := by
  cases k with
  | sqExp =>
    have h := (Real.tendsto_pow_mul_exp_neg_atTop_nhds_zero 1)
    refine h.congr fun s => ?_
    rw [pow_one]; rfl
  | matern =>
    have h := (pow_exp_lim 2).const_mul (5 / 12)
    simp only [mul_zero] at h
    refine h.congr' ?_
    filter_upwards [eventually_ge_atTop 0] with s hs
    show _ = s * maφ2 s
    unfold maφ2
    rw [mul_pow, Real.sq_sqrt hs, Real.sq_sqrt (by norm_num)]
    ring
  | ratQuad =>
    have h : Tendsto (fun s : ℝ => (1 + 1 / α) * (α ^ 2 / s)) atTop (𝓝 0) := by
      have := (tendsto_id (α := ℝ) (x := atTop)).const_div_atTop (α ^ 2)
      simpa using this.const_mul (1 + 1 / α)
    refine squeeze_zero_norm' ?_ h
    filter_upwards [eventually_gt_atTop 0] with s hs
    show ‖s * ((1 + 1 / α) * (1 + s / α) ^ (-α - 2))‖ ≤ _
    have hb : 1 < 1 + s / α := by have := div_pos hs hα; linarith
    have hsa := div_pos hs hα
    have hpow : (1 + s / α) ^ (-α - 2) ≤ (α / s) ^ 2 := by
      calc (1 + s / α) ^ (-α - 2) ≤ (1 + s / α) ^ (-2 : ℝ) := Real.rpow_le_rpow_of_exponent_le hb.le (by linarith)
        _ = ((1 + s / α) ^ 2)⁻¹ := by rw [Real.rpow_neg (by linarith)]; norm_cast
        _ ≤ ((s / α) ^ 2)⁻¹ := by gcongr; linarith
        _ = (α / s) ^ 2 := by rw [← inv_pow, inv_div]
    have h0 : 0 ≤ 1 + 1 / α := by positivity
    have h1 : 0 ≤ (1 + s / α) ^ (-α - 2) := Real.rpow_nonneg (by linarith) _
    rw [Real.norm_of_nonneg (by positivity)]
    calc s * ((1 + 1 / α) * (1 + s / α) ^ (-α - 2)) ≤ s * ((1 + 1 / α) * (α / s) ^ 2) := by gcongr
      _ = (1 + 1 / α) * (α ^ 2 / s) := by field_simp

theorem sq_le_ssq {dim : ℕ} {θ r : ℕ → ℝ} (hθ : ∀ d < dim, 0 < θ d) {i : ℕ} (hi : i < dim) : θ i * r i ^ 2 ≤ ssq dim θ r :=
  Finset.single_le_sum (f := fun d => θ d * r d ^ 2) (fun d hd => mul_nonneg (hθ d (Finset.mem_range.mp hd)).le (sq_nonneg _))
    (Finset.mem_range.mpr hi)

/-- Covariances of one datum with a value far away. -/
theorem radKG_far (k : KType) {α : ℝ} (hα : 0 < α) {dim : ℕ} {θ : ℕ → ℝ} (hθ : ∀ d < dim, 0 < θ d) (c : Option ℕ) (hc : ∀ i ∈ c, i < dim)
    {δ : ℝ} (hδ : 0 < δ) : ∃ S, ∀ r : ℕ → ℝ, S ≤ ssq dim θ r → |radKG (prφ k α) (prφ1 k α) (prφ2 k α) dim θ r c none| < δ := by
  cases c with
  | none =>
    obtain ⟨S, hS⟩ := eventually_atTop.mp ((Metric.tendsto_nhds.mp (prφ_lim k hα)) δ hδ)
    refine ⟨S, fun r hr => ?_⟩
    have := hS _ hr
    rwa [Real.dist_eq, sub_zero] at this
  | some i =>
    have hi := hc i rfl
    have hp : 0 < 2 * Real.sqrt (θ i) := by have := Real.sqrt_pos.mpr (hθ i hi); linarith
    obtain ⟨S, hS⟩ := eventually_atTop.mp ((Metric.tendsto_nhds.mp (prφ1_lim k hα)) (δ / (2 * Real.sqrt (θ i))) (div_pos hδ hp))
    refine ⟨S, fun r hr => ?_⟩
    have h1 := hS _ hr
    rw [Real.dist_eq, sub_zero, abs_mul, abs_of_nonneg (Real.sqrt_nonneg _), lt_div_iff₀ hp] at h1
    show |2 * θ i * r i * prφ1 k α (ssq dim θ r)| < δ
    refine lt_of_le_of_lt ?_ h1
    have hs : Real.sqrt (θ i) * |r i| ≤ Real.sqrt (ssq dim θ r) := by
      rw [← Real.sqrt_sq_eq_abs, ← Real.sqrt_mul (hθ i hi).le]
      exact Real.sqrt_le_sqrt (sq_le_ssq hθ hi)
    have hθi : θ i = Real.sqrt (θ i) * Real.sqrt (θ i) := (Real.mul_self_sqrt (hθ i hi).le).symm
    rw [abs_mul, abs_mul, abs_mul, abs_of_pos (hθ i hi), abs_two]
    calc 2 * θ i * |r i| * |prφ1 k α (ssq dim θ r)| = (Real.sqrt (θ i) * |r i|) * |prφ1 k α (ssq dim θ r)| * (2 * Real.sqrt (θ i)) := by
          nth_rewrite 1 [hθi]; ring
      _ ≤ Real.sqrt (ssq dim θ r) * |prφ1 k α (ssq dim θ r)| * (2 * Real.sqrt (θ i)) := by
          gcongr

/-- Covariances of one datum with a derivative far away. -/
theorem radKG_far_d (k : KType) {α : ℝ} (hα : 0 < α) {dim : ℕ} {θ : ℕ → ℝ} (hθ : ∀ d < dim, 0 < θ d) (c : Option ℕ) (hc : ∀ i ∈ c, i < dim)
    {j : ℕ} (hj : j < dim) {δ : ℝ} (hδ : 0 < δ) :
    ∃ S, ∀ r : ℕ → ℝ, S ≤ ssq dim θ r → |radKG (prφ k α) (prφ1 k α) (prφ2 k α) dim θ r c (some j)| < δ := by
  cases c with
  | none =>
    obtain ⟨S, hS⟩ := radKG_far k hα hθ (some j) (by rintro i hi; cases hi; exact hj) hδ
    refine ⟨S, fun r hr => ?_⟩
    show |-(2 * θ j * r j * prφ1 k α (ssq dim θ r))| < δ
    rw [abs_neg]
    exact hS r hr
  | some i =>
    have hi := hc i rfl
    have ha := Real.sqrt_pos.mpr (hθ i hi)
    have hb := Real.sqrt_pos.mpr (hθ j hj)
    have hp : 0 < 4 * (Real.sqrt (θ i) * Real.sqrt (θ j)) := by positivity
    have hq : 0 < 2 * θ i := by have := hθ i hi; linarith
    obtain ⟨S₁, hS₁⟩ := eventually_atTop.mp ((Metric.tendsto_nhds.mp (prφ11_lim k hα)) (δ / 2 / (2 * θ i)) (div_pos (by linarith) hq))
    obtain ⟨S₂, hS₂⟩ := eventually_atTop.mp ((Metric.tendsto_nhds.mp (prφ2_lim k hα)) (δ / 2 / (4 * (Real.sqrt (θ i) * Real.sqrt (θ j))))
      (div_pos (by linarith) hp))
    refine ⟨max S₁ S₂, fun r hr => ?_⟩
    have h1 := hS₁ _ ((le_max_left _ _).trans hr)
    have h2 := hS₂ _ ((le_max_right _ _).trans hr)
    have hs0 : 0 ≤ ssq dim θ r := Finset.sum_nonneg fun d hd => mul_nonneg (hθ d (Finset.mem_range.mp hd)).le (sq_nonneg _)
    rw [Real.dist_eq, sub_zero, lt_div_iff₀ hq] at h1
    rw [Real.dist_eq, sub_zero, abs_mul, abs_of_nonneg hs0, lt_div_iff₀ hp] at h2
    show |-(2 * θ i * kron i j * prφ1 k α (ssq dim θ r)) - 4 * θ i * θ j * r i * r j * prφ2 k α (ssq dim θ r)| < δ
    have hs : ∀ d < dim, Real.sqrt (θ d) * |r d| ≤ Real.sqrt (ssq dim θ r) := by
      intro d hd
      rw [← Real.sqrt_sq_eq_abs, ← Real.sqrt_mul (hθ d hd).le]
      exact Real.sqrt_le_sqrt (sq_le_ssq hθ hd)
    have hθi : θ i = Real.sqrt (θ i) * Real.sqrt (θ i) := (Real.mul_self_sqrt (hθ i hi).le).symm
    have hθj : θ j = Real.sqrt (θ j) * Real.sqrt (θ j) := (Real.mul_self_sqrt (hθ j hj).le).symm
    have e1 : |2 * θ i * kron i j * prφ1 k α (ssq dim θ r)| < δ / 2 := by
      refine lt_of_le_of_lt ?_ h1
      have hk : |(kron i j : ℝ)| ≤ 1 := by unfold kron; split_ifs <;> norm_num
      rw [abs_mul, abs_mul, abs_of_pos hq, mul_comm |prφ1 k α (ssq dim θ r)|]
      exact mul_le_mul_of_nonneg_right (mul_le_of_le_one_right hq.le hk) (abs_nonneg _)
    have e2 : |4 * θ i * θ j * r i * r j * prφ2 k α (ssq dim θ r)| < δ / 2 := by
      refine lt_of_le_of_lt ?_ h2
      have e3 : |4 * θ i * θ j * r i * r j * prφ2 k α (ssq dim θ r)| =
          (Real.sqrt (θ i) * |r i|) * (Real.sqrt (θ j) * |r j|) * (|prφ2 k α (ssq dim θ r)| * (4 * (Real.sqrt (θ i) * Real.sqrt (θ j)))) := by
        rw [abs_mul, abs_mul, abs_mul, abs_mul, abs_mul, abs_of_pos (hθ i hi), abs_of_pos (hθ j hj), abs_of_pos (by norm_num : (0 : ℝ) < 4)]
        nth_rewrite 1 [hθi]
        nth_rewrite 1 [hθj]
        ring
      have e4 := mul_le_mul (hs i hi) (hs j hj) (mul_nonneg hb.le (abs_nonneg _)) (Real.sqrt_nonneg _)
      rw [Real.mul_self_sqrt hs0] at e4
      rw [e3, mul_assoc (ssq dim θ r)]
      exact mul_le_mul_of_nonneg_right e4 (by positivity)
    calc _ ≤ |-(2 * θ i * kron i j * prφ1 k α (ssq dim θ r))| + |4 * θ i * θ j * r i * r j * prφ2 k α (ssq dim θ r)| := abs_sub _ _
      _ < δ := by rw [abs_neg]; linarith

/-- All covariances of the data with the value or a derivative at a point far from all data points. -/
theorem kx_far {g : Gp} (hg : GpOk g) {hp : HpVals} (hh : HpAdm g hp) (oy : Option ℕ) (hoy : ∀ j ∈ oy, j < g.dim) {δ : ℝ} (hδ : 0 < δ) :
    ∃ R > 0, ∀ x : Pt, (∀ p < g.nEval, R ≤ ∑ d ∈ Finset.range g.dim, (x d - g.x.get p d) ^ 2) → ∀ q : Fin g.nData,
      |radKG (prφ g.kernel (alphaOf g.kernel hp.kernel)) (prφ1 g.kernel (alphaOf g.kernel hp.kernel)) (prφ2 g.kernel (alphaOf g.kernel hp.kernel))
        g.dim (thF hp) (fun d => dpt g q d - x d) (dco g q) oy| < δ := by
  have hα := alphaOf_pos hh.kernel
  have hθ := thF_pos hh
  have hfar : ∀ c : Option ℕ, (∀ i ∈ c, i < g.dim) → ∃ S, ∀ r : ℕ → ℝ, S ≤ ssq g.dim (thF hp) r →
      |radKG (prφ g.kernel (alphaOf g.kernel hp.kernel)) (prφ1 g.kernel (alphaOf g.kernel hp.kernel)) (prφ2 g.kernel (alphaOf g.kernel hp.kernel))
        g.dim (thF hp) r c oy| < δ := by
    intro c hc
    cases oy with
    | none => exact radKG_far g.kernel hα hθ c hc hδ
    | some j => exact radKG_far_d g.kernel hα hθ c hc (hoy j rfl) hδ
  choose S hS using fun q : Fin g.nData => hfar (dco g q) (dco_lt hg q)
  obtain ⟨c, hc, hcle⟩ : ∃ c > (0 : ℝ), ∀ d < g.dim, c ≤ thF hp d := by
    rcases Nat.eq_zero_or_pos g.dim with h0 | h0
    · exact ⟨1, one_pos, fun d hd => by omega⟩
    · obtain ⟨d, hd, hmin⟩ := Finset.exists_min_image (Finset.range g.dim) (thF hp) ⟨0, Finset.mem_range.mpr h0⟩
      exact ⟨thF hp d, hθ d (Finset.mem_range.mp hd), fun e he => hmin e (Finset.mem_range.mpr he)⟩
  obtain ⟨B, hB⟩ : ∃ B, ∀ q, S q ≤ B := by
    obtain ⟨B, hB⟩ := (Set.finite_range S).bddAbove
    exact ⟨B, fun q => hB ⟨q, rfl⟩⟩
  refine ⟨max 1 (B / c), by positivity, fun x hx q => hS q _ ?_⟩
  have h1 := hx _ (dpt_lt hg q)
  have h2 : B / c ≤ ∑ d ∈ Finset.range g.dim, (x d - dpt g q d) ^ 2 := (le_max_right _ _).trans h1
  rw [div_le_iff₀ hc] at h2
  refine (hB q).trans (h2.trans ?_)
  rw [Finset.sum_mul]
  unfold ssq
  refine Finset.sum_le_sum fun d hd => ?_
  have := hcle d (Finset.mem_range.mp hd)
  have h3 : (x d - dpt g q d) ^ 2 = (dpt g q d - x d) ^ 2 := by ring
  rw [h3, mul_comm]
  exact mul_le_mul_of_nonneg_right this (sq_nonneg _)

/-- The covariances with the value. -/
theorem kv_far {g : Gp} (hg : GpOk g) {hp : HpVals} (hh : HpAdm g hp) {δ : ℝ} (hδ : 0 < δ) :
    ∃ R > 0, ∀ x : Pt, (∀ p < g.nEval, R ≤ ∑ d ∈ Finset.range g.dim, (x d - g.x.get p d) ^ 2) → ∀ q, |kv g hp x q| < δ :=
  kx_far hg hh none (by intro j hj; cases hj) hδ

/-- The covariances with every partial derivative. -/
theorem kd_far {g : Gp} (hg : GpOk g) {hp : HpVals} (hh : HpAdm g hp) {δ : ℝ} (hδ : 0 < δ) :
    ∃ R > 0, ∀ x : Pt, (∀ p < g.nEval, R ≤ ∑ d ∈ Finset.range g.dim, (x d - g.x.get p d) ^ 2) →
      ∀ (i : Fin g.dim) q, |kd g hp x i q| < δ := by
  choose R hR0 hR using fun i : Fin g.dim => kx_far hg hh (some i) (by intro j hj; cases hj; exact i.2) hδ
  obtain ⟨B, hB⟩ : ∃ B, ∀ i, R i ≤ B := by
    obtain ⟨B, hB⟩ := (Set.finite_range R).bddAbove
    exact ⟨B, fun i => hB ⟨i, rfl⟩⟩
  exact ⟨max 1 B, by positivity, fun x hx i q => hR i x (fun p hp => (hB i).trans ((le_max_right _ _).trans (hx p hp))) q⟩

theorem dot_small {n : ℕ} {u w : Vec n} {δ : ℝ} (hu : ∀ q, |u q| ≤ δ) : |u ⬝ᵥ w| ≤ δ * ∑ q, |w q| := by
  rw [dotProduct, Finset.mul_sum]
  refine (Finset.abs_sum_le_sum_abs _ _).trans (Finset.sum_le_sum fun q _ => ?_)
  rw [abs_mul]
  exact mul_le_mul_of_nonneg_right (hu q) (abs_nonneg _)

theorem bilin_small {n : ℕ} {u z : Vec n} {A : Mat n n} {δ : ℝ} (hδ : 0 ≤ δ) (hu : ∀ q, |u q| ≤ δ) (hz : ∀ q, |z q| ≤ δ) :
    |u ⬝ᵥ A *ᵥ z| ≤ δ * (δ * ∑ p, ∑ q, |A p q|) := by
  refine (dot_small hu).trans (mul_le_mul_of_nonneg_left ?_ hδ)
  rw [Finset.mul_sum]
  refine Finset.sum_le_sum fun p _ => ?_
  show |(A p) ⬝ᵥ z| ≤ _
  rw [dotProduct_comm]
  exact dot_small hz

theorem quad_small {n : ℕ} {u : Vec n} {A : Mat n n} {δ : ℝ} (hδ : 0 ≤ δ) (hu : ∀ q, |u q| ≤ δ) : |u ⬝ᵥ A *ᵥ u| ≤ δ * (δ * ∑ p, ∑ q, |A p q|) :=
  bilin_small hδ hu hu

end GP
