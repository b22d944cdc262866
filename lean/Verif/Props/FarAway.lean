import Verif.Proofs.FarHess
import Verif.Props.MoreData
import Verif.Props.EvalDerivs
import Verif.Props.EvalClose

/-! Properties C84 and C85: predictions far from the data; repeated noise-free points. -/

open Np Spec GP Matrix

noncomputable section

namespace Props

/-- **C84** Far away from the data predictions return to the prior: for every tolerance there is a distance such that at every point
that is at least that far from every data point the mean is within the tolerance of the prior mean and the variance within the
tolerance of the prior variance. (`R` is the square of the distance.) -/
theorem C84_far_away {g : Gp} {hp : HpVals} {v β : ℝ} (hr : ReadyV g hp v β) {cc : Bool} {st : EvalState g.nData}
    (hst : setupEvalModel g hp cc = .ok st) (hF : st.chofac ≠ none) {ε : ℝ} (hε : 0 < ε) :
    ∃ R > 0, ∀ X : Arr2, X.c = g.dim → 0 < X.r → ∀ cg, ∃ out, evalModel g st hp X cg false = .ok out ∧
      ∀ a : Fin X.r, (∀ p < g.nEval, R ≤ ∑ d ∈ Finset.range g.dim, (X.get a d - g.x.get p d) ^ 2) →
        |out.mu a - β| < ε ∧ v - ε < out.sig a ^ 2 ∧ out.sig a ^ 2 ≤ v := by
  obtain ⟨N, K, hs, -⟩ := ready_setup hr hst
  set w := st.KernEta⁻¹ *ᵥ (st.dataVec - priorMean g β) with hw
  set W := ∑ q, |w q| with hW
  set A := ∑ p, ∑ q, |st.KernEta⁻¹ p q| with hA
  have hW0 : 0 ≤ W := Finset.sum_nonneg fun q _ => abs_nonneg _
  have hA0 : 0 ≤ A := Finset.sum_nonneg fun p _ => Finset.sum_nonneg fun q _ => abs_nonneg _
  have hv := hr.vpos
  set δ := min 1 (ε / (2 * (1 + W + v * A))) with hδ
  have hden : 0 < 2 * (1 + W + v * A) := by positivity
  have hδ0 : 0 < δ := lt_min one_pos (div_pos hε hden)
  have hδ1 : δ ≤ 1 := min_le_left _ _
  have hδ2 : δ * (2 * (1 + W + v * A)) ≤ ε := by
    have := min_le_right 1 (ε / (2 * (1 + W + v * A)))
    rwa [← hδ, le_div_iff₀ hden] at this
  obtain ⟨R, hR0, hR⟩ := kv_far hr.ok hr.adm hδ0
  refine ⟨R, hR0, fun X hX hXr cg => ?_⟩
  obtain ⟨out, ho, hmu, hsig⟩ := ready_vals hr hs hF hX hXr cg
  refine ⟨out, ho, fun a ha => ?_⟩
  have hk := fun q => (hR (X.get a) ha q).le
  have hvA : 0 ≤ v * A := by positivity
  rw [hmu, hsig]
  refine ⟨?_, ?_⟩
  · have h1 : muF g hp w β (X.get a) - β = kv g hp (X.get a) ⬝ᵥ w := by unfold muF; ring
    show |muF g hp w β (X.get a) - β| < ε
    rw [h1]
    refine lt_of_le_of_lt (dot_small hk) ?_
    have : δ * W + δ * (2 + W + 2 * (v * A)) ≤ ε := by linarith
    have h2 : 0 < δ * (2 + W + 2 * (v * A)) := by positivity
    linarith
  · show v - ε < sgF g hp st.KernEta v (X.get a) ^ 2 ∧ sgF g hp st.KernEta v (X.get a) ^ 2 ≤ v
    obtain ⟨h1, h2, -⟩ := s2_nonneg hr.ok hr.adm hs (hs.etaNonneg hr.eta) (ready_pd hs hF) (X.get a)
    rw [sgF_sq hr hs hF]
    refine ⟨?_, by nlinarith⟩
    have h3 := (le_abs_self _).trans (quad_small (A := st.KernEta⁻¹) hδ0.le hk)
    have h4 : s2F g hp st.KernEta (X.get a) = 1 - kv g hp (X.get a) ⬝ᵥ st.KernEta⁻¹ *ᵥ kv g hp (X.get a) := rfl
    have h5 : δ * (δ * A) ≤ δ * A := by
      have := mul_le_mul_of_nonneg_right hδ1 (mul_nonneg hδ0.le hA0)
      linarith
    have h6 : v * (1 - δ * A) ≤ v * s2F g hp st.KernEta (X.get a) := mul_le_mul_of_nonneg_left (by rw [h4]; linarith) hv.le
    have h7 : 0 < δ * (2 + 2 * W + v * A) := by positivity
    nlinarith

/-- **C84** And they become flat: for every tolerance there is a distance such that at every point that is at least that far from every data
point all components of the gradients of the mean and of the standard deviation are within the tolerance of zero. -/
theorem C84_flat {g : Gp} {hp : HpVals} {v β : ℝ} (hr : Ready g hp v β) {cc : Bool} {st : EvalState g.nData}
    (hst : setupEvalModel g hp cc = .ok st) (hF : st.chofac ≠ none) {ε : ℝ} (hε : 0 < ε) :
    ∃ R > 0, ∀ X : Arr2, X.c = g.dim → 0 < X.r → ∃ out dmu dsig, evalModel g st hp X true false = .ok out ∧ out.dmu = some dmu ∧ out.dsig = some dsig ∧
      ∀ a : Fin X.r, (∀ p < g.nEval, R ≤ ∑ d ∈ Finset.range g.dim, (X.get a d - g.x.get p d) ^ 2) →
        ∀ i : Fin g.dim, |dmu a i| < ε ∧ |dsig a i| < ε := by
  obtain ⟨N, K, hs, -⟩ := ready_setup hr.toV hst
  set w := st.KernEta⁻¹ *ᵥ (st.dataVec - priorMean g β) with hw
  set W := ∑ q, |w q| with hW
  set A := ∑ p, ∑ q, |st.KernEta⁻¹ p q| with hA
  have hW0 : 0 ≤ W := Finset.sum_nonneg fun q _ => abs_nonneg _
  have hA0 : 0 ≤ A := Finset.sum_nonneg fun p _ => Finset.sum_nonneg fun q _ => abs_nonneg _
  have hv := hr.vpos
  have hsv := Real.sqrt_pos.mpr hv
  set D := 1 + W + (2 + 2 * Real.sqrt v) * A with hD
  have hvA : 0 ≤ Real.sqrt v * A := by positivity
  have hD0 : 0 < D := by positivity
  have hm0 : 0 < min ε 1 := lt_min hε one_pos
  set δ := min 1 (min ε 1 / (2 * D)) with hδ
  have hδ0 : 0 < δ := lt_min one_pos (div_pos hm0 (by linarith))
  have hδ1 : δ ≤ 1 := min_le_left _ _
  have hδ2 : δ * (2 * D) ≤ min ε 1 := by
    have := min_le_right 1 (min ε 1 / (2 * D))
    rwa [← hδ, le_div_iff₀ (by linarith)] at this
  have b1 := hδ2.trans (min_le_left _ _)
  have b2 := hδ2.trans (min_le_right _ _)
  have hδW : 0 ≤ δ * W := mul_nonneg hδ0.le hW0
  have hδA : 0 ≤ δ * A := mul_nonneg hδ0.le hA0
  have hδv : 0 ≤ δ * (Real.sqrt v * A) := mul_nonneg hδ0.le hvA
  have bD : δ * (2 * D) = 2 * δ + 2 * (δ * W) + 4 * (δ * A) + 4 * (δ * (Real.sqrt v * A)) := by rw [hD]; ring
  obtain ⟨R₁, hR₁, h₁⟩ := kv_far hr.ok hr.adm hδ0
  obtain ⟨R₂, hR₂, h₂⟩ := kd_far hr.ok hr.adm hδ0
  refine ⟨max R₁ R₂, by positivity, fun X hX hXr => ⟨_, _, _, ready_eval hr hs hF hX hXr true false noHess, rfl, rfl, fun a ha i => ?_⟩⟩
  have hk := fun q => (h₁ (X.get a) (fun p hp => (le_max_left _ _).trans (ha p hp)) q).le
  have hd := fun q => (h₂ (X.get a) (fun p hp => (le_max_right _ _).trans (ha p hp)) i q).le
  refine ⟨lt_of_le_of_lt (dot_small hd) (by linarith), ?_⟩
  show |dsgF g hp st.KernEta v (X.get a) i| < ε
  have h3 := (le_abs_self _).trans (quad_small (A := st.KernEta⁻¹) hδ0.le hk)
  have h4 : s2F g hp st.KernEta (X.get a) = 1 - kv g hp (X.get a) ⬝ᵥ st.KernEta⁻¹ *ᵥ kv g hp (X.get a) := rfl
  have h5 : δ * (δ * A) ≤ δ * A := by
    have := mul_le_mul_of_nonneg_right hδ1 hδA
    linarith
  have h6 : 1 / 4 ≤ s2F g hp st.KernEta (X.get a) := by rw [h4]; linarith
  have h7 : Real.sqrt v / 2 ≤ sgF g hp st.KernEta v (X.get a) := by
    have : (1 : ℝ) / 2 ≤ Real.sqrt (s2F g hp st.KernEta (X.get a)) := Real.le_sqrt_of_sq_le (by norm_num; linarith)
    have := mul_le_mul_of_nonneg_right this hsv.le
    unfold sgF
    linarith
  have h8 : 0 < sgF g hp st.KernEta v (X.get a) := lt_of_lt_of_le (by positivity) h7
  have h9 := bilin_small (A := st.KernEta⁻¹) hδ0.le hd hk
  have h10 : |kd g hp (X.get a) i ⬝ᵥ st.KernEta⁻¹ *ᵥ kv g hp (X.get a)| ≤ δ * A := h9.trans h5
  rw [dsgF, if_pos h8.ne', neg_mul, abs_neg, abs_mul, abs_mul, abs_of_pos hv, abs_of_pos (by positivity), one_div, inv_mul_lt_iff₀ h8]
  have h11 : Real.sqrt v * Real.sqrt v = v := Real.mul_self_sqrt hv.le
  calc _ ≤ δ * A * v := mul_le_mul_of_nonneg_right h10 hv.le
    _ = (Real.sqrt v / 2) * (2 * (δ * (Real.sqrt v * A))) := by rw [← h11]; simp only [Real.sqrt_mul_self hsv.le]; ring
    _ < (Real.sqrt v / 2) * ε := by
      refine mul_lt_mul_of_pos_left ?_ (by positivity)
      linarith
    _ ≤ _ := mul_le_mul_of_nonneg_right h7 hε.le

/-- **C84** So do the Hessians: for every tolerance there is a distance such that at every single point that is at least that far from every data
point Hessians are returned and all their entries, for the mean and the standard deviation, are within the tolerance of zero. -/
theorem C84_hessians {g : Gp} {hp : HpVals} {v β : ℝ} (hr : Ready g hp v β) {cc : Bool} {st : EvalState g.nData}
    (hst : setupEvalModel g hp cc = .ok st) (hF : st.chofac ≠ none) (hfull : g.useGrad = true → g.nGrad = g.nEval) {ε : ℝ} (hε : 0 < ε) :
    ∃ R > 0, ∀ X : Arr2, X.c = g.dim → X.r = 1 →
      (∀ p < g.nEval, R ≤ ∑ d ∈ Finset.range g.dim, (X.get 0 d - g.x.get p d) ^ 2) →
      ∃ out H S, evalModel g st hp X true true = .ok out ∧ out.d2mu = some H ∧ out.d2sig = some (some S) ∧
        ∀ e i : Fin g.dim, |H e i| < ε ∧ |S e i| < ε := by
  obtain ⟨N, K, hs, -⟩ := ready_setup hr.toV hst
  set w := st.KernEta⁻¹ *ᵥ (st.dataVec - priorMean g β) with hw
  set W := ∑ q, |w q| with hW
  set A := ∑ p, ∑ q, |st.KernEta⁻¹ p q| with hA
  have hW0 : 0 ≤ W := Finset.sum_nonneg fun q _ => abs_nonneg _
  have hA0 : 0 ≤ A := Finset.sum_nonneg fun p _ => Finset.sum_nonneg fun q _ => abs_nonneg _
  have hv := hr.vpos
  have hsv := Real.sqrt_pos.mpr hv
  obtain ⟨R₀, hR₀, h₀⟩ := C84_far_away hr.toV hst hF (ε := v / 2) (by linarith)
  set τ := min 1 (ε * Real.sqrt v / 4) with hτ
  have hτ0 : 0 < τ := lt_min one_pos (by positivity)
  have hτ1 : τ ≤ 1 := min_le_left _ _
  have hτ2 : 4 * τ ≤ ε * Real.sqrt v := by have := min_le_right 1 (ε * Real.sqrt v / 4); rw [← hτ] at this; linarith
  obtain ⟨R₃, hR₃, h₃⟩ := C84_flat hr hst hF (ε := τ) hτ0
  set δ := min 1 (min ε (τ / v) / (2 * (1 + W + A))) with hδ
  have hD0 : 0 < 2 * (1 + W + A) := by positivity
  have hm0 : 0 < min ε (τ / v) := lt_min hε (div_pos hτ0 hv)
  have hδ0 : 0 < δ := lt_min one_pos (div_pos hm0 hD0)
  have hδ1 : δ ≤ 1 := min_le_left _ _
  have hδ2 : δ * (2 * (1 + W + A)) ≤ min ε (τ / v) := by
    have := min_le_right 1 (min ε (τ / v) / (2 * (1 + W + A)))
    rwa [← hδ, le_div_iff₀ hD0] at this
  have b1 := hδ2.trans (min_le_left _ _)
  have b2 := hδ2.trans (min_le_right _ _)
  have hδW : 0 ≤ δ * W := mul_nonneg hδ0.le hW0
  have hδA : 0 ≤ δ * A := mul_nonneg hδ0.le hA0
  have bD : δ * (2 * (1 + W + A)) = 2 * δ + 2 * (δ * W) + 2 * (δ * A) := by ring
  have b3 : 2 * (δ * A) * v ≤ τ := by
    have : 2 * (δ * A) ≤ τ / v := by linarith
    rwa [le_div_iff₀ hv] at this
  obtain ⟨R₁, hR₁, h₁⟩ := kv_far hr.ok hr.adm hδ0
  obtain ⟨R₂, hR₂, h₂⟩ := kd_far hr.ok hr.adm hδ0
  obtain ⟨R₄, hR₄, h₄⟩ := kh_far hr.ok hr.adm hδ0
  refine ⟨R₀ + R₁ + R₂ + R₃ + R₄, by positivity, fun X hX hXr ha => ?_⟩
  have up : ∀ {r : ℝ}, r ≤ R₀ + R₁ + R₂ + R₃ + R₄ → ∀ p < g.nEval, r ≤ ∑ d ∈ Finset.range g.dim, (X.get 0 d - g.x.get p d) ^ 2 :=
    fun h p hp => h.trans (ha p hp)
  have hX0 : 0 < X.r := by omega
  have hk := fun q => (h₁ (X.get 0) (up (by linarith)) q).le
  have hd := fun i q => (h₂ (X.get 0) (up (by linarith)) i q).le
  obtain ⟨hh, hsep⟩ := h₄ (X.get 0) (up (by linarith))
  have hsep' : g.kernel = .matern → g.useGrad = true → ∀ p < g.nEval,
      wdist2 g.dim (hp.theta.getD ⟨0, fun _ => 0⟩).get (X.get 0) (g.x.get p) = 0 ∨
      (10 : ℝ) ^ (-16 : ℤ) ≤ Real.sqrt (wdist2 g.dim (hp.theta.getD ⟨0, fun _ => 0⟩).get (X.get 0) (g.x.get p)) := by
    intro _ _ p hp'
    refine .inr (le_trans ?_ (Real.one_le_sqrt.mpr (hsep p hp')))
    norm_num
  have hev := ready_eval hr hs hF hX hX0 true true (fun _ => ⟨rfl, hXr, hfull, hsep'⟩)
  -- the standard deviation and its gradient
  obtain ⟨o₁, k1, k2⟩ := h₀ X hX hX0 false
  obtain ⟨o₁', k1', -, k3⟩ := ready_vals hr.toV hs hF hX hX0 false
  obtain rfl := Except.ok.inj (k1.symm.trans k1')
  have k4 := (k2 ⟨0, hX0⟩ (up (by linarith))).2.1
  rw [k3] at k4
  have hsg0 : 0 ≤ sgF g hp st.KernEta v (X.get 0) := mul_nonneg (Real.sqrt_nonneg _) (Real.sqrt_nonneg _)
  have k5 : v / 4 < sgF g hp st.KernEta v (X.get 0) ^ 2 := by
    have : v - v / 2 < sgF g hp st.KernEta v (X.get 0) ^ 2 := k4
    linarith
  have hσ : Real.sqrt v / 2 < sgF g hp st.KernEta v (X.get 0) := by
    refine lt_of_pow_lt_pow_left₀ 2 hsg0 ?_
    rw [div_pow, Real.sq_sqrt hv.le]
    linarith
  have hσ0 : 0 < sgF g hp st.KernEta v (X.get 0) := lt_trans (by positivity) hσ
  obtain ⟨o₂, dm, ds, j1, -, j2, j3⟩ := h₃ X hX hX0
  obtain rfl := Except.ok.inj (j1.symm.trans (ready_eval hr hs hF hX hX0 true false noHess))
  have j4 : ∀ i : Fin g.dim, |dsgF g hp st.KernEta v (X.get 0) i| < τ := by
    intro i
    have := (j3 ⟨0, hX0⟩ (up (by linarith)) i).2
    obtain rfl := Option.some.inj j2
    exact this
  refine ⟨_, _, of fun e i => d2sgF g hp st.KernEta v (X.get 0) e i, hev, rfl, ?_, fun e i => ⟨?_, ?_⟩⟩
  · show some (if sgF g hp st.KernEta v (X.get 0) = 0 then none else some _) = _
    rw [if_neg hσ0.ne']
  · show |kh g hp (X.get 0) e i ⬝ᵥ w| < ε
    exact lt_of_le_of_lt (dot_small fun q => (hh e i q).le) (by linarith)
  · show |d2sgF g hp st.KernEta v (X.get 0) e i| < ε
    have h5 : δ * (δ * A) ≤ δ * A := by
      have := mul_le_mul_of_nonneg_right hδ1 hδA
      linarith
    have q1 := (bilin_small (A := st.KernEta⁻¹) hδ0.le (fun q => (hh e i q).le) hk).trans h5
    have q2 := (bilin_small (A := st.KernEta⁻¹) hδ0.le (hd e) (hd i)).trans h5
    have q3 : |dsgF g hp st.KernEta v (X.get 0) e * dsgF g hp st.KernEta v (X.get 0) i| ≤ τ := by
      rw [abs_mul]
      calc _ ≤ τ * 1 := mul_le_mul (j4 e).le ((j4 i).le.trans hτ1) (abs_nonneg _) hτ0.le
        _ = τ := mul_one _
    rw [d2sgF, abs_mul, abs_of_pos (by positivity), one_div, inv_mul_lt_iff₀ (by positivity)]
    have q4 : |-2 * v * (kh g hp (X.get 0) e i ⬝ᵥ st.KernEta⁻¹ *ᵥ kv g hp (X.get 0) + kd g hp (X.get 0) e ⬝ᵥ st.KernEta⁻¹ *ᵥ kd g hp (X.get 0) i)
        - 2 * (dsgF g hp st.KernEta v (X.get 0) e * dsgF g hp st.KernEta v (X.get 0) i)| ≤ 2 * v * (δ * A + δ * A) + 2 * τ := by
      refine (abs_sub _ _).trans (add_le_add ?_ ?_)
      · rw [abs_mul, abs_mul, abs_neg, abs_two, abs_of_pos hv]
        exact mul_le_mul_of_nonneg_left ((abs_add_le _ _).trans (add_le_add q1 q2)) (by positivity)
      · rw [abs_mul, abs_two]
        linarith
    have q5 : 2 * v * (δ * A + δ * A) ≤ 2 * τ := by nlinarith
    have q6 : ε * Real.sqrt v < 2 * sgF g hp st.KernEta v (X.get 0) * ε := by nlinarith
    linarith

-- C84: the noisy, masked example
example : ∃ st, setupEvalModel exGp exHpB false = .ok st ∧ st.chofac ≠ none := ready_total exReady.toV (by norm_num [exGp])

-- C84, derivatives: with gradients at both points
section
variable {st : EvalState exGpAll.nData} (hst : setupEvalModel exGpAll exHpB false = .ok st) (hF : st.chofac ≠ none)
example := C84_flat exReadyAll hst hF (ε := 1 / 10) (by norm_num)
example := C84_hessians exReadyAll hst hF (fun _ => rfl) (ε := 1 / 10) (by norm_num)
end

/-- **C85** Repeated noise-free points need a nugget: if the values at two rows with the same coordinates have no noise and the
nugget is switched off, no Cholesky factor is found and every prediction raises an assertion. -/
theorem C85_repeated_points {g : Gp} {hp : HpVals} {v β : ℝ} (hr : ReadyV g hp v β) {cc : Bool} {st : EvalState g.nData}
    (hst : setupEvalModel g hp cc = .ok st) (he : g.o.etaConst = true) (h0 : g.o.etaK = 0) {p q : ℕ} (hp' : p < g.nEval)
    (hq : q < g.nEval) (hne : p ≠ q) (hx : ∀ d < g.dim, g.x.get p d = g.x.get q d) (hvp : valVar g hp p = 0) (hvq : valVar g hp q = 0) :
    st.chofac = none ∧ ∀ X cg ch, evalModel g st hp X cg ch = .error .assertion := by
  obtain ⟨N, K, hs, -⟩ := ready_setup hr hst
  have hle : g.nEval ≤ g.nData := by rw [hr.ok.nData]; omega
  have hnone : st.chofac = none := by
    by_contra hF
    have hpd := ready_pd hs hF
    obtain ⟨Na, hNa, rfl⟩ := hs.noise
    set i : Fin g.nData := ⟨p, hp'.trans_le hle⟩
    set j : Fin g.nData := ⟨q, hq.trans_le hle⟩
    have hij : i ≠ j := fun h => hne (Fin.mk.inj_iff.mp h)
    have hone : ∀ a b : ℕ, a < g.nEval → b < g.nEval → (∀ d < g.dim, g.x.get a d = g.x.get b d) → kk g hp a b = 1 := by
      intro a b ha hb hab
      rw [kk_base ha hb]
      have : ssq g.dim (thF hp) (fun d => g.x.get a d - g.x.get b d) = 0 := by
        unfold ssq
        refine Finset.sum_eq_zero fun d hd => ?_
        show thF hp d * (g.x.get a d - g.x.get b d) ^ 2 = 0
        rw [hab d (Finset.mem_range.mp hd)]; ring
      rw [this]; exact prφ_zero _ _
    have hη : st.etaK = 0 := by rw [hs.etaConst he, h0]
    have hM : ∀ a b : Fin g.nData, st.KernEta a b = kk g hp a b + if a = b then toVec g.nData Na a else 0 := by
      intro a b
      rw [hs.cov, Matrix.add_apply, diagonal_apply, isKern_entry hr.ok hr.adm hs.isKern]
      simp only [addDiag, hη, zero_mul, add_zero]
    have hNi : toVec g.nData Na i = 0 := (hNa.val p hp').trans hvp
    have hNj : toVec g.nData Na j = 0 := (hNa.val q hq).trans hvq
    have e1 : st.KernEta i i = 1 := by rw [hM, if_pos rfl, hNi, hone p p hp' hp' fun _ _ => rfl]; ring
    have e2 : st.KernEta j j = 1 := by rw [hM, if_pos rfl, hNj, hone q q hq hq fun _ _ => rfl]; ring
    have e3 : st.KernEta i j = 1 := by rw [hM, if_neg hij, hone p q hp' hq hx]; ring
    have e4 : st.KernEta j i = 1 := by rw [hM, if_neg hij.symm, hone q p hq hp' fun d hd => (hx d hd).symm]; ring
    have hpos := hpd.dotProduct_mulVec_pos (x := Pi.single i 1 - Pi.single j 1) (by
      intro h
      have := congrFun h i
      simp [Pi.single_apply, hij] at this)
    simp only [star_trivial, mulVec_sub, dotProduct_sub, sub_dotProduct, mulVec_single_one, single_one_dotProduct, col_apply, e1, e2, e3, e4] at hpos
    norm_num at hpos
  refine ⟨hnone, fun X cg ch => ?_⟩
  unfold evalModel
  rw [hnone]

/-- Two values at one point, no noise, no nugget. -/
def exGpTwice : Gp := { exGpQuiet with
  x := ⟨2, 2, fun _ d => d + 1⟩
  o := { exGpQuiet.o with etaConst := true, etaK := 0 } }

-- C85: its hypotheses hold for this object
example : ReadyV exGpTwice exHpQuiet 3 4 ∧ valVar exGpTwice exHpQuiet 0 = 0 ∧ valVar exGpTwice exHpQuiet 1 = 0 :=
  ⟨⟨{ exReadyQuiet.ok with }, ⟨exReadyQuiet.adm.theta, exReadyQuiet.adm.kernel, exReadyQuiet.adm.vf_none, exReadyQuiet.adm.vf_some,
    exReadyQuiet.adm.vg_none, exReadyQuiet.adm.vg_some⟩, exReadyQuiet.noise, exReadyQuiet.precon, exReadyQuiet.ne, exReadyQuiet.vpos, rfl,
    ⟨_, rfl, rfl, rfl⟩, (by norm_num [exGpTwice]), (by intro h; cases h)⟩, rfl, rfl⟩

end Props
