import Verif.Props.NearData

/-! Properties C126–C128: what many noisy evaluations can do for a prediction, and what they cannot. -/

open Np Spec GP Matrix Filter Topology

noncomputable section

namespace GP

variable {g : Gp} {hp : HpVals}

/-- The relative variance at a point with `S.card` evaluations around it. -/
theorem s2_average (hg : GpOk g) (hh : HpAdm g hp) {K M : Mat g.nData g.nData} (hK : IsKern g hp K) {d : Vec g.nData}
    (hM : M = K + diagonal d) (hpd : M.PosDef) (x : Pt) (S : Finset (Fin g.nData)) {ρ t : ℝ} (hρ : 0 ≤ ρ) (ht : 0 ≤ t) (hS : S.Nonempty)
    (h : ∀ q ∈ S, (q : ℕ) < g.nEval ∧ d q ≤ t ∧ ρ ≤ gpKern g hp x (g.x.get q)) :
    s2F g hp M x ≤ 1 - ρ ^ 2 * (S.card / (S.card + t)) := by
  have hm : (0 : ℝ) < S.card := by exact_mod_cast hS.card_pos
  have hkv : ∀ q ∈ S, ρ ≤ kv g hp x q := by
    intro q hq
    obtain ⟨h1, -, h2⟩ := h q hq
    have d1 : dpt g q = g.x.get q := by unfold dpt; rw [dIx_val h1]; rfl
    have d2 : dco g q = none := by unfold dco; rw [dIx_val h1]; rfl
    rw [gpKern_canon hh] at h2
    refine h2.trans (le_of_eq ?_)
    unfold kv
    rw [d1, d2]
    simp only [radKG, radial]
    congr 1
    simp only [wdist2, ssq]
    exact Finset.sum_congr rfl fun d _ => by ring
  have hKle : ∀ p ∈ S, ∀ q ∈ S, K p q ≤ 1 := by
    intro p hp' q hq
    have h1 := (h p hp').1
    have h2 := (h q hq).1
    rw [isKern_entry hg hh hK]
    unfold kk
    have d2 : dco g p = none := by unfold dco; rw [dIx_val h1]; rfl
    have d3 : dco g q = none := by unfold dco; rw [dIx_val h2]; rfl
    rw [d2, d3]
    simp only [radKG]
    refine Props.prφ_le_one g.kernel (alphaOf_pos hh.kernel) ?_
    exact Finset.sum_nonneg fun d hd => mul_nonneg (thF_pos hh d (Finset.mem_range.mp hd)).le (sq_nonneg _)
  classical
  set c : ℝ := ρ / (S.card + t) with hc
  have hc0 : 0 ≤ c := by positivity
  set w : Vec g.nData := fun q => if q ∈ S then c else 0 with hw
  have h1 := quad_ge hpd (kv g hp x) w
  have e1 : w ⬝ᵥ kv g hp x = c * ∑ q ∈ S, kv g hp x q := by
    simp only [dotProduct, hw, ite_mul, zero_mul, Finset.sum_ite_mem, Finset.univ_inter, Finset.mul_sum]
  have e2 : w ⬝ᵥ M *ᵥ w = c ^ 2 * (∑ p ∈ S, ∑ q ∈ S, K p q + ∑ q ∈ S, d q) := by
    rw [hM, add_mulVec, dotProduct_add, mul_add]
    congr 1
    · have hin : ∀ p, ∑ q, K p q * w q = c * ∑ q ∈ S, K p q := by
        intro p
        simp only [hw, mul_ite, mul_zero, Finset.sum_ite_mem, Finset.univ_inter, Finset.mul_sum]
        exact Finset.sum_congr rfl fun q _ => by ring
      show ∑ p, w p * ∑ q, K p q * w q = _
      simp only [hin]
      simp only [hw, ite_mul, zero_mul, Finset.sum_ite_mem, Finset.univ_inter]
      rw [Finset.mul_sum]
      exact Finset.sum_congr rfl fun p _ => by ring
    · show ∑ p, w p * (diagonal d *ᵥ w) p = _
      simp only [mulVec_diagonal, hw, ite_mul, zero_mul, Finset.sum_ite_mem, Finset.univ_inter]
      rw [Finset.mul_sum]
      exact Finset.sum_congr rfl fun p hp' => by rw [if_pos hp']; ring
  have b1 : (S.card : ℝ) * ρ ≤ ∑ q ∈ S, kv g hp x q := by
    rw [← nsmul_eq_mul]; exact Finset.card_nsmul_le_sum S _ _ hkv
  have b2 : ∑ p ∈ S, ∑ q ∈ S, K p q ≤ (S.card : ℝ) * S.card := by
    rw [← nsmul_eq_mul]
    refine Finset.sum_le_card_nsmul S _ _ fun p hp' => ?_
    have := Finset.sum_le_card_nsmul S (fun q => K p q) 1 fun q hq => hKle p hp' q hq
    simpa using this
  have b3 : ∑ q ∈ S, d q ≤ (S.card : ℝ) * t := by
    rw [← nsmul_eq_mul]; exact Finset.sum_le_card_nsmul S _ _ fun q hq => (h q hq).2.1
  rw [e1, e2] at h1
  have h2 : 2 * (c * ((S.card : ℝ) * ρ)) - c ^ 2 * ((S.card : ℝ) * S.card + S.card * t) ≤ kv g hp x ⬝ᵥ M⁻¹ *ᵥ kv g hp x := by
    have := mul_le_mul_of_nonneg_left b1 hc0
    have := mul_le_mul_of_nonneg_left (add_le_add b2 b3) (sq_nonneg c)
    linarith
  have e3 : 2 * (c * ((S.card : ℝ) * ρ)) - c ^ 2 * ((S.card : ℝ) * S.card + S.card * t) = ρ ^ 2 * (S.card / (S.card + t)) := by
    rw [hc]; field_simp; ring
  rw [e3] at h2
  unfold s2F
  linarith

/-- The reduction of the variance is at most `q / (1 + q)` with `q = ∑ k_i² / d_i`. -/
theorem s2_floor (hg : GpOk g) (hh : HpAdm g hp) {K M : Mat g.nData g.nData} (hK : IsKern g hp K) {d : Vec g.nData}
    (hd : ∀ i, 0 < d i) (hM : M = K + diagonal d) (hpd : M.PosDef) (x : Pt) :
    1 / (1 + ∑ q, kv g hp x q ^ 2 / d q) ≤ s2F g hp M x := by
  set k := kv g hp x with hk
  set a := k ⬝ᵥ M⁻¹ *ᵥ k with ha
  set w := M⁻¹ *ᵥ k with hw
  set Q := ∑ q, k q ^ 2 / d q with hQ
  have hQ0 : 0 ≤ Q := Finset.sum_nonneg fun q _ => div_nonneg (sq_nonneg _) (hd q).le
  have hwk : w ⬝ᵥ k = a := dotProduct_comm _ _
  have h1 := quad_eq hpd k
  rw [← hw, hwk, ← ha] at h1
  have h2 : w ⬝ᵥ M *ᵥ w = w ⬝ᵥ K *ᵥ w + ∑ i, d i * w i ^ 2 := by
    rw [hM, add_mulVec, dotProduct_add]
    congr 1
    simp only [dotProduct, mulVec_diagonal]
    exact Finset.sum_congr rfl fun q _ => by ring
  have h3 : a ^ 2 ≤ w ⬝ᵥ K *ᵥ w := by
    have := border_nonneg hg hh hK x w (-a)
    rw [← hk, hwk] at this
    nlinarith
  have h4 : a ^ 2 ≤ (∑ i, d i * w i ^ 2) * Q := by
    rw [← hwk]
    have := Finset.sum_mul_sq_le_sq_mul_sq Finset.univ (fun q => Real.sqrt (d q) * w q) (fun q => k q / Real.sqrt (d q))
    have hs : ∀ q, Real.sqrt (d q) ≠ 0 := fun q => (Real.sqrt_pos.mpr (hd q)).ne'
    have e1 : ∑ q, Real.sqrt (d q) * w q * (k q / Real.sqrt (d q)) = w ⬝ᵥ k := by
      simp only [dotProduct]
      exact Finset.sum_congr rfl fun q _ => by field_simp [hs q]
    have e2 : ∀ q, (Real.sqrt (d q) * w q) ^ 2 = d q * w q ^ 2 := fun q => by rw [mul_pow, Real.sq_sqrt (hd q).le]
    have e3 : ∀ q, (k q / Real.sqrt (d q)) ^ 2 = k q ^ 2 / d q := fun q => by rw [div_pow, Real.sq_sqrt (hd q).le]
    simp only [e1, e2, e3] at this
    exact this
  have h5 : w ⬝ᵥ M *ᵥ w = a := by linarith
  set D := ∑ i, d i * w i ^ 2
  have hD : D ≤ a - a ^ 2 := by linarith
  have h6 : a ^ 2 ≤ (a - a ^ 2) * Q := h4.trans (mul_le_mul_of_nonneg_right hD hQ0)
  have ha0 : 0 ≤ a := by
    have hD0 : 0 ≤ D := Finset.sum_nonneg fun i _ => mul_nonneg (hd i).le (sq_nonneg _)
    nlinarith [sq_nonneg a]
  have h7 : a * (1 + Q) ≤ Q := by
    rcases ha0.eq_or_lt with h0 | h0
    · rw [← h0]; simpa using hQ0
    · nlinarith
  show 1 / (1 + Q) ≤ 1 - a
  rw [div_le_iff₀ (by positivity)]
  nlinarith

end GP

namespace Props

/-- **C126** Repeated evaluations average out: if `m` of the evaluated points have at least the correlation `ρ ≥ 0` with `x` and at most
the noise variance and nugget `t` added to the diagonal, then `σ(x)² ≤ v (1 - ρ² m / (m + t))`. -/
theorem C126_average {g : Gp} {hp : HpVals} {v β : ℝ} (hr : ReadyV g hp v β) {cc : Bool} {st : EvalState g.nData}
    (hst : setupEvalModel g hp cc = .ok st) (hF : st.chofac ≠ none) {N : Vec g.nData} {K : Mat g.nData g.nData} (hN : IsNoise g hp N)
    (hK : IsKern g hp K) {X : Arr2} (hX : X.c = g.dim) (hXr : 0 < X.r) (cg : Bool) :
    ∃ out : EvalOut X.r g.dim, evalModel g st hp X cg false = .ok out ∧
      ∀ (p : Fin X.r) (S : Finset (Fin g.nData)) (ρ t : ℝ), 0 ≤ ρ → 0 ≤ t → S.Nonempty →
        (∀ q ∈ S, (q : ℕ) < g.nEval ∧ tau g K N st.etaK q ≤ t ∧ ρ ≤ gpKern g hp (X.get p) (g.x.get q)) →
        out.sig p ^ 2 ≤ v * (1 - ρ ^ 2 * (S.card / (S.card + t))) := by
  obtain ⟨N₀, K₀, hs, -⟩ := ready_setup hr hst
  obtain ⟨rfl, rfl, hcov, hτ⟩ := cov_tau hr hs hN hK
  have hpd := ready_pd hs hF
  obtain ⟨out, ho, -, hsg⟩ := ready_vals hr hs hF hX hXr cg
  refine ⟨out, ho, fun p S ρ t hρ ht hS h => ?_⟩
  rw [hsg, sgF_sq hr hs hF]
  exact mul_le_mul_of_nonneg_left (s2_average hr.ok hr.adm hK hcov hpd (X.get p) S hρ ht hS h) hr.vpos.le

theorem relative_certain {T : Type*} {l : Filter T} {g : T → Gp} {hp : T → HpVals} {v β : T → ℝ} (hr : ∀ k, ReadyV (g k) (hp k) (v k) (β k))
    {cc : T → Bool} {st : ∀ k, EvalState (g k).nData}
    (hst : ∀ k, setupEvalModel (g k) (hp k) (cc k) = .ok (st k)) (hF : ∀ k, (st k).chofac ≠ none) {N : ∀ k, Vec (g k).nData}
    {K : ∀ k, Mat (g k).nData (g k).nData} (hN : ∀ k, IsNoise (g k) (hp k) (N k)) (hK : ∀ k, IsKern (g k) (hp k) (K k)) {X : Arr2}
    (hX : ∀ k, X.c = (g k).dim) (p : Fin X.r) {t : ℝ}
    (hd : ∀ ε > 0, ∀ m : ℕ, ∀ᶠ k in l, ∃ S : Finset (Fin (g k).nData), m ≤ S.card ∧ ∀ q ∈ S, (q : ℕ) < (g k).nEval ∧
      tau (g k) (K k) (N k) (st k).etaK q ≤ t ∧ 1 - ε ≤ gpKern (g k) (hp k) (X.get p) ((g k).x.get q))
    {cg : T → Bool} {out : ∀ k, EvalOut X.r (g k).dim} (ho : ∀ k, evalModel (g k) (st k) (hp k) X (cg k) false = .ok (out k)) {δ : ℝ} (hδ : 0 < δ) :
    ∀ᶠ k in l, (out k).sig p ^ 2 ≤ v k * δ := by
  have hXr : 0 < X.r := p.pos
  set ε : ℝ := min (1 / 2) (δ / 4) with hε
  have hε0 : 0 < ε := by positivity
  have hε1 : ε ≤ 1 / 2 := min_le_left _ _
  have hε2 : 4 * ε ≤ δ := by have : ε ≤ δ / 4 := min_le_right _ _; linarith
  obtain ⟨m, hm⟩ := exists_nat_gt (max t 1 / ε)
  have ht1 : 0 < max t 1 := lt_of_lt_of_le one_pos (le_max_right _ _)
  have hmpos : (0 : ℝ) < m := lt_of_le_of_lt (by positivity) hm
  filter_upwards [hd ε hε0 m] with k hk
  obtain ⟨S, hSm, hS⟩ := hk
  have hcard : (m : ℝ) ≤ S.card := by exact_mod_cast hSm
  have hcpos : (0 : ℝ) < S.card := lt_of_lt_of_le hmpos hcard
  have hSne : S.Nonempty := Finset.card_pos.mp (by exact_mod_cast hcpos)
  obtain ⟨o, ho', h⟩ := C126_average (hr k) (hst k) (hF k) (hN k) (hK k) (hX k) hXr (cg k)
  obtain rfl := Except.ok.inj ((ho k).symm.trans ho')
  have h1 := h p S (1 - ε) (max t 1) (by linarith) ht1.le hSne fun q hq =>
    ⟨(hS q hq).1, (hS q hq).2.1.trans (le_max_left _ _), (hS q hq).2.2⟩
  have h2 : 1 - ε ≤ (S.card : ℝ) / (S.card + max t 1) := by
    rw [le_div_iff₀ (by positivity)]
    rw [div_lt_iff₀ hε0] at hm
    nlinarith
  have h3 : 1 - (1 - ε) ^ 2 * ((S.card : ℝ) / (S.card + max t 1)) ≤ 4 * ε := by
    have : (1 - ε) ^ 2 * (1 - ε) ≤ (1 - ε) ^ 2 * ((S.card : ℝ) / (S.card + max t 1)) := mul_le_mul_of_nonneg_left h2 (sq_nonneg _)
    nlinarith [mul_nonneg hε0.le hε0.le, mul_nonneg (mul_nonneg hε0.le hε0.le) hε0.le]
  exact h1.trans (mul_le_mul_of_nonneg_left (h3.trans hε2) (hr k).vpos.le)

/-- **C126** In the limit: take any growing sequence (or net) of data sets and hyperparameters. If for every `ε > 0` the number of evaluated
points whose correlation with `x` is at least `1 - ε`, and whose noise variance and nugget are at most `t`, grows beyond all bounds, then
the predicted standard deviation at `x` tends to zero. -/
theorem C126_certain {T : Type*} {l : Filter T} {g : T → Gp} {hp : T → HpVals} {v β : T → ℝ} (hr : ∀ k, ReadyV (g k) (hp k) (v k) (β k))
    {V : ℝ} (hV : ∀ k, v k ≤ V) {cc : T → Bool} {st : ∀ k, EvalState (g k).nData}
    (hst : ∀ k, setupEvalModel (g k) (hp k) (cc k) = .ok (st k)) (hF : ∀ k, (st k).chofac ≠ none) {N : ∀ k, Vec (g k).nData}
    {K : ∀ k, Mat (g k).nData (g k).nData} (hN : ∀ k, IsNoise (g k) (hp k) (N k)) (hK : ∀ k, IsKern (g k) (hp k) (K k)) {X : Arr2}
    (hX : ∀ k, X.c = (g k).dim) (p : Fin X.r) {t : ℝ}
    (hd : ∀ ε > 0, ∀ m : ℕ, ∀ᶠ k in l, ∃ S : Finset (Fin (g k).nData), m ≤ S.card ∧ ∀ q ∈ S, (q : ℕ) < (g k).nEval ∧
      tau (g k) (K k) (N k) (st k).etaK q ≤ t ∧ 1 - ε ≤ gpKern (g k) (hp k) (X.get p) ((g k).x.get q))
    {cg : T → Bool} {out : ∀ k, EvalOut X.r (g k).dim} (ho : ∀ k, evalModel (g k) (st k) (hp k) X (cg k) false = .ok (out k)) :
    Tendsto (fun k => (out k).sig p) l (𝓝 0) := by
  have hXr : 0 < X.r := p.pos
  have hsig : ∀ k, 0 ≤ (out k).sig p := by
    intro k
    obtain ⟨N₀, K₀, hs, -⟩ := ready_setup (hr k) (hst k)
    obtain ⟨o, ho', -, hsg⟩ := ready_vals (hr k) hs (hF k) (hX k) hXr (cg k)
    obtain rfl := Except.ok.inj ((ho k).symm.trans ho')
    rw [hsg]
    exact mul_nonneg (Real.sqrt_nonneg _) (Real.sqrt_nonneg _)
  rw [Metric.tendsto_nhds]
  intro δ hδ
  have hV0 : 0 < max V 1 := lt_of_lt_of_le one_pos (le_max_right _ _)
  filter_upwards [relative_certain hr hst hF hN hK hX p hd ho (δ := δ ^ 2 / (2 * max V 1)) (by positivity)] with k hk
  have h4 : (out k).sig p ^ 2 < δ ^ 2 := by
    calc (out k).sig p ^ 2 ≤ v k * (δ ^ 2 / (2 * max V 1)) := hk
      _ ≤ max V 1 * (δ ^ 2 / (2 * max V 1)) := mul_le_mul_of_nonneg_right ((hV k).trans (le_max_left _ _)) (by positivity)
      _ = δ ^ 2 / 2 := by field_simp
      _ < δ ^ 2 := by linarith [pow_pos hδ 2]
  rw [Real.dist_eq, sub_zero, abs_of_nonneg (hsig k)]
  exact lt_of_pow_lt_pow_left₀ 2 hδ.le h4

/-- **C127** Consistency: let `h` be a function whose deviation from the prior mean has bounded norm in the native space of the kernel, and
let the data be its values and partial derivatives. As the evaluated points accumulate at `x` (as in C126), the predicted mean at `x`
tends to `h(x)`, whatever noise level and nugget the model assumes. -/
theorem C127_consistent {T : Type*} {l : Filter T} {g : T → Gp} {hp : T → HpVals} {v β : T → ℝ} (hr : ∀ k, ReadyV (g k) (hp k) (v k) (β k))
    {cc : T → Bool} {st : ∀ k, EvalState (g k).nData}
    (hst : ∀ k, setupEvalModel (g k) (hp k) (cc k) = .ok (st k)) (hF : ∀ k, (st k).chofac ≠ none) {N : ∀ k, Vec (g k).nData}
    {K : ∀ k, Mat (g k).nData (g k).nData} (hN : ∀ k, IsNoise (g k) (hp k) (N k)) (hK : ∀ k, IsKern (g k) (hp k) (K k)) {X : Arr2}
    (hX : ∀ k, X.c = (g k).dim) (p : Fin X.r) {t : ℝ}
    (hd : ∀ ε > 0, ∀ m : ℕ, ∀ᶠ k in l, ∃ S : Finset (Fin (g k).nData), m ≤ S.card ∧ ∀ q ∈ S, (q : ℕ) < (g k).nEval ∧
      tau (g k) (K k) (N k) (st k).etaK q ≤ t ∧ 1 - ε ≤ gpKern (g k) (hp k) (X.get p) ((g k).x.get q))
    {h : Pt → ℝ} {B : ℝ} (hB : ∀ k, NormLe (gpKern (g k) (hp k)) (fun x => h x - β k) B) (hobs : ∀ k, Observes (g k) h fun _ => 0)
    {cg : T → Bool} {out : ∀ k, EvalOut X.r (g k).dim} (ho : ∀ k, evalModel (g k) (st k) (hp k) X (cg k) false = .ok (out k)) :
    Tendsto (fun k => (out k).mu p) l (𝓝 (h (X.get p))) := by
  rw [Metric.tendsto_nhds]
  intro δ hδ
  filter_upwards [relative_certain hr hst hF hN hK hX p hd ho (δ := δ ^ 2 / (2 * (B ^ 2 + 1))) (by positivity)] with k hk
  obtain ⟨o, ho', h1⟩ := C122_exact (hr k) (hst k) (hF k) (hB k) (hobs k) (hX k) p.pos (cg k)
  obtain rfl := Except.ok.inj ((ho k).symm.trans ho')
  have hv := (hr k).vpos
  have h2 : (h (X.get p) - (out k).mu p) ^ 2 ≤ B ^ 2 * (δ ^ 2 / (2 * (B ^ 2 + 1))) := by
    refine le_of_mul_le_mul_left ?_ hv
    calc v k * (h (X.get p) - (out k).mu p) ^ 2 ≤ B ^ 2 * (out k).sig p ^ 2 := h1 p
      _ ≤ B ^ 2 * (v k * (δ ^ 2 / (2 * (B ^ 2 + 1)))) := mul_le_mul_of_nonneg_left hk (sq_nonneg _)
      _ = _ := by ring
  have h3 : B ^ 2 * (δ ^ 2 / (2 * (B ^ 2 + 1))) < δ ^ 2 := by
    have : B ^ 2 * (δ ^ 2 / (2 * (B ^ 2 + 1))) = δ ^ 2 * (B ^ 2 / (2 * (B ^ 2 + 1))) := by ring
    rw [this]
    have h4 : B ^ 2 / (2 * (B ^ 2 + 1)) < 1 := by rw [div_lt_one (by positivity)]; nlinarith [sq_nonneg B]
    nlinarith [pow_pos hδ 2]
  rw [Real.dist_eq, abs_sub_comm]
  refine lt_of_pow_lt_pow_left₀ 2 hδ.le ?_
  rw [sq_abs]
  exact h2.trans_lt h3

/-- **C128** No data set removes more uncertainty than its noise permits: `σ(x)² ≥ v / (1 + ∑ k_i(x)² / τ_i)`, with `k_i(x)` the correlation of
datum `i` (a value or a partial derivative) with the value at `x` and `τ_i` the noise variance and nugget added for it. -/
theorem C128_floor {g : Gp} {hp : HpVals} {v β : ℝ} (hr : ReadyV g hp v β) {cc : Bool} {st : EvalState g.nData}
    (hst : setupEvalModel g hp cc = .ok st) (hF : st.chofac ≠ none) {N : Vec g.nData} {K : Mat g.nData g.nData} (hN : IsNoise g hp N)
    (hK : IsKern g hp K) (hτ : ∀ q, 0 < tau g K N st.etaK q) {X : Arr2} (hX : X.c = g.dim) (hXr : 0 < X.r) (cg : Bool) :
    ∃ out : EvalOut X.r g.dim, evalModel g st hp X cg false = .ok out ∧ ∀ (p : Fin X.r) (k : Vec g.nData), IsCross g hp (X.get p) k →
      v / (1 + ∑ q, k q ^ 2 / tau g K N st.etaK q) ≤ out.sig p ^ 2 := by
  obtain ⟨N₀, K₀, hs, -⟩ := ready_setup hr hst
  obtain ⟨rfl, rfl, hcov, -⟩ := cov_tau hr hs hN hK
  have hpd := ready_pd hs hF
  obtain ⟨out, ho, -, hsg⟩ := ready_vals hr hs hF hX hXr cg
  refine ⟨out, ho, fun p k hk => ?_⟩
  rw [hsg, sgF_sq hr hs hF, isCross_eq hr.ok hr.adm hk]
  have := mul_le_mul_of_nonneg_left (s2_floor hr.ok hr.adm hK hτ hcov hpd (X.get p)) hr.vpos.le
  rwa [mul_one_div] at this

/-- **C128** With `n` values and no gradients, each with at least the noise variance and nugget `t`: `σ(x)² ≥ v t / (t + n)` everywhere. -/
theorem C128_values {g : Gp} {hp : HpVals} {v β : ℝ} (hr : ReadyV g hp v β) (hg : g.useGrad = false) {cc : Bool} {st : EvalState g.nData}
    (hst : setupEvalModel g hp cc = .ok st) (hF : st.chofac ≠ none) {N : Vec g.nData} {K : Mat g.nData g.nData} (hN : IsNoise g hp N)
    (hK : IsKern g hp K) {t : ℝ} (ht : 0 < t) (hτ : ∀ q, t ≤ tau g K N st.etaK q) {X : Arr2} (hX : X.c = g.dim) (hXr : 0 < X.r) (cg : Bool) :
    ∃ out : EvalOut X.r g.dim, evalModel g st hp X cg false = .ok out ∧ ∀ p : Fin X.r, v * (t / (t + g.nEval)) ≤ out.sig p ^ 2 := by
  obtain ⟨out, ho, h⟩ := C128_floor hr hst hF hN hK (fun q => ht.trans_le (hτ q)) hX hXr cg
  refine ⟨out, ho, fun p => ?_⟩
  refine le_trans ?_ (h p _ (kv_isCross hr.adm (X.get p)))
  have hn : g.nData = g.nEval := by rw [hr.ok.nData, hr.ok.nGrad, hg]; simp
  have hk : ∀ q : Fin g.nData, kv g hp (X.get p) q ^ 2 ≤ 1 := by
    intro q
    have h1 : (q : ℕ) < g.nEval := lt_of_lt_of_eq q.2 hn
    have d2 : dco g q = none := by unfold dco; rw [dIx_val h1]; rfl
    unfold kv
    rw [d2]
    simp only [radKG]
    set r := ssq g.dim (thF hp) (fun d => dpt g q d - X.get p d) with hrr
    have hr0 : 0 ≤ r := Finset.sum_nonneg fun d hd => mul_nonneg (thF_pos hr.adm d (Finset.mem_range.mp hd)).le (sq_nonneg _)
    have a1 := prφ_le_one g.kernel (alphaOf_pos hr.adm.kernel) hr0
    have a2 := (prφ_pos g.kernel (alphaOf_pos hr.adm.kernel) hr0).le
    exact pow_le_one₀ a2 a1
  have hsum : ∑ q, kv g hp (X.get p) q ^ 2 / tau g K N st.etaK q ≤ g.nEval / t := by
    calc ∑ q, kv g hp (X.get p) q ^ 2 / tau g K N st.etaK q ≤ ∑ _q : Fin g.nData, 1 / t :=
          Finset.sum_le_sum fun q _ => div_le_div₀ zero_le_one (hk q) ht (hτ q)
      _ = g.nEval / t := by rw [Finset.sum_const, Finset.card_univ, Fintype.card_fin, hn, nsmul_eq_mul, mul_one_div]
  have h0 : 0 ≤ ∑ q, kv g hp (X.get p) q ^ 2 / tau g K N st.etaK q :=
    Finset.sum_nonneg fun q _ => div_nonneg (sq_nonneg _) (ht.le.trans (hτ q))
  have e : v * (t / (t + g.nEval)) = v / (1 + g.nEval / t) := by field_simp
  rw [e]
  exact div_le_div_of_nonneg_left hr.vpos.le (by positivity) (by linarith)

/-- `k + 1` noisy evaluations of a function, at points that accumulate at the origin. -/
def exGpSeq (h : Pt → ℝ) (k : ℕ) : Gp := { exGpQuiet with
  nEval := k + 1
  nData := k + 1
  o := { exGp.o with precon := false, etaConst := true, etaK := 1 / 100 }
  fvalZero := false
  noisy := true
  x := ⟨k + 1, 2, fun p _ => 1 / ((p : ℝ) + 1)⟩
  fval := ⟨k + 1, fun p => h fun _ => 1 / ((p : ℝ) + 1)⟩
  stdFval := some ⟨k + 1, fun _ => 1 / 10⟩ }

theorem exReadySeq (h : Pt → ℝ) (k : ℕ) : Ready (exGpSeq h k) exHpQuiet 3 4 where
  ok := by
    constructor
    all_goals first
      | rfl
      | exact fun _ => rfl
      | exact fun _ => ⟨_, rfl, rfl⟩
      | (simp [exGpSeq]; done)
      | (intro h; simp [exGpSeq, exGpQuiet, exGp] at h; done)
      | (intro _ h; simp [exGpSeq, exGpQuiet, exGp] at h; done)
  adm := ⟨⟨exTheta, rfl, rfl, exTheta_pos⟩, by intro h; simp [exGpSeq, exGpQuiet] at h, fun _ => rfl,
    by intro h; simp [exGpSeq, exGpQuiet, exGp] at h, by intro h; simp [exGpSeq, exGpQuiet] at h, by intro h; simp [exGpSeq, exGpQuiet] at h⟩
  noise := .inr rfl
  precon := by intro h; simp [exGpSeq] at h
  ne := by simp [exGpSeq]
  vpos := by norm_num
  varK := rfl
  beta := ⟨_, rfl, rfl, rfl⟩
  eta := by norm_num [exGpSeq]
  mask := by intro h; simp [exGpSeq, exGpQuiet] at h

/-- Its points accumulate at the origin. -/
theorem exSeq_near (h : Pt → ℝ) {st : ∀ k, EvalState (exGpSeq h k).nData}
    (hst : ∀ k, setupEvalModel (exGpSeq h k) exHpQuiet false = .ok (st k)) {N : ∀ k, Vec (exGpSeq h k).nData}
    {K : ∀ k, Mat (exGpSeq h k).nData (exGpSeq h k).nData} (hN : ∀ k, IsNoise (exGpSeq h k) exHpQuiet (N k)) (ε : ℝ) (hε : 0 < ε) (m : ℕ) :
    ∀ᶠ k in atTop, ∃ S : Finset (Fin (exGpSeq h k).nData), m ≤ S.card ∧ ∀ q ∈ S, (q : ℕ) < (exGpSeq h k).nEval ∧
      tau (exGpSeq h k) (K k) (N k) (st k).etaK q ≤ 1 / 50 ∧
      1 - ε ≤ gpKern (exGpSeq h k) exHpQuiet ((⟨1, 2, fun _ _ => 0⟩ : Arr2).get 0) ((exGpSeq h k).x.get q) := by
  have hlim : Tendsto (fun q : ℕ => gpKern exGpQuiet exHpQuiet (fun _ => 0) (fun _ => 1 / ((q : ℝ) + 1))) atTop (𝓝 1) := by
    have h1 : ∀ q : ℕ, gpKern exGpQuiet exHpQuiet (fun _ => 0) (fun _ => 1 / ((q : ℝ) + 1)) =
        Real.exp (-∑ d ∈ Finset.range 2, exTheta.get d * (0 - 1 / ((q : ℝ) + 1)) ^ 2) := fun _ => rfl
    simp only [h1]
    have h2 := tendsto_one_div_add_atTop_nhds_zero_nat (𝕜 := ℝ)
    have h3 : Continuous fun u : ℝ => Real.exp (-∑ d ∈ Finset.range 2, exTheta.get d * (0 - u) ^ 2) := by fun_prop
    have h4 := (h3.tendsto 0).comp h2
    rw [show Real.exp (-∑ d ∈ Finset.range 2, exTheta.get d * (0 - (0 : ℝ)) ^ 2) = 1 by simp] at h4
    exact h4
  obtain ⟨P, hP⟩ := eventually_atTop.mp (hlim.eventually (lt_mem_nhds (show 1 - ε < 1 by linarith)))
  filter_upwards [eventually_ge_atTop (P + m)] with k hk
  have hnd : (exGpSeq h k).nData = k + 1 := rfl
  refine ⟨Finset.univ.image fun i : Fin m => ⟨P + i, by rw [hnd]; omega⟩, ?_, ?_⟩
  · rw [Finset.card_image_of_injective]
    · simp
    · intro i j hij
      simp only [Fin.mk.injEq] at hij
      exact Fin.ext (by omega)
  · intro q hq
    obtain ⟨i, -, rfl⟩ := Finset.mem_image.mp hq
    refine ⟨?_, ?_, (hP (P + i) (by omega)).le⟩
    · show P + (i : ℕ) < k + 1
      omega
    · obtain ⟨A, hA, hNA⟩ := hN k
      obtain ⟨N₀, K₀, hs, -⟩ := ready_setup (exReadySeq h k).toV (hst k)
      have h1 := hA.val (P + i) (show P + (i : ℕ) < k + 1 by omega)
      have h2 := hs.etaConst rfl
      unfold tau
      rw [hNA, h1, h2]
      norm_num [exGpSeq, valVar, exGpQuiet, exGp]

/-- The hypotheses of C126 and C127 are met: predictions at the origin from more and more data of `4 + κ(z, ·)` with `z = (5, 5)`. -/
example : ∃ (h : Pt → ℝ) (st : ∀ k, EvalState (exGpSeq h k).nData) (out : ∀ k, EvalOut 1 (exGpSeq h k).dim), h (fun _ => 0) ≠ 4 ∧
    (∀ k, setupEvalModel (exGpSeq h k) exHpQuiet false = .ok (st k)) ∧
    (∀ k, evalModel (exGpSeq h k) (st k) exHpQuiet ⟨1, 2, fun _ _ => 0⟩ true false = .ok (out k)) ∧
    Tendsto (fun k => (out k).sig 0) atTop (𝓝 0) ∧ Tendsto (fun k => (out k).mu 0) atTop (𝓝 (h fun _ => 0)) := by
  set h : Pt → ℝ := fun x => 4 + ∑ _j : Fin 1, 1 * gpKern exGpQuiet exHpQuiet (fun _ => 5) x with hh
  have hη : ∀ k, if (exGpSeq h k).o.etaConst then 0 < (exGpSeq h k).o.etaK else 1 < (exGpSeq h k).o.condMaxTarget := fun k => by
    norm_num [exGpSeq]
  choose st h1 h2 using fun k => ready_total (exReadySeq h k).toV (hη k)
  choose N K hs hN using fun k => ready_setup (exReadySeq h k).toV (h1 k)
  have hK : ∀ k, IsKern (exGpSeq h k) exHpQuiet (K k) := fun k => (hs k).isKern
  choose out ho _ using fun k => C126_average (exReadySeq h k).toV (h1 k) (h2 k) (hN k) (hK k) (X := ⟨1, 2, fun _ _ => 0⟩) rfl Nat.one_pos true
  refine ⟨h, st, out, ?_, h1, ho, ?_, ?_⟩
  · have h3 : 0 < gpKern exGpQuiet exHpQuiet (fun _ => 5) (fun _ => 0) := Real.exp_pos _
    simp only [hh, Finset.univ_unique, Finset.sum_singleton, one_mul]
    linarith
  · exact C126_certain (fun k => (exReadySeq h k).toV) (fun _ => le_rfl) h1 h2 hN hK (fun _ => rfl) 0 (exSeq_near h h1 hN) ho
  · refine C127_consistent (B := Real.sqrt (∑ _i : Fin 1, ∑ _j : Fin 1, 1 * 1 * gpKern exGpQuiet exHpQuiet (fun _ => 5) (fun _ => 5))) (fun k => (exReadySeq h k).toV) h1 h2 hN hK (fun _ => rfl) 0 (exSeq_near h h1 hN)
      (fun k => C122_sections (g := exGpSeq h k) (exReadySeq h k).adm (fun _ : Fin 1 => fun _ => 5) (fun _ => 1) 4) (fun k => ⟨?_, ?_⟩) ho
    · intro p _
      rw [add_zero]
      rfl
    · intro A hA
      cases hA

/-- The hypotheses of C128 are met: three evaluations with noise and a nugget. -/
example : ∃ (st : EvalState (exGpSeq (fun x => x 0) 2).nData) (out : EvalOut 1 2),
    setupEvalModel (exGpSeq (fun x => x 0) 2) exHpQuiet false = .ok st ∧
    evalModel (exGpSeq (fun x => x 0) 2) st exHpQuiet ⟨1, 2, fun _ _ => 0⟩ true false = .ok out ∧
    3 * ((1 / 50) / (1 / 50 + 3)) ≤ out.sig 0 ^ 2 := by
  set h : Pt → ℝ := fun x => x 0
  have hη : if (exGpSeq h 2).o.etaConst then 0 < (exGpSeq h 2).o.etaK else 1 < (exGpSeq h 2).o.condMaxTarget := by
    norm_num [exGpSeq]
  have hr := (exReadySeq h 2).toV
  obtain ⟨st, h1, h2⟩ := ready_total hr hη
  obtain ⟨N, K, hs, hN⟩ := ready_setup hr h1
  have hτ : ∀ q, 1 / 50 ≤ tau (exGpSeq h 2) K N st.etaK q := by
    intro q
    obtain ⟨A, hA, hNA⟩ := hN
    have h4 := hA.val q q.2
    have h5 := hs.etaConst rfl
    unfold tau
    rw [hNA, h4, h5]
    norm_num [exGpSeq, valVar, exGpQuiet, exGp]
  obtain ⟨out, k1, k2⟩ := C128_values hr rfl h1 h2 hN hs.isKern (by norm_num) hτ (X := ⟨1, 2, fun _ _ => 0⟩) rfl Nat.one_pos true
  have h6 := k2 0
  refine ⟨st, out, h1, k1, le_trans (le_of_eq ?_) h6⟩
  norm_num [exGpSeq]

end Props
