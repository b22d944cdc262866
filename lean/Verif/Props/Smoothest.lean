import Verif.Props.Native

/-! Property C123: the mean is the best compromise between smoothness and fit. -/

open Np Spec GP Matrix

noncomputable section

namespace Props

/-- **C123** The mean is the best compromise between smoothness and fit. Weigh every datum by the noise variance and nugget `τ` the library
adds to the diagonal of the kernel matrix for it; data with `τ = 0` must be matched exactly. Then among all functions of the native
space of the kernel the mean has the smallest squared norm (of the difference from the prior mean) plus weighted sum of squared errors at the data, values and
partial derivatives alike, and any other function differs from the mean, at every point, by at most the predicted standard deviation (relative
to the prior one) times the square root of its excess. -/
theorem C123_smoothest {g : Gp} {hp : HpVals} {v β : ℝ} (hr : ReadyV g hp v β) {cc : Bool} {st : EvalState g.nData}
    (hst : setupEvalModel g hp cc = .ok st) (hF : st.chofac ≠ none) {N : Vec g.nData} {K : Mat g.nData g.nData} (hN : IsNoise g hp N)
    (hK : IsKern g hp K) : ∃ (m : Pt → ℝ) (B₀ : ℝ) (e₀ : ℕ → ℝ),
      (∀ (X : Arr2) (cg : Bool), X.c = g.dim → 0 < X.r → ∃ out : EvalOut X.r g.dim, evalModel g st hp X cg false = .ok out ∧
        ∀ p : Fin X.r, out.mu p = m (X.get p)) ∧
      NormLe (gpKern g hp) (fun x => m x - β) B₀ ∧ Observes g m e₀ ∧ (∀ q : Fin g.nData, tau g K N st.etaK q = 0 → e₀ q = 0) ∧
      ∀ (h : Pt → ℝ) (B : ℝ) (e : ℕ → ℝ), NormLe (gpKern g hp) (fun x => h x - β) B → Observes g h e →
        (∀ q : Fin g.nData, tau g K N st.etaK q = 0 → e q = 0) →
        B₀ ^ 2 + ∑ q : Fin g.nData, e₀ q ^ 2 / tau g K N st.etaK q ≤ B ^ 2 + ∑ q : Fin g.nData, e q ^ 2 / tau g K N st.etaK q ∧
        ∀ (X : Arr2) (cg : Bool) (out : EvalOut X.r g.dim), X.c = g.dim → 0 < X.r → evalModel g st hp X cg false = .ok out →
          ∀ p : Fin X.r, v * (h (X.get p) - out.mu p) ^ 2 ≤
            ((B ^ 2 + ∑ q : Fin g.nData, e q ^ 2 / tau g K N st.etaK q) - (B₀ ^ 2 + ∑ q : Fin g.nData, e₀ q ^ 2 / tau g K N st.etaK q)) *
              out.sig p ^ 2 := by
  obtain ⟨N₀, K₀, hs, -⟩ := ready_setup hr hst
  obtain ⟨rfl, rfl, hcov, hτ⟩ := cov_tau hr hs hN hK
  have hpd := ready_pd hs hF
  have hu : IsUnit st.KernEta.det := (posDef_detne hpd).isUnit
  set M := st.KernEta with hM
  set τ := tau g K N st.etaK with hτd
  set z := st.dataVec - priorMean g β with hz
  set w := M⁻¹ *ᵥ z with hw
  have hMw : M *ᵥ w = z := by rw [hw, mulVec_mulVec, mul_nonsing_inv _ hu, one_mulVec]
  obtain ⟨hq0, hnorm⟩ := comb_norm hr.ok hr.adm hK w
  set e₀ : ℕ → ℝ := fun q => if hq : q < g.nData then τ ⟨q, hq⟩ * w ⟨q, hq⟩ else 0 with he₀
  have he : ∀ q : Fin g.nData, e₀ q = τ q * w q := fun q => by simp only [he₀, q.2, dif_pos]
  have hKw : ∀ q, (K *ᵥ w) q = z q - τ q * w q := by
    intro q
    have := congrFun hMw q
    rw [hcov, add_mulVec] at this
    have h2 : (diagonal τ *ᵥ w) q = τ q * w q := by rw [mulVec_diagonal]
    have h3 : (K *ᵥ w) q + (diagonal τ *ᵥ w) q = z q := this
    linarith
  have hobs : Observes g (fun x => β + kv g hp x ⬝ᵥ w) e₀ := by
    refine comb_observes hr.ok hr.adm hK w β hs.data fun q => ?_
    rw [he, hKw q]
    show _ = st.dataVec q - priorMean g β q - (st.dataVec q - priorMean g β q - τ q * w q)
    ring
  have hJ : Real.sqrt (w ⬝ᵥ K *ᵥ w) ^ 2 + ∑ q : Fin g.nData, e₀ q ^ 2 / τ q = z ⬝ᵥ w := by
    rw [Real.sq_sqrt hq0]
    have e1 : ∑ q : Fin g.nData, e₀ q ^ 2 / τ q = ∑ q, w q * (τ q * w q) := by
      refine Finset.sum_congr rfl fun q _ => ?_
      rw [he]
      rcases (hτ q).eq_or_lt with h0 | h0
      · rw [← h0]; simp
      · field_simp
    rw [e1]
    simp only [dotProduct]
    rw [← Finset.sum_add_distrib]
    refine Finset.sum_congr rfl fun q _ => ?_
    rw [hKw q]; ring
  refine ⟨fun x => β + kv g hp x ⬝ᵥ w, Real.sqrt (w ⬝ᵥ K *ᵥ w), e₀, ?_, ?_, hobs, fun q hq => by rw [he, hq, zero_mul], ?_⟩
  · intro X cg hX hXr
    obtain ⟨out, ho, hmu, -⟩ := ready_vals hr hs hF hX hXr cg
    exact ⟨out, ho, fun p => by rw [hmu]; rfl⟩
  · simpa only [add_sub_cancel_left] using hnorm
  · intro h B e hB ho hz0
    have hs2 : ∀ x, 0 ≤ s2F g hp M x := fun x => (s2_nonneg hr.ok hr.adm hs (hs.etaNonneg hr.eta) hpd x).1
    have key := smooth_key hr.ok hr.adm hK hτ hcov hpd hB ho hz0 hs.data hs2
    rw [hJ]
    refine ⟨(key fun _ => 0).1, fun X cg out hX hXr hout p => ?_⟩
    obtain ⟨out', ho', hmu, hsg⟩ := ready_vals hr hs hF hX hXr cg
    rw [hout] at ho'
    cases ho'
    have h2 := (key (X.get p)).2
    rw [hmu, hsg]
    simp only [sgF_sq hr hs hF]
    calc _ ≤ v * ((B ^ 2 + ∑ q : Fin g.nData, e q ^ 2 / τ q - z ⬝ᵥ w) * s2F g hp M (X.get p)) :=
          mul_le_mul_of_nonneg_left h2 hr.vpos.le
      _ = _ := by rw [hM]; ring

/-- **C123** No other function does as well: a function for which the squared norm plus weighted errors is smallest is the mean (by
`C123_smoothest` there is one). -/
theorem C123_unique {g : Gp} {hp : HpVals} {v β : ℝ} (hr : ReadyV g hp v β) {cc : Bool} {st : EvalState g.nData}
    (hst : setupEvalModel g hp cc = .ok st) (hF : st.chofac ≠ none) {N : Vec g.nData} {K : Mat g.nData g.nData} (hN : IsNoise g hp N)
    (hK : IsKern g hp K) {h : Pt → ℝ} {B : ℝ} {e : ℕ → ℝ} (hB : NormLe (gpKern g hp) (fun x => h x - β) B) (ho : Observes g h e)
    (he : ∀ q : Fin g.nData, tau g K N st.etaK q = 0 → e q = 0)
    (hmin : ∀ (h' : Pt → ℝ) (B' : ℝ) (e' : ℕ → ℝ), NormLe (gpKern g hp) (fun x => h' x - β) B' → Observes g h' e' →
      (∀ q : Fin g.nData, tau g K N st.etaK q = 0 → e' q = 0) →
      B ^ 2 + ∑ q : Fin g.nData, e q ^ 2 / tau g K N st.etaK q ≤ B' ^ 2 + ∑ q : Fin g.nData, e' q ^ 2 / tau g K N st.etaK q)
    {X : Arr2} (hX : X.c = g.dim) (hXr : 0 < X.r) (cg : Bool) :
    ∃ out : EvalOut X.r g.dim, evalModel g st hp X cg false = .ok out ∧ ∀ p : Fin X.r, out.mu p = h (X.get p) := by
  obtain ⟨m, B₀, e₀, h1, h2, h3, h4, h5⟩ := C123_smoothest hr hst hF hN hK
  obtain ⟨out, ho', -⟩ := h1 X cg hX hXr
  refine ⟨out, ho', fun p => ?_⟩
  have k1 := (h5 h B e hB ho he).2 X cg out hX hXr ho' p
  have k2 := hmin m B₀ e₀ h2 h3 h4
  have k3 : v * (h (X.get p) - out.mu p) ^ 2 ≤ 0 := k1.trans (mul_nonpos_of_nonpos_of_nonneg (by linarith) (sq_nonneg _))
  have k4 : (h (X.get p) - out.mu p) ^ 2 = 0 := le_antisymm (by
    by_contra hn
    push Not at hn
    have := mul_pos hr.vpos hn
    linarith) (sq_nonneg _)
  have k5 : h (X.get p) - out.mu p = 0 := by simpa using k4
  linarith

/-- The hypotheses are met, with another function to compare with: a kernel section above the prior mean, whose values are off by `1/10`. -/
example : ∃ (g : Gp) (st : EvalState g.nData) (N : Vec g.nData) (K : Mat g.nData g.nData) (h : Pt → ℝ) (B : ℝ) (e : ℕ → ℝ),
    g.x = exGp.x ∧ g.useGrad = true ∧ e 0 ≠ 0 ∧ ReadyV g exHpB 3 4 ∧ setupEvalModel g exHpB false = .ok st ∧ st.chofac ≠ none ∧ IsNoise g exHpB N ∧
    IsKern g exHpB K ∧ NormLe (gpKern g exHpB) (fun x => h x - 4) B ∧ Observes g h e ∧ (∀ q : Fin g.nData, tau g K N st.etaK q = 0 → e q = 0) := by
  obtain ⟨f, G, hv, ho⟩ := sections_observed exReady.ok exReady.adm (m := 1) (fun _ _ => 5) (fun _ => 1) 4
  have hη : if exGp.o.etaConst then 0 < exGp.o.etaK else 1 < exGp.o.condMaxTarget := by norm_num [exGp]
  have hv' : ValuesOk exGp ⟨f.n, fun p => f.get p + 1 / 10⟩ G := hv
  have hr := withValues_readyV exReady.toV hv'
  obtain ⟨st, h1, h2⟩ := ready_total hr hη
  have hB := C122_sections exReady.adm (m := 1) (fun _ _ => 5) (fun _ => 1) 4
  have ho' : Observes (withValues exGp ⟨f.n, fun p => f.get p + 1 / 10⟩ G) (fun x => 4 + ∑ j : Fin 1, 1 * gpKern exGp exHpB (fun _ => 5) x)
      (fun q => if q < 2 then 1 / 10 else 0) := by
    refine ⟨fun p hp => ?_, fun A hA r hr i hi => ?_⟩
    · have hp' : p < 2 := hp
      show f.get p + 1 / 10 = _
      rw [if_pos hp', show f.get p = _ from ho.val p hp, add_zero]
      rfl
    · refine (ho.grad A hA r hr i hi).congr_deriv ?_
      rw [if_neg]
      show ¬ 2 + _ + _ < 2
      omega
  obtain ⟨N, K, hs, hN⟩ := ready_setup hr h1
  have hτ : ∀ q, 0 < tau _ K N st.etaK q := by
    intro q
    obtain ⟨A, a1, a2⟩ := hN
    have hn : 0 ≤ N q := by rw [a2]; exact NoiseSpec.nonneg hr.ok hr.adm a1 q
    have hd := hs.diag q
    refine add_pos_of_nonneg_of_pos hn (mul_pos (hs.etaPos hη) ?_)
    split_ifs <;> linarith
  exact ⟨_, st, N, K, _, _, _, rfl, rfl, by norm_num, hr, h1, h2, hN, hs.isKern, hB, ho', fun q hq => absurd hq (hτ q).ne'⟩

end Props
