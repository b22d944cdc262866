import Verif.Props.Smoothest

/-! Property C124: predictions vary no faster than the kernel. -/

open Np Spec GP Matrix

noncomputable section

namespace GP

variable {g : Gp} {hp : HpVals}

/-- The difference of two sections of the kernel, applied to a weighted sum of the value at `x` and the data. -/
theorem diff_form (hg : GpOk g) (hh : HpAdm g hp) {K : Mat g.nData g.nData} (hK : IsKern g hp K) (x x' : Pt) (u : Vec g.nData) :
    (u ⬝ᵥ (kv g hp x' - kv g hp x) + (gpKern g hp x' x - 1)) ^ 2 ≤
      (2 - 2 * gpKern g hp x' x) * (u ⬝ᵥ K *ᵥ u + 2 * (u ⬝ᵥ kv g hp x) + 1) := by
  have P := prProfile g.kernel (alphaOf_pos hh.kernel)
  have hθ : ∀ d < g.dim, 0 ≤ thF hp d := fun d hd => (thF_pos hh d hd).le
  have h0 := Props.C122_sections hh (m := 2) ![x', x] ![1, -1] 0
  have hself : ∀ a, gpKern g hp a a = 1 := fun a => by
    rw [gpKern_canon hh]
    unfold radial
    rw [wdist2_self]
    exact Props.prφ_zero g.kernel _
  have hsym : gpKern g hp x x' = gpKern g hp x' x := by
    rw [gpKern_canon hh]; unfold radial; rw [wdist2_comm]
  have hR : ∑ i : Fin 2, ∑ j : Fin 2, (![1, -1] : Fin 2 → ℝ) i * (![1, -1] : Fin 2 → ℝ) j *
      gpKern g hp ((![x', x] : Fin 2 → Pt) i) ((![x', x] : Fin 2 → Pt) j) = 2 - 2 * gpKern g hp x' x := by
    simp only [Fin.sum_univ_two, cons_val_zero, cons_val_one, hself, hsym]
    ring
  have hR0 : 0 ≤ 2 - 2 * gpKern g hp x' x := by
    rw [← hR, gpKern_canon hh]
    exact valPsd_pr g.kernel (alphaOf_pos hh.kernel) g.dim (thF hp) hθ 2 _ _
  rw [hR] at h0
  have h1 : NormLe (gpKern g hp) (fun a => gpKern g hp x' a - gpKern g hp x a) (Real.sqrt (2 - 2 * gpKern g hp x' x)) := by
    have e : (fun a => (0 + ∑ j : Fin 2, (![1, -1] : Fin 2 → ℝ) j * gpKern g hp ((![x', x] : Fin 2 → Pt) j) a) - 0) =
        fun a => gpKern g hp x' a - gpKern g hp x a := by
      funext a
      simp only [Fin.sum_univ_two, cons_val_zero, cons_val_one]
      ring
    rw [← e]
    exact h0
  have h2 := h1
  rw [gpKern_canon hh] at h2
  have key := norm_fnl P hθ h2 (g.nData + 1) (Fin.snoc (α := fun _ => Pt) (fun q : Fin g.nData => dpt g q) x)
    (Fin.snoc (α := fun _ => Option ℕ) (fun q : Fin g.nData => dco g q) none)
    (snocV (kv g hp x' - kv g hp x) (gpKern g hp x' x - 1)) (snocV u 1) (by
      intro a
      refine Fin.lastCases ?_ (fun q => ?_) a
      · intro _
        simp only [snocV_l, Fin.snoc_last]
        rw [← gpKern_canon hh, hself]
      · simp only [snocV_c, Fin.snoc_castSucc]
        intro hq
        have : ∀ b : Pt, kv g hp b q = radial (prφ g.kernel (alphaOf g.kernel hp.kernel)) g.dim (thF hp) b (dpt g q) := by
          intro b
          unfold kv
          rw [hq]
          show prφ _ _ (wdist2 g.dim (thF hp) (dpt g q) b) = prφ _ _ (wdist2 g.dim (thF hp) b (dpt g q))
          rw [wdist2_comm]
        show kv g hp x' q - kv g hp x q = _
        rw [this, this]) (by
      intro a
      refine Fin.lastCases ?_ (fun q => ?_) a
      · simp
      · simp only [snocV_c, Fin.snoc_castSucc]
        intro i hi
        have hi' : i < g.dim := dco_lt hg q i hi
        refine ⟨hi', ?_⟩
        have : ∀ b : Pt, HasDerivAt (fun t => radial (prφ g.kernel (alphaOf g.kernel hp.kernel)) g.dim (thF hp) b
            (Function.update (dpt g q) i t)) (kv g hp b q) (dpt g q i) := by
          intro b
          have h3 := radKG_isCov P hθ b (dpt g q) none (some i) (by simp) (by intro k hk; simp at hk; subst hk; exact hi')
          have h4 : kv g hp b q = radKG (prφ g.kernel (alphaOf g.kernel hp.kernel)) (prφ1 g.kernel (alphaOf g.kernel hp.kernel))
              (prφ2 g.kernel (alphaOf g.kernel hp.kernel)) g.dim (thF hp) (fun d => b d - dpt g q d) none (some i) := by
            unfold kv
            rw [show dco g q = some i from hi]
            exact radKG_symm (fun d => by ring) _ _
          rw [h4]
          exact h3
        exact (this x').sub (this x))
  rw [border_form hg hh hK x u 1] at key
  simp only [Fin.sum_univ_castSucc, snocV_c, snocV_l] at key
  rw [Real.sq_sqrt (by rw [← gpKern_canon hh]; exact hR0)] at key
  calc _ = (∑ q, u q * (kv g hp x' - kv g hp x) q + 1 * (gpKern g hp x' x - 1)) ^ 2 := by rw [one_mul]; rfl
    _ ≤ _ := key
    _ = _ := by rw [gpKern_canon hh]; ring

/-- The relative variance at one point bounds that at another. -/
theorem s2_step (hg : GpOk g) (hh : HpAdm g hp) {K M : Mat g.nData g.nData} (hK : IsKern g hp K) {d : Vec g.nData}
    (hd : ∀ i, 0 ≤ d i) (hM : M = K + diagonal d) (hpd : M.PosDef) (x x' : Pt) (hs : 0 ≤ s2F g hp M x) :
    0 ≤ 2 - 2 * gpKern g hp x' x ∧ s2F g hp M x' ≤ (Real.sqrt (s2F g hp M x) + Real.sqrt (2 - 2 * gpKern g hp x' x)) ^ 2 := by
  have hu : IsUnit M.det := (posDef_detne hpd).isUnit
  set k := kv g hp x with hk
  set k' := kv g hp x' with hk'
  set c := M⁻¹ *ᵥ k with hc
  have hMc : M *ᵥ c = k := by rw [hc, mulVec_mulVec, mul_nonsing_inv _ hu, one_mulVec]
  have h1 := diff_form hg hh hK x x' (-c)
  rw [← hk, ← hk'] at h1
  have hquad : c ⬝ᵥ k = c ⬝ᵥ K *ᵥ c + ∑ i, d i * c i ^ 2 := by
    conv_lhs => rw [← hMc]
    rw [hM, add_mulVec, dotProduct_add]
    congr 1
    simp only [dotProduct, mulVec_diagonal]
    exact Finset.sum_congr rfl fun i _ => by ring
  have h3 : 0 ≤ ∑ i, d i * c i ^ 2 := Finset.sum_nonneg fun i _ => mul_nonneg (hd i) (sq_nonneg _)
  have hs2 : s2F g hp M x = 1 - c ⬝ᵥ k := by unfold s2F; rw [← hk, ← hc, dotProduct_comm]
  have hKc : (-c) ⬝ᵥ K *ᵥ (-c) = c ⬝ᵥ K *ᵥ c := by rw [mulVec_neg, neg_dotProduct_neg]
  rw [hKc, neg_dotProduct, neg_dotProduct, dotProduct_sub] at h1
  set R := 2 - 2 * gpKern g hp x' x with hR
  set C := -(c ⬝ᵥ k' - c ⬝ᵥ k) + (gpKern g hp x' x - 1) with hC
  have hge := quad_ge hpd k' c
  rw [hMc] at hge
  have hR0 : 0 ≤ R := by
    have hθ : ∀ d < g.dim, 0 ≤ thF hp d := fun d hd => (thF_pos hh d hd).le
    have : gpKern g hp x' x ≤ 1 := by
      rw [gpKern_canon hh]
      exact Props.prφ_le_one g.kernel (alphaOf_pos hh.kernel) (wdist2_nonneg hθ x' x)
    rw [hR]; linarith
  refine ⟨hR0, ?_⟩
  have h4 : C ^ 2 ≤ R * s2F g hp M x := h1.trans (mul_le_mul_of_nonneg_left (by rw [hs2]; linarith) hR0)
  have h5 : s2F g hp M x' ≤ s2F g hp M x + R + 2 * C := by
    have e : s2F g hp M x' = 1 - k' ⬝ᵥ M⁻¹ *ᵥ k' := rfl
    rw [e, hs2, hC, hR]
    linarith
  have h6 : C ≤ Real.sqrt (s2F g hp M x) * Real.sqrt R := by
    rw [← Real.sqrt_mul hs]
    refine (le_abs_self C).trans ?_
    rw [← Real.sqrt_sq_eq_abs]
    exact Real.sqrt_le_sqrt (by rw [mul_comm]; exact h4)
  rw [add_sq, Real.sq_sqrt hs, Real.sq_sqrt hR0]
  linarith

end GP

namespace Props

/-- **C124** The predicted standard deviation varies no faster than the kernel: between two points it changes by at most the standard
deviation of the difference of the two values under the prior, `√(2 v (1 - κ(x, x')))`. -/
theorem C124_sigma {g : Gp} {hp : HpVals} {v β : ℝ} (hr : ReadyV g hp v β) {cc : Bool} {st : EvalState g.nData}
    (hst : setupEvalModel g hp cc = .ok st) (hF : st.chofac ≠ none) {X : Arr2} (hX : X.c = g.dim) (hXr : 0 < X.r) (cg : Bool) :
    ∃ out : EvalOut X.r g.dim, evalModel g st hp X cg false = .ok out ∧
      ∀ p q : Fin X.r, |out.sig p - out.sig q| ≤ Real.sqrt (2 * v * (1 - gpKern g hp (X.get p) (X.get q))) := by
  obtain ⟨N, K, hs, hN⟩ := ready_setup hr hst
  obtain ⟨-, -, hcov, hτ⟩ := cov_tau hr hs hN hs.isKern
  have hpd := ready_pd hs hF
  have hs2 : ∀ x, 0 ≤ s2F g hp st.KernEta x := fun x => (s2_nonneg hr.ok hr.adm hs (hs.etaNonneg hr.eta) hpd x).1
  obtain ⟨out, ho, -, hsg⟩ := ready_vals hr hs hF hX hXr cg
  have hsym : ∀ a b, gpKern g hp a b = gpKern g hp b a := fun a b => by
    rw [gpKern_canon hr.adm]; unfold radial; rw [wdist2_comm]
  have one : ∀ a b : Pt, sgF g hp st.KernEta v b - sgF g hp st.KernEta v a ≤ Real.sqrt (2 * v * (1 - gpKern g hp b a)) := by
    intro a b
    obtain ⟨hR, h1⟩ := s2_step hr.ok hr.adm hs.isKern hτ hcov hpd a b (hs2 a)
    have h2 : Real.sqrt (s2F g hp st.KernEta b) ≤ Real.sqrt (s2F g hp st.KernEta a) + Real.sqrt (2 - 2 * gpKern g hp b a) := by
      rw [← Real.sqrt_sq (add_nonneg (Real.sqrt_nonneg (s2F g hp st.KernEta a)) (Real.sqrt_nonneg (2 - 2 * gpKern g hp b a)))]
      exact Real.sqrt_le_sqrt h1
    have h3 : Real.sqrt (2 * v * (1 - gpKern g hp b a)) = Real.sqrt (2 - 2 * gpKern g hp b a) * Real.sqrt v := by
      rw [← Real.sqrt_mul hR]; congr 1; ring
    rw [h3]
    unfold sgF
    have := mul_le_mul_of_nonneg_right h2 (Real.sqrt_nonneg v)
    linarith
  refine ⟨out, ho, fun p q => ?_⟩
  rw [hsg, abs_le]
  have h1 := one (X.get p) (X.get q)
  rw [hsym] at h1
  exact ⟨by linarith, one (X.get q) (X.get p)⟩

/-- **C124** So does the mean, by at most `√(2 (1 - κ(x, x')))` times the size of the data: the square root of the sum of the squared
deviations of the data from the prior mean, each divided by the noise variance and nugget of the datum. -/
theorem C124_mean {g : Gp} {hp : HpVals} {v β : ℝ} (hr : ReadyV g hp v β) {cc : Bool} {st : EvalState g.nData}
    (hst : setupEvalModel g hp cc = .ok st) (hF : st.chofac ≠ none) {N : Vec g.nData} {K : Mat g.nData g.nData} (hN : IsNoise g hp N)
    (hK : IsKern g hp K) (hτ : ∀ q, 0 < tau g K N st.etaK q) {y : Vec g.nData} (hy : DataSpec g y)
    {X : Arr2} (hX : X.c = g.dim) (hXr : 0 < X.r) (cg : Bool) :
    ∃ out : EvalOut X.r g.dim, evalModel g st hp X cg false = .ok out ∧
      ∀ p q : Fin X.r, (out.mu p - out.mu q) ^ 2 ≤
        2 * (1 - gpKern g hp (X.get p) (X.get q)) * ∑ i, (y i - priorMean g β i) ^ 2 / tau g K N st.etaK i := by
  obtain ⟨m, B₀, e₀, h1, h2, h3, h4, h5⟩ := C123_smoothest hr hst hF hN hK
  obtain ⟨out, ho, hm⟩ := h1 X cg hX hXr
  refine ⟨out, ho, fun p q => ?_⟩
  have hself : ∀ a, gpKern g hp a a = 1 := fun a => by
    rw [gpKern_canon hr.adm]
    unfold radial
    rw [wdist2_self]
    exact prφ_zero g.kernel _
  have hsym : ∀ a b, gpKern g hp a b = gpKern g hp b a := fun a b => by
    rw [gpKern_canon hr.adm]; unfold radial; rw [wdist2_comm]
  -- the prior mean itself as the function to compare with
  set e : ℕ → ℝ := fun i => if hi : i < g.nData then y ⟨i, hi⟩ - priorMean g β ⟨i, hi⟩ else 0 with he
  have he' : ∀ i : Fin g.nData, e i = y i - priorMean g β i := fun i => by simp only [he, i.2, dif_pos]
  have hob : Observes g (fun _ => β) e := by
    have := comb_observes hr.ok hr.adm hK 0 β hy (e := e) (by intro i; rw [he', mulVec_zero]; simp)
    simpa using this
  have hJ := (h5 (fun _ => β) 0 e (by intro n x a; simp) hob (fun i hi => absurd hi (hτ i).ne')).1
  have hB : B₀ ^ 2 ≤ ∑ i, (y i - priorMean g β i) ^ 2 / tau g K N st.etaK i := by
    have h6 : 0 ≤ ∑ i : Fin g.nData, e₀ i ^ 2 / tau g K N st.etaK i := Finset.sum_nonneg fun i _ => div_nonneg (sq_nonneg _) (hτ i).le
    have h7 : ∑ i : Fin g.nData, e i ^ 2 / tau g K N st.etaK i = ∑ i, (y i - priorMean g β i) ^ 2 / tau g K N st.etaK i :=
      Finset.sum_congr rfl fun i _ => by rw [he']
    rw [h7] at hJ
    simp only [ne_eq, OfNat.ofNat_ne_zero, not_false_eq_true, zero_pow, zero_add] at hJ
    linarith
  have h8 := h2 2 ![X.get p, X.get q] ![1, -1]
  simp only [Fin.sum_univ_two, cons_val_zero, cons_val_one, hself, hsym (X.get q) (X.get p)] at h8
  rw [hm, hm]
  have hk : 0 ≤ 2 * (1 - gpKern g hp (X.get p) (X.get q)) := by
    have hθ : ∀ d < g.dim, 0 ≤ thF hp d := fun d hd => (thF_pos hr.adm d hd).le
    have : gpKern g hp (X.get p) (X.get q) ≤ 1 := by
      rw [gpKern_canon hr.adm]
      exact prφ_le_one g.kernel (alphaOf_pos hr.adm.kernel) (wdist2_nonneg hθ _ _)
    linarith
  calc (m (X.get p) - m (X.get q)) ^ 2 = (1 * (m (X.get p) - β) + -1 * (m (X.get q) - β)) ^ 2 := by ring
    _ ≤ _ := h8
    _ = 2 * (1 - gpKern g hp (X.get p) (X.get q)) * B₀ ^ 2 := by ring
    _ ≤ _ := mul_le_mul_of_nonneg_left hB hk

/-- The hypotheses are met: two points, one with a gradient, noise and a nugget; evaluated at two points. -/
example : ∃ (st : EvalState exGp.nData) (N : Vec exGp.nData) (K : Mat exGp.nData exGp.nData) (y : Vec exGp.nData) (out : EvalOut 2 2),
    setupEvalModel exGp exHpB false = .ok st ∧ IsNoise exGp exHpB N ∧ IsKern exGp exHpB K ∧ (∀ q, 0 < tau exGp K N st.etaK q) ∧ DataSpec exGp y ∧
    evalModel exGp st exHpB ⟨2, 2, fun p _ => p⟩ true false = .ok out ∧
    |out.sig 0 - out.sig 1| ≤ Real.sqrt (2 * 3 * (1 - gpKern exGp exHpB (fun _ => 0) (fun _ => 1))) ∧
    (out.mu 0 - out.mu 1) ^ 2 ≤ 2 * (1 - gpKern exGp exHpB (fun _ => 0) (fun _ => 1)) *
      ∑ i, (y i - priorMean exGp 4 i) ^ 2 / tau exGp K N st.etaK i := by
  have hη : if exGp.o.etaConst then 0 < exGp.o.etaK else 1 < exGp.o.condMaxTarget := by norm_num [exGp]
  have hr := exReady.toV
  obtain ⟨st, h1, h2⟩ := ready_total hr hη
  obtain ⟨N, K, hs, hN⟩ := ready_setup hr h1
  have hτ : ∀ q, 0 < tau exGp K N st.etaK q := by
    intro q
    obtain ⟨A, a1, a2⟩ := hN
    have hn : 0 ≤ N q := by rw [a2]; exact NoiseSpec.nonneg hr.ok hr.adm a1 q
    have hd := hs.diag q
    refine add_pos_of_nonneg_of_pos hn (mul_pos (hs.etaPos hη) ?_)
    split_ifs <;> linarith
  obtain ⟨out, k1, k2⟩ := C124_sigma hr h1 h2 (X := ⟨2, 2, fun p _ => p⟩) rfl Nat.two_pos true
  obtain ⟨out', k3, k4⟩ := C124_mean hr h1 h2 hN hs.isKern hτ hs.data (X := ⟨2, 2, fun p _ => p⟩) rfl Nat.two_pos true
  rw [k1] at k3
  cases k3
  have e0 : (fun _ : ℕ => ((0 : Fin 2) : ℕ) : ℕ → ℝ) = fun _ => 0 := by funext; simp
  have e1 : (fun _ : ℕ => ((1 : Fin 2) : ℕ) : ℕ → ℝ) = fun _ => 1 := by funext; simp
  refine ⟨st, N, K, _, out, h1, hN, hs.isKern, hτ, hs.data, k1, ?_, ?_⟩
  · have := k2 0 1
    simpa only [e0, e1] using this
  · have := k4 0 1
    simpa only [e0, e1] using this

end Props
