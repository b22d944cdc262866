import Verif.Props.Modulus

/-! Property C125: near an evaluated point predictions are certain up to its noise. -/

open Np Spec GP Matrix

noncomputable section

namespace GP

variable {g : Gp} {hp : HpVals}

/-- The relative variance at an evaluated point. -/
theorem s2_at_datum (hg : GpOk g) (hh : HpAdm g hp) {K M : Mat g.nData g.nData} (hK : IsKern g hp K) {d : Vec g.nData}
    (hM : M = K + diagonal d) (hpd : M.PosDef) (q : Fin g.nData) (hq : (q : ℕ) < g.nEval) (hd : 0 ≤ d q) :
    s2F g hp M (g.x.get q) ≤ d q / (1 + d q) := by
  have d1 : dpt g q = g.x.get q := by unfold dpt; rw [dIx_val hq]; rfl
  have d2 : dco g q = none := by unfold dco; rw [dIx_val hq]; rfl
  have hkk : ∀ x : Pt, radKG (prφ g.kernel (alphaOf g.kernel hp.kernel)) (prφ1 g.kernel (alphaOf g.kernel hp.kernel))
      (prφ2 g.kernel (alphaOf g.kernel hp.kernel)) g.dim (thF hp) (fun d => x d - x d) none none = 1 := by
    intro x
    simp only [radKG, sub_self]
    rw [show ssq g.dim (thF hp) (fun _ => 0) = 0 by simp [ssq]]
    exact Props.prφ_zero g.kernel _
  have hkq : kv g hp (g.x.get q) q = 1 := by
    unfold kv
    rw [d1, d2]
    exact hkk _
  have hKq : K q q = 1 := by
    rw [isKern_entry hg hh hK]
    unfold kk
    rw [d1, d2]
    exact hkk _
  have hMq : M q q = 1 + d q := by rw [hM, Matrix.add_apply, hKq, diagonal_apply_eq]
  have h1 := quad_ge hpd (kv g hp (g.x.get q)) (Pi.single q (1 / (1 + d q)))
  rw [single_dotProduct, hkq, single_dotProduct, mulVec_single] at h1
  simp only [Pi.smul_apply, col_apply, MulOpposite.smul_eq_mul_unop, MulOpposite.unop_op, hMq] at h1
  unfold s2F
  have hp1 : (1 + d q) ≠ 0 := by positivity
  have e : 2 * (1 / (1 + d q) * 1) - 1 / (1 + d q) * ((1 + d q) * (1 / (1 + d q))) = 1 / (1 + d q) := by field_simp; ring
  rw [e] at h1
  have e2 : d q / (1 + d q) = 1 - 1 / (1 + d q) := by field_simp; ring
  rw [e2]
  linarith

end GP

namespace Props

/-- **C125** Near an evaluated point predictions are certain up to its noise: with `τ` the noise variance and nugget added to the diagonal of the
kernel matrix for the value at the evaluated point `x_q`, the predicted standard deviation at any `x` is at most
`√(v τ / (1 + τ)) + √(2 v (1 - κ(x, x_q)))`, and so at the evaluated point itself at most `√(v τ / (1 + τ))`. -/
theorem C125_near_data {g : Gp} {hp : HpVals} {v β : ℝ} (hr : ReadyV g hp v β) {cc : Bool} {st : EvalState g.nData}
    (hst : setupEvalModel g hp cc = .ok st) (hF : st.chofac ≠ none) {N : Vec g.nData} {K : Mat g.nData g.nData} (hN : IsNoise g hp N)
    (hK : IsKern g hp K) {X : Arr2} (hX : X.c = g.dim) (hXr : 0 < X.r) (cg : Bool) :
    ∃ out : EvalOut X.r g.dim, evalModel g st hp X cg false = .ok out ∧ ∀ (p : Fin X.r) (q : Fin g.nData), (q : ℕ) < g.nEval →
      out.sig p ≤ Real.sqrt (v * (tau g K N st.etaK q / (1 + tau g K N st.etaK q))) +
        Real.sqrt (2 * v * (1 - gpKern g hp (X.get p) (g.x.get q))) ∧
      ((∀ d < g.dim, X.get p d = g.x.get q d) → out.sig p ≤ Real.sqrt (v * (tau g K N st.etaK q / (1 + tau g K N st.etaK q)))) := by
  obtain ⟨N₀, K₀, hs, -⟩ := ready_setup hr hst
  obtain ⟨rfl, rfl, hcov, hτ⟩ := cov_tau hr hs hN hK
  have hpd := ready_pd hs hF
  obtain ⟨out, ho, -, hsg⟩ := ready_vals hr hs hF hX hXr cg
  have main : ∀ (p : Fin X.r) (q : Fin g.nData), (q : ℕ) < g.nEval →
      out.sig p ≤ Real.sqrt (v * (tau g K N st.etaK q / (1 + tau g K N st.etaK q))) +
        Real.sqrt (2 * v * (1 - gpKern g hp (X.get p) (g.x.get q))) := by
    intro p q hq
    have hs2 := (s2_nonneg hr.ok hr.adm hs (hs.etaNonneg hr.eta) hpd (g.x.get q)).1
    have h1 := s2_at_datum hr.ok hr.adm hK hcov hpd q hq (hτ q)
    obtain ⟨hR, h2⟩ := s2_step hr.ok hr.adm hK hτ hcov hpd (g.x.get q) (X.get p) hs2
    have h3 : Real.sqrt (s2F g hp st.KernEta (X.get p)) ≤ Real.sqrt (s2F g hp st.KernEta (g.x.get q)) +
        Real.sqrt (2 - 2 * gpKern g hp (X.get p) (g.x.get q)) := by
      rw [← Real.sqrt_sq (add_nonneg (Real.sqrt_nonneg (s2F g hp st.KernEta (g.x.get q)))
        (Real.sqrt_nonneg (2 - 2 * gpKern g hp (X.get p) (g.x.get q))))]
      exact Real.sqrt_le_sqrt h2
    have h4 : Real.sqrt (2 * v * (1 - gpKern g hp (X.get p) (g.x.get q))) =
        Real.sqrt (2 - 2 * gpKern g hp (X.get p) (g.x.get q)) * Real.sqrt v := by
      rw [← Real.sqrt_mul hR]; congr 1; ring
    have h5 : Real.sqrt (s2F g hp st.KernEta (g.x.get q)) * Real.sqrt v ≤
        Real.sqrt (v * (tau g K N st.etaK q / (1 + tau g K N st.etaK q))) := by
      rw [← Real.sqrt_mul hs2, mul_comm]
      exact Real.sqrt_le_sqrt (mul_le_mul_of_nonneg_left h1 hr.vpos.le)
    have h6 := mul_le_mul_of_nonneg_right h3 (Real.sqrt_nonneg v)
    rw [hsg, h4]
    show Real.sqrt (s2F g hp st.KernEta (X.get p)) * Real.sqrt v ≤ _
    linarith
  refine ⟨out, ho, fun p q hq => ⟨main p q hq, fun hpq => ?_⟩⟩
  have h1 := main p q hq
  have h2 : gpKern g hp (X.get p) (g.x.get q) = 1 := by
    rw [gpKern_canon hr.adm]
    unfold radial
    have : wdist2 g.dim (thF hp) (X.get p) (g.x.get q) = 0 := by
      unfold wdist2
      refine Finset.sum_eq_zero fun d hd => ?_
      rw [hpq d (Finset.mem_range.mp hd)]; ring
    rw [this]
    exact prφ_zero g.kernel _
  rw [h2, sub_self, mul_zero, Real.sqrt_zero, add_zero] at h1
  exact h1

/-- The hypotheses are met: two points, one with a gradient, noise and a nugget; evaluated at the second of them. -/
example : ∃ (st : EvalState exGp.nData) (N : Vec exGp.nData) (K : Mat exGp.nData exGp.nData) (out : EvalOut 1 2),
    setupEvalModel exGp exHpB false = .ok st ∧ IsNoise exGp exHpB N ∧ IsKern exGp exHpB K ∧
    evalModel exGp st exHpB ⟨1, 2, fun _ => exX.get 1⟩ true false = .ok out ∧
    out.sig 0 ≤ Real.sqrt (3 * (tau exGp K N st.etaK ⟨1, by decide⟩ / (1 + tau exGp K N st.etaK ⟨1, by decide⟩))) := by
  have hη : if exGp.o.etaConst then 0 < exGp.o.etaK else 1 < exGp.o.condMaxTarget := by norm_num [exGp]
  have hr := exReady.toV
  obtain ⟨st, h1, h2⟩ := ready_total hr hη
  obtain ⟨N, K, hs, hN⟩ := ready_setup hr h1
  obtain ⟨out, k1, k2⟩ := C125_near_data hr h1 h2 hN hs.isKern (X := ⟨1, 2, fun _ => exX.get 1⟩) rfl Nat.one_pos true
  exact ⟨st, N, K, out, h1, hN, hs.isKern, k1, (k2 0 ⟨1, by decide⟩ (by decide : 1 < 2)).2 fun _ _ => rfl⟩

end Props
