import Verif.Props.Eval
import Verif.Proofs.EvalDeriv

/-! Properties C39-C43: derivatives of predictions, `eval_model_var`, batches; and the noisy case of C36. -/

open Np Spec GP Matrix

noncomputable section

namespace GP

theorem moved_get_self (X : Arr2) (a i : ℕ) (t : ℝ) : (moved X a i t).get a = Function.update (X.get a) i t := by
  simp [moved]

theorem sgF_ne_iff {g : Gp} {hp : HpVals} {v β : ℝ} (hr : Ready g hp v β) {cc : Bool} {N : Vec g.nData} {K : Mat g.nData g.nData}
    {st : EvalState g.nData} (hs : SetupSpec g hp β cc N K st) (hF : st.chofac ≠ none) {x : Pt}
    (h : 0 < sgF g hp st.KernEta v x) : 0 < s2F g hp st.KernEta x := by
  by_contra hn
  have h0 : s2F g hp st.KernEta x = 0 :=
    le_antisymm (not_lt.mp hn) (s2_nonneg hr.ok hr.adm hs (hs.etaNonneg hr.eta) (ready_pd hs hF) x).1
  rw [sgF, h0, Real.sqrt_zero, zero_mul] at h
  exact lt_irrefl _ h

end GP

namespace Props

/-- **C39.** For every batch, point `a` and coordinate `i`: moving coordinate `i` of point `a` to `t`, `eval_model` returns
a mean `f t` at point `a`, with or without derivatives requested, and the gradient it returns at the original batch is
the derivative of `f`. All kernels, with or without gradients and masks. -/
theorem C39_mean_gradient {g : Gp} {hp : HpVals} {v β : ℝ} (hr : Ready g hp v β) {cc : Bool} {st : EvalState g.nData}
    (hst : setupEvalModel g hp cc = .ok st) (hF : st.chofac ≠ none) {X : Arr2} (hX : X.c = g.dim) (hXr : 0 < X.r) :
    ∃ out dmu, evalModel g st hp X true false = .ok out ∧ out.dmu = some dmu ∧
      ∀ (a : Fin X.r) (i : Fin g.dim), ∃ f : ℝ → ℝ,
        (∀ t cg, ∃ o, evalModel g st hp (moved X a i t) cg false = .ok o ∧ o.mu a = f t) ∧
        HasDerivAt f (dmu a i) (X.get a i) := by
  obtain ⟨N, K, hs, hN⟩ := ready_setup hr.toV hst
  refine ⟨_, _, ready_eval hr hs hF hX hXr true false noHess, rfl, fun a i => ?_⟩
  refine ⟨fun t => muF g hp (st.KernEta⁻¹ *ᵥ (st.dataVec - priorMean g β)) β (Function.update (X.get a) i t), fun t cg => ?_,
    muF_deriv hr.ok hr.adm _ β (X.get a) i.2⟩
  refine ⟨_, ready_eval hr hs hF (X := moved X a i t) hX hXr cg false noHess, ?_⟩
  show muF g hp _ β ((moved X a i t).get a) = _
  rw [moved_get_self]

/-- **C40.** As C39 for the standard deviation: where `σ > 0` the returned gradient is the derivative of the returned
`σ`; where `σ = 0` it is zero. -/
theorem C40_sigma_gradient {g : Gp} {hp : HpVals} {v β : ℝ} (hr : Ready g hp v β) {cc : Bool} {st : EvalState g.nData}
    (hst : setupEvalModel g hp cc = .ok st) (hF : st.chofac ≠ none) {X : Arr2} (hX : X.c = g.dim) (hXr : 0 < X.r) :
    ∃ out dsig, evalModel g st hp X true false = .ok out ∧ out.dsig = some dsig ∧
      ∀ (a : Fin X.r) (i : Fin g.dim),
        (out.sig a = 0 → dsig a i = 0) ∧
        ∃ f : ℝ → ℝ, (∀ t cg, ∃ o, evalModel g st hp (moved X a i t) cg false = .ok o ∧ o.sig a = f t) ∧
          (0 < out.sig a → HasDerivAt f (dsig a i) (X.get a i)) := by
  obtain ⟨N, K, hs, hN⟩ := ready_setup hr.toV hst
  refine ⟨_, _, ready_eval hr hs hF hX hXr true false noHess, rfl, fun a i => ⟨?_, ?_⟩⟩
  · intro h0
    have h0' : sgF g hp st.KernEta v (X.get a) = 0 := h0
    show dsgF g hp st.KernEta v (X.get a) i = 0
    rw [dsgF, h0']; simp
  · refine ⟨fun t => sgF g hp st.KernEta v (Function.update (X.get a) i t), fun t cg => ?_, fun hpos =>
      sgF_deriv hr.ok hr.adm (ready_pd hs hF) hr.vpos (X.get a) i.2 (sgF_ne_iff hr hs hF hpos)⟩
    refine ⟨_, ready_eval hr hs hF (X := moved X a i t) hX hXr cg false noHess, ?_⟩
    show sgF g hp st.KernEta v ((moved X a i t).get a) = _
    rw [moved_get_self]

/-- **C41 (part).** At a single point, when all points have gradients or none are used, and (Matérn kernel with gradients)
the point is at scaled distance 0 or at least `1e-16` from every data point, so that the regularised division of the code
is exact: the Hessian of the mean is the derivative of the gradient that `eval_model` returns, and so is, if `σ > 0`, that
of the standard deviation; if `σ = 0` the latter is NaN. Missing: several points (`C41_several_points_raise`), partial
gradient masks (`C41_partial_mask_raises`). -/
theorem C41_hessians_partial {g : Gp} {hp : HpVals} {v β : ℝ} (hr : Ready g hp v β) {cc : Bool} {st : EvalState g.nData}
    (hst : setupEvalModel g hp cc = .ok st) (hF : st.chofac ≠ none) {X : Arr2} (hX : X.c = g.dim) (hXr : X.r = 1)
    (hfull : g.useGrad = true → g.nGrad = g.nEval)
    (hsep : g.kernel = .matern → g.useGrad = true → ∀ p < g.nEval,
      wdist2 g.dim (hp.theta.getD ⟨0, fun _ => 0⟩).get (X.get 0) (g.x.get p) = 0 ∨
      (10 : ℝ) ^ (-16 : ℤ) ≤ Real.sqrt (wdist2 g.dim (hp.theta.getD ⟨0, fun _ => 0⟩).get (X.get 0) (g.x.get p))) :
    ∃ out H Hs, evalModel g st hp X true true = .ok out ∧ out.d2mu = some H ∧ out.d2sig = some Hs ∧
      (Hs = none ↔ ∀ a, out.sig a = 0) ∧
      ∀ (a : Fin X.r) (e i : Fin g.dim), ∃ f h : ℝ → ℝ,
        (∀ t, ∃ o dm ds, evalModel g st hp (moved X a e t) true false = .ok o ∧ o.dmu = some dm ∧ o.dsig = some ds ∧
          dm a i = f t ∧ ds a i = h t) ∧
        HasDerivAt f (H e i) (X.get a e) ∧
        (0 < out.sig a → ∃ S, Hs = some S ∧ HasDerivAt h (S e i) (X.get a e)) := by
  obtain ⟨N, K, hs, hN⟩ := ready_setup hr.toV hst
  have h0 : ∀ a : Fin X.r, (a : ℕ) = 0 := fun a => by omega
  refine ⟨_, _, _, ready_eval hr hs hF hX (by omega) true true (fun _ => ⟨rfl, hXr, hfull, hsep⟩), rfl, rfl, ?_, ?_⟩
  · constructor
    · intro h a
      show sgF g hp st.KernEta v (X.get a) = 0
      rw [h0 a]
      by_contra hne
      rw [if_neg hne] at h
      cases h
    · intro h
      have := h ⟨0, by omega⟩
      exact if_pos this
  · intro a e i
    have ha := h0 a
    refine ⟨fun t => dmuF g hp (st.KernEta⁻¹ *ᵥ (st.dataVec - priorMean g β)) (Function.update (X.get a) e t) i,
      fun t => dsgF g hp st.KernEta v (Function.update (X.get a) e t) i, fun t => ?_, ?_, fun hpos => ?_⟩
    · refine ⟨_, _, _, ready_eval hr hs hF (X := moved X a e t) hX (by show 0 < X.r; omega) true false noHess, rfl, rfl, ?_, ?_⟩
      · show dmuF g hp _ ((moved X a e t).get a) i = _
        rw [moved_get_self]
      · show dsgF g hp st.KernEta v ((moved X a e t).get a) i = _
        rw [moved_get_self]
    · have := dmuF_deriv hr.ok hr.adm (st.KernEta⁻¹ *ᵥ (st.dataVec - priorMean g β)) (X.get a) e.2 i.2
      rw [ha] at this ⊢
      exact this
    · have hpos' : 0 < sgF g hp st.KernEta v (X.get a) := hpos
      have hd := dsgF_deriv hr.ok hr.adm (ready_pd hs hF) hr.vpos (X.get a) e.2 i.2 (sgF_ne_iff hr hs hF hpos')
      refine ⟨of fun e i => d2sgF g hp st.KernEta v (X.get 0) e i, if_neg (by rw [ha] at hpos'; exact hpos'.ne'), ?_⟩
      rw [ha] at hd ⊢
      exact hd

/-- **C42.** `eval_model_var` returns the square of the standard deviation that `eval_model` returns at each point, and
its gradient is the derivative of that variance. (It returns neither means nor covariances between points.) -/
theorem C42_eval_model_var {g : Gp} {hp : HpVals} {v β : ℝ} (hr : Ready g hp v β) {cc : Bool} {st : EvalState g.nData}
    (hst : setupEvalModel g hp cc = .ok st) (hF : st.chofac ≠ none) {X : Arr2} (hX : X.c = g.dim) (hXr : 0 < X.r) :
    ∃ ov out d, evalModelVar g st hp X true false = .ok ov ∧ evalModel g st hp X true false = .ok out ∧ ov.dsig2 = some d ∧
      (∃ ov', evalModelVar g st hp X false false = .ok ov' ∧ ov'.sig2 = ov.sig2 ∧ ov'.dsig2 = none) ∧
      (∀ a, ov.sig2 a = out.sig a ^ 2) ∧
      ∀ (a : Fin X.r) (i : Fin g.dim), ∃ f : ℝ → ℝ,
        (∀ t cg, ∃ o, evalModelVar g st hp (moved X a i t) cg false = .ok o ∧ o.sig2 a = f t) ∧
        HasDerivAt f (d a i) (X.get a i) := by
  obtain ⟨N, K, hs, hN⟩ := ready_setup hr.toV hst
  obtain ⟨F, hF'⟩ := Option.ne_none_iff_exists'.mp hF
  obtain ⟨b, hb, hbn, hbβ⟩ := hr.beta
  have hs' := hs
  rw [← hbβ] at hs'
  have hV : ∀ (Y : Arr2), Y.c = g.dim → 0 < Y.r → ∀ cg, _ := fun Y hY hYr cg =>
    evalModelVar_ok hr.ok hr.adm hr.vpos hr.varK hb hbn hs' (hs.etaNonneg hr.eta) hF' hY hYr hr.mask cg
  refine ⟨_, _, _, hV X hX hXr true, ready_eval hr hs hF hX hXr true false noHess, rfl, ⟨_, hV X hX hXr false, rfl, rfl⟩, ?_, ?_⟩
  · intro a
    exact (sgF_sq hr.toV hs hF (X.get a)).symm
  · intro a i
    refine ⟨fun t => v * s2F g hp st.KernEta (Function.update (X.get a) i t), fun t cg => ?_, ?_⟩
    · refine ⟨_, hV (moved X a i t) hX hXr cg, ?_⟩
      show v * s2F g hp st.KernEta ((moved X a i t).get a) = _
      rw [moved_get_self]
    · refine ((s2F_deriv hr.ok hr.adm (ready_pd hs hF) (X.get a) i.2).const_mul v).congr_deriv ?_
      simp only [of_apply]
      ring

/-- **C43.** Evaluating any batch returns, for each of its points, what evaluating that point alone returns: mean,
standard deviation and their gradients. -/
theorem C43_batch_is_pointwise {g : Gp} {hp : HpVals} {v β : ℝ} (hr : Ready g hp v β) {cc : Bool} {st : EvalState g.nData}
    (hst : setupEvalModel g hp cc = .ok st) (hF : st.chofac ≠ none) {X : Arr2} (hX : X.c = g.dim) (hXr : 0 < X.r) (a : Fin X.r)
    {x : Arr2} (hx : x.r = 1) (hxc : x.c = g.dim) (hxa : ∀ d < g.dim, x.get 0 d = X.get a d) :
    ∃ out o dmu dm dsig ds, evalModel g st hp X true false = .ok out ∧ evalModel g st hp x true false = .ok o ∧
      out.dmu = some dmu ∧ o.dmu = some dm ∧ out.dsig = some dsig ∧ o.dsig = some ds ∧
      ∀ b : Fin x.r, o.mu b = out.mu a ∧ o.sig b = out.sig a ∧ ∀ i, dm b i = dmu a i ∧ ds b i = dsig a i := by
  obtain ⟨N, K, hs, hN⟩ := ready_setup hr.toV hst
  refine ⟨_, _, _, _, _, _, ready_eval hr hs hF hX hXr true false noHess, ready_eval hr hs hF hxc (by omega) true false noHess,
    rfl, rfl, rfl, rfl, fun b => ?_⟩
  have hb : (b : ℕ) = 0 := by omega
  have hkv : kv g hp (x.get b) = kv g hp (X.get a) := by
    funext q
    rw [hb]
    exact radKG_congr (fun d hd => by rw [hxa d hd]) (dco_lt hr.ok q) (by simp)
  have hkd : ∀ i < g.dim, kd g hp (x.get b) i = kd g hp (X.get a) i := by
    intro i hi
    funext q
    rw [hb]
    exact radKG_congr (fun d hd => by rw [hxa d hd]) (dco_lt hr.ok q) (by simpa using hi)
  have hsg : sgF g hp st.KernEta v (x.get b) = sgF g hp st.KernEta v (X.get a) := by unfold sgF s2F; rw [hkv]
  refine ⟨?_, hsg, fun i => ⟨?_, ?_⟩⟩
  · show muF g hp _ β (x.get b) = muF g hp _ β (X.get a)
    unfold muF; rw [hkv]
  · show dmuF g hp _ (x.get b) i = dmuF g hp _ (X.get a) i
    unfold dmuF; rw [hkd i i.2]
  · show dsgF g hp _ v (x.get b) i = dsgF g hp _ v (X.get a) i
    unfold dsgF; rw [hsg, hkd i i.2, hkv]

/-- **C36, the excluded case.** One data point without a gradient, evaluated there: with noise variance `n > 0` in the value
and prior variance `varK ≠ 1`, what `eval_model` returns is never the conditional distribution given the datum (the noise
enters the matrix that `setup_eval_model` builds without being divided by `varK`, while everything else is). -/
theorem C36_noisy_not_posterior {g : Gp} {hp : HpVals} {v β : ℝ} (hr : Ready g hp v β) (hn1 : g.nEval = 1)
    (hu : g.useGrad = false) {cc : Bool} {st : EvalState g.nData} (hst : setupEvalModel g hp cc = .ok st)
    (hF : st.chofac ≠ none) {N : Vec g.nData} (hN : IsNoise g hp N) (hpos : ∀ i, 0 < N i) (hv1 : v ≠ 1)
    {K : Mat g.nData g.nData} (hK : IsKern g hp K) {y : Vec g.nData} (hy : DataSpec g y) :
    ∃ out, evalModel g st hp g.x false false = .ok out ∧ ∀ (a : Fin g.x.r) k, IsCross g hp (g.x.get a) k →
      ¬ CondNormal (noisyCov g.o.precon v K N st.etaK) (v • k) v (priorMean g β) β y (out.mu a) (out.sig a ^ 2) := by
  have hx1 : g.x.r = 1 := by rw [hr.ok.x_r, hn1]
  have hnd : g.nData = 1 := by rw [hr.ok.nData, hn1, hr.ok.nGrad]; simp [hu]
  have hprec : g.o.precon = false := by
    cases h : g.o.precon with
    | false => rfl
    | true => have := hr.precon h; rw [hu] at this; cases this
  obtain ⟨out, h1, h2⟩ := C36_posterior_with_scaled_noise hr.toV hst hF (X := g.x) hr.ok.x_c (by omega) false
  obtain ⟨N', K', hs, hN'⟩ := ready_setup hr.toV hst
  obtain rfl := isNoise_unique hr.ok hN hN'
  obtain rfl := isKern_unique hr.ok hr.adm hK hs.isKern
  have hη := hs.etaNonneg hr.eta
  refine ⟨out, h1, fun a k hk hcn => ?_⟩
  have hsig : 0 < out.sig a := by
    have h0 := hcn.1
    obtain ⟨o', h1', h3⟩ := C37_variance_bounds hr.toV hst hF (X := g.x) hr.ok.x_c (by omega) false
    rw [h1] at h1'
    cases h1'
    rcases (h3 a).1.lt_or_eq with h | h
    · exact h
    · rw [← h] at h0; norm_num at h0
  have hcs := h2 N hN K hK y hy a k hk hsig
  -- everything is one-dimensional
  have hall : ∀ i j : Fin g.nData, i = j := fun i j => Fin.ext (by have := i.2; have := j.2; omega)
  have hq : ∀ q : Fin g.nData, (q : ℕ) = 0 := fun q => by have := q.2; omega
  let z : Fin g.nData := ⟨0, by omega⟩
  have ha0 : (a : ℕ) = 0 := by have := a.2; omega
  have hkz : k z = 1 := by
    obtain ⟨A, hA, hkA⟩ := hk
    rw [hkA, hA.val_val (z : ℕ) (by rw [hn1]; exact Nat.one_pos) 0 (by omega), ha0]
    rw [gpKern_canon hr.adm]
    show prφ _ _ (wdist2 _ _ (g.x.get 0) (g.x.get 0)) = 1
    rw [wdist2_self]; exact prφ_zero _ _
  have hKz : K z z = 1 := by
    rw [isKern_entry hr.ok hr.adm hK, kk]
    have e : dco g z = none := by simp [dco, dIx, z, hn1]
    rw [e]
    simp only [sub_self, radKG, ssq, ne_eq, OfNat.ofNat_ne_zero, not_false_eq_true, zero_pow, mul_zero, Finset.sum_const_zero]
    exact prφ_zero _ _
  have hone : ∀ (c : ℝ) (C : Mat g.nData g.nData), C z z = c → 0 < c → C.PosDef ∧ C⁻¹ z z = 1 / c := by
    intro c C hC hc
    have e : C = diagonal fun _ => c := by
      ext i j
      rw [hall i z, hall j z, hC, diagonal_apply_eq]
    have hpd : C.PosDef := by rw [e]; exact Matrix.PosDef.diagonal fun _ => hc
    have hu' : IsUnit C.det := (posDef_detne hpd).isUnit
    refine ⟨hpd, ?_⟩
    have := congrFun (congrFun (Matrix.mul_nonsing_inv C hu') z) z
    rw [mul_apply, Fintype.sum_eq_single z (fun j hj => absurd (hall j z) hj), hC, one_apply_eq] at this
    field_simp
    linarith
  have hsum : ∀ (u : Vec g.nData) (C : Mat g.nData g.nData), u ⬝ᵥ C *ᵥ u = u z * (C z z * u z) := by
    intro u C
    simp only [dotProduct, mulVec]
    rw [Fintype.sum_eq_single z (fun j hj => absurd (hall j z) hj), Fintype.sum_eq_single z (fun j hj => absurd (hall j z) hj)]
  have hNz := hpos z
  have hv := hr.vpos
  have hC1 : noisyCov g.o.precon v K N st.etaK z z = v + N z + st.etaK * v := by
    simp only [noisyCov, of_apply, hprec, if_true, hKz, Bool.false_eq_true, if_false]; ring
  have hC2 : noisyCov g.o.precon v K (v • N) st.etaK z z = v + v * N z + st.etaK * v := by
    simp only [noisyCov, of_apply, hprec, if_true, hKz, Bool.false_eq_true, if_false, Pi.smul_apply, smul_eq_mul]; ring
  have hev : 0 ≤ st.etaK * v := mul_nonneg hη hv.le
  have hvn : 0 < v * N z := mul_pos hv hNz
  obtain ⟨hp1, hi1⟩ := hone _ _ hC1 (by linarith)
  obtain ⟨hp2, hi2⟩ := hone _ _ hC2 (by linarith)
  have s1 : v - (v • k) ⬝ᵥ (noisyCov g.o.precon v K N st.etaK)⁻¹ *ᵥ (v • k) = v - v * v / (v + N z + st.etaK * v) := by
    rw [hsum, hi1, Pi.smul_apply, hkz, smul_eq_mul]; ring
  have s2 : v - (v • k) ⬝ᵥ (noisyCov g.o.precon v K (v • N) st.etaK)⁻¹ *ᵥ (v • k) = v - v * v / (v + v * N z + st.etaK * v) := by
    rw [hsum, hi2, Pi.smul_apply, hkz, smul_eq_mul]; ring
  have q1 : 0 < v - v * v / (v + N z + st.etaK * v) := by
    rw [sub_pos, div_lt_iff₀ (by linarith)]; nlinarith
  have q2 : 0 < v - v * v / (v + v * N z + st.etaK * v) := by
    rw [sub_pos, div_lt_iff₀ (by linarith)]; nlinarith
  have c1 := condNormal_of hp1 (k := v • k) (v := v) (by rw [s1]; exact q1) (priorMean g β) β y
  have c2 := condNormal_of hp2 (k := v • k) (v := v) (by rw [s2]; exact q2) (priorMean g β) β y
  have r1 := (condNormal_unique hcn c1).2
  have r2 := (condNormal_unique hcs c2).2
  rw [s1] at r1
  rw [s2] at r2
  rw [r1] at r2
  have hvv : 0 < v * v := mul_pos hv hv
  have : v + N z + st.etaK * v = v + v * N z + st.etaK * v := by
    have h3 : v * v / (v + N z + st.etaK * v) = v * v / (v + v * N z + st.etaK * v) := by linarith
    rw [div_eq_div_iff (by linarith) (by linarith)] at h3
    exact (mul_left_cancel₀ hvv.ne' h3).symm
  have h4 : (v - 1) * N z = 0 := by linarith
  rcases mul_eq_zero.mp h4 with h | h
  · exact hv1 (by linarith)
  · linarith

/-- **C41, an excluded case.** With gradients at only some of the data points, `eval_model` raises whenever Hessians are
requested (the second derivatives of the kernel are computed without the mask). -/
theorem C41_partial_mask_raises {g : Gp} {hp : HpVals} {v β : ℝ} (hr : Ready g hp v β) {cc : Bool} {st : EvalState g.nData}
    (hst : setupEvalModel g hp cc = .ok st) (hF : st.chofac ≠ none) {X : Arr2} (hX : X.c = g.dim) (hXr : X.r = 1)
    (hu : g.useGrad = true) (hpart : g.nGrad < g.nEval) (hdim : 0 < g.dim) :
    evalModel g st hp X true true = .error .shape := by
  obtain ⟨N, K, hs, hN⟩ := ready_setup hr.toV hst
  obtain ⟨F, hF'⟩ := Option.ne_none_iff_exists'.mp hF
  obtain ⟨b, hb, hbn, rfl⟩ := hr.beta
  exact evalModel_partial_mask hr.ok hr.adm hr.varK hb hbn hs (hs.etaNonneg hr.eta) hF' hX hXr hr.mask hu hpart hdim

/-- **C41, an excluded case.** Hessians at two or more points in one call always raise: the code asserts one point per call,
although the documentation of `eval_model` promises Hessians at the rows of the input. -/
theorem C41_several_points_raise {g : Gp} {hp : HpVals} {v β : ℝ} (hr : Ready g hp v β) {cc : Bool} {st : EvalState g.nData}
    (hst : setupEvalModel g hp cc = .ok st) (hF : st.chofac ≠ none) {X : Arr2} (hX : X.c = g.dim) (hXr : 2 ≤ X.r)
    (hdim : 0 < g.dim) :
    evalModel g st hp X true true = .error .assertion := by
  obtain ⟨N, K, hs, hN⟩ := ready_setup hr.toV hst
  obtain ⟨F, hF'⟩ := Option.ne_none_iff_exists'.mp hF
  obtain ⟨b, hb, hbn, rfl⟩ := hr.beta
  exact evalModel_several hr.ok hr.adm hr.varK hb hbn hs (hs.etaNonneg hr.eta) hF' hX hXr hr.mask hdim

/-- **C36, an excluded case.** With the rational quadratic kernel and gradients at some but not all of the points (at least
two, or none), `eval_model` always raises: the cross-covariances cannot be computed with a mask for one of the two point sets. -/
theorem C36_ratQuad_mask_raises {g : Gp} (hg : GpOk g) {hp : HpVals} (hh : HpAdm g hp) (hk : g.kernel = .ratQuad)
    (hu : g.useGrad = true) {m : List Bool} (hm : g.bvec = some m) (h2 : nTrue m ≠ 1) (hr : g.nEval ≠ 1) (hpart : nTrue m < g.nEval) (hdim : 0 < g.dim)
    {st : EvalState g.nData} (hF : st.chofac ≠ none) (hst : st.hp = hp) {b : Arr1} (hb : hp.beta = some b) {v : ℝ}
    (hv : hp.varK = some v) {X : Arr2} (hX : X.c = g.dim) (cg : Bool) :
    evalModel g st hp X cg false = .error .shape := by
  obtain ⟨F, hF⟩ := Option.ne_none_iff_exists'.mp hF
  obtain ⟨th, ht, hn, -⟩ := hh.theta
  obtain ⟨α, -, hα⟩ := hh.kernel hk
  obtain ⟨R, hR, hA⟩ := C04_ratQuad_mask1_only_broken g.x X (by rw [hg.x_c, hX]) th (by rw [hn, hg.x_c]) (by rw [hg.x_c]; exact hdim)
    α m (by rw [hg.x_r]; exact hg.mask m hm) h2 (by rw [hg.x_r]; exact hpart) (by rw [hg.x_r]; exact hr)
  have hc : crossKern g hp X cg = .error .shape := by
    unfold crossKern
    rw [ht]
    simp only [need, ok_bind, hR, hu, Bool.true_or, if_true, hk, hα, hm, hA]
    rfl
  unfold evalModel
  simp only [hF, hst, ne_eq, not_true_eq_false, if_false, hb, hv, need, ok_bind]
  rw [pyAssert_true (fun h => by cases h), ok_bind, hc]
  rfl

/-- Hyperparameters for `exGp` with a mean. -/
def exHpB : HpVals := { exHp with beta := some ⟨1, fun _ => 4⟩ }

/-- The example object (masked, noisy, preconditioned, Matérn) is ready for prediction. -/
theorem exReady : Ready exGp exHpB 3 4 where
  ok := exGp_ok
  adm := ⟨exHp_adm.theta, exHp_adm.kernel, exHp_adm.vf_none, exHp_adm.vf_some, exHp_adm.vg_none, exHp_adm.vg_some⟩
  noise := .inl rfl
  precon := fun _ => rfl
  ne := by simp [exGp]
  vpos := by norm_num
  varK := rfl
  beta := ⟨_, rfl, rfl, rfl⟩
  eta := by norm_num [exGp]
  mask := by intro h; simp [exGp] at h

-- C36-C40, C42, C43: a set-up model with a factor exists for this object, and it can be evaluated at two new points
example : ∃ st out, setupEvalModel exGp exHpB false = .ok st ∧
    evalModel exGp st exHpB ⟨2, 2, fun a d => a + 3 * d⟩ true false = .ok out ∧ ∀ a, 0 < out.sig a ∧ out.sig a ^ 2 ≤ 3 :=
  C37_pipeline_total exReady.toV (by norm_num [exGp]) rfl (by decide) true

/-- Gradient-free, noise-free variant, squared-exponential kernel. -/
def exGpQuiet : Gp := { exGp with
  kernel := .sqExp
  useGrad := false
  nGrad := 0
  nData := 2
  bvec := none
  o := { exGp.o with precon := false }
  fvalZero := true
  fgradZero := true
  noisy := false
  stdFval := some ⟨2, fun _ => 0⟩
  grad := none }

def exHpQuiet : HpVals where
  theta := some exTheta
  varK := some 3
  beta := some ⟨1, fun _ => 4⟩

theorem exReadyQuiet : Ready exGpQuiet exHpQuiet 3 4 where
  ok := by
    constructor
    all_goals first
      | rfl
      | exact fun _ => rfl
      | exact fun _ => ⟨_, rfl, rfl⟩
      | (intro h; simp [exGpQuiet, exGp] at h; done)
      | (intro _ h; simp [exGpQuiet, exGp] at h; done)
  adm := ⟨⟨exTheta, rfl, rfl, exTheta_pos⟩, by intro h; simp [exGpQuiet] at h, fun _ => rfl,
    by intro h; simp [exGpQuiet, exGp] at h, by intro h; simp [exGpQuiet] at h, by intro h; simp [exGpQuiet] at h⟩
  noise := .inr rfl
  precon := by intro h; simp [exGpQuiet] at h
  ne := by simp [exGpQuiet, exGp]
  vpos := by norm_num
  varK := rfl
  beta := ⟨_, rfl, rfl, rfl⟩
  eta := by norm_num [exGpQuiet, exGp]
  mask := by intro h; simp [exGpQuiet] at h

-- C36 (part): this object is noise-free; C41: full gradients (none used), no separation condition for this kernel
example : (∃ N, IsNoise exGpQuiet exHpQuiet N ∧ ∀ i, N i = 0) ∧ (exGpQuiet.useGrad = true → exGpQuiet.nGrad = exGpQuiet.nEval) ∧
    exGpQuiet.kernel ≠ .matern := by
  refine ⟨⟨fun _ => 0, ⟨⟨2, fun _ => 0⟩, ⟨rfl, ?_, ?_⟩, fun _ => rfl⟩, fun _ => rfl⟩, by intro h; simp [exGpQuiet] at h,
    by simp [exGpQuiet]⟩
  · intro a _; simp [valVar, exGpQuiet]
  · intro i _ a _; simp [gradVar, exGpQuiet]

-- C36, excluded case: one noisy point without gradients
example : ∃ g hp, Ready g hp 3 4 ∧ g.nEval = 1 ∧ g.useGrad = false ∧ ∃ N, IsNoise g hp N ∧ ∀ i, 0 < N i := by
  let g : Gp := { exGpQuiet with
    nEval := 1
    nData := 1
    fvalZero := false
    noisy := true
    x := ⟨1, 2, fun _ _ => 0⟩
    fval := ⟨1, fun _ => 7⟩
    stdFval := some ⟨1, fun _ => 1 / 2⟩ }
  refine ⟨g, exHpQuiet, ?_, rfl, rfl, fun _ => (1 / 2) ^ 2, ⟨⟨1, fun _ => (1 / 2) ^ 2⟩, ⟨rfl, ?_, ?_⟩, fun _ => rfl⟩, fun _ => by norm_num⟩
  · constructor
    · constructor
      all_goals first
        | rfl
        | exact fun _ => rfl
        | exact fun _ => ⟨_, rfl, rfl⟩
        | (intro h; simp [g, exGpQuiet, exGp] at h; done)
        | (intro _ h; simp [g, exGpQuiet, exGp] at h; done)
    · exact ⟨⟨exTheta, rfl, rfl, exTheta_pos⟩, by intro h; simp [g, exGpQuiet] at h, fun _ => rfl,
        by intro h; simp [g, exGpQuiet, exGp] at h, by intro h; simp [g, exGpQuiet] at h, by intro h; simp [g, exGpQuiet] at h⟩
    · exact .inr rfl
    · intro h; simp [g, exGpQuiet] at h
    · simp [g]
    · norm_num
    · rfl
    · exact ⟨_, rfl, rfl, rfl⟩
    · norm_num [g, exGpQuiet, exGp]
    · intro h; simp [g, exGpQuiet] at h
  · intro a _; simp [valVar, g, exGpQuiet, exGp]
  · intro i _ a ha; simp [g, exGpQuiet] at ha

/-! The theorems of `Eval` and of this file applied to `exGp` (masked, noisy, preconditioned, Matérn) and `exGpQuiet`
(gradient-free, noise-free) at two or one points of the plane. -/
theorem exState : ∃ st N K, setupEvalModel exGp exHpB false = .ok st ∧ st.chofac ≠ none ∧ IsNoise exGp exHpB N ∧ IsKern exGp exHpB K ∧
    DataSpec exGp st.dataVec ∧ ∀ x, ∃ k, IsCross exGp exHpB x k := ready_state exReady.toV (by simp [exGp])
theorem exStateQuiet : ∃ st N K, setupEvalModel exGpQuiet exHpQuiet false = .ok st ∧ st.chofac ≠ none ∧ IsNoise exGpQuiet exHpQuiet N ∧
    IsKern exGpQuiet exHpQuiet K ∧ DataSpec exGpQuiet st.dataVec ∧ ∀ x, ∃ k, IsCross exGpQuiet exHpQuiet x k :=
  ready_state exReadyQuiet.toV (by norm_num [exGpQuiet, exGp])

section
variable {st : EvalState exGp.nData} (hst : setupEvalModel exGp exHpB false = .ok st) (hF : st.chofac ≠ none)
  {N : Vec exGp.nData} (hN : IsNoise exGp exHpB N) {K : Mat exGp.nData exGp.nData} (hK : IsKern exGp exHpB K)
  {y : Vec exGp.nData} (hy : DataSpec exGp y)
example := C36_posterior_with_scaled_noise exReady.toV hst hF (X := ⟨2, 2, fun a d => a + 3 * d⟩) rfl (by decide) true
example := C37_variance_bounds exReady.toV hst hF (X := ⟨2, 2, fun a d => a + 3 * d⟩) rfl (by decide) true
example := C38_interpolation exReady hst hF (X := exX) rfl (by decide) hN hK hy
example := C39_mean_gradient exReady hst hF (X := ⟨2, 2, fun a d => a + 3 * d⟩) rfl (by decide)
example := C40_sigma_gradient exReady hst hF (X := ⟨2, 2, fun a d => a + 3 * d⟩) rfl (by decide)
example := C42_eval_model_var exReady hst hF (X := ⟨2, 2, fun a d => a + 3 * d⟩) rfl (by decide)
example := C43_batch_is_pointwise exReady hst hF (X := ⟨2, 2, fun a d => a + 3 * d⟩) rfl (by decide) 1
  (x := ⟨1, 2, fun _ d => 1 + 3 * d⟩) rfl rfl (by intro d _; simp)
example := C41_partial_mask_raises exReady hst hF (X := ⟨1, 2, fun a d => a + 3 * d⟩) rfl rfl rfl (by decide) (by decide)
example := C41_several_points_raise exReady hst hF (X := ⟨2, 2, fun a d => a + 3 * d⟩) rfl (by decide) (by decide)
end

section
variable {st : EvalState exGpQuiet.nData} (hst : setupEvalModel exGpQuiet exHpQuiet false = .ok st) (hF : st.chofac ≠ none)
  {N : Vec exGpQuiet.nData} (hN : IsNoise exGpQuiet exHpQuiet N)
example (h0 : ∀ i, N i = 0) := C36_mean_is_posterior_mean_partial exReadyQuiet.toV hst hF hN (.inl h0)
  (X := ⟨2, 2, fun a d => a + 3 * d⟩) rfl (by decide) true
example := C41_hessians_partial exReadyQuiet hst hF (X := ⟨1, 2, fun a d => a + 3 * d⟩) rfl rfl (fun h => (nomatch h)) (fun h => (nomatch h))
end

/-- Rational quadratic kernel, three points, gradients at the first and the third. -/
def exGpTwoOfThree : Gp := { exGp with
  kernel := .ratQuad
  nEval := 3
  nGrad := 2
  nData := 7
  x := exX3
  fval := ⟨3, fun p => p⟩
  bvec := some [true, false, true]
  grad := some ⟨2, 2, fun a i => a + i⟩
  stdFval := some ⟨3, fun _ => 1 / 10⟩ }

theorem exTwoOfThree_ok : GpOk exGpTwoOfThree where
  x_r := rfl
  x_c := rfl
  fval_n := rfl
  mask := by intro l h; simp [exGpTwoOfThree] at h; subst h; rfl
  nGrad := rfl
  noMask := by intro h; simp [exGpTwoOfThree, exGp] at h
  nData := rfl
  grad_none := by intro h; simp [exGpTwoOfThree, exGp] at h
  grad_some := fun _ => ⟨_, rfl, rfl, rfl⟩
  std_fval := fun _ => ⟨_, rfl, rfl⟩
  std_fgrad := by intro h; simp [exGpTwoOfThree, exGp] at h
  fzero := by intro h; simp [exGpTwoOfThree, exGp] at h
  gzero := by intro _ h; simp [exGpTwoOfThree, exGp] at h
  noisy := rfl

example : ∃ st, setupEvalModel exGpTwoOfThree { exHpB with kernel := some 2 } false = .ok st ∧
    evalModel exGpTwoOfThree st { exHpB with kernel := some 2 } exX true false = .error .shape := by
  have hadm : HpAdm exGpTwoOfThree { exHpB with kernel := some 2 } :=
    ⟨⟨exTheta, rfl, rfl, exTheta_pos⟩, fun _ => ⟨2, by norm_num, rfl⟩, fun _ => rfl, fun h => (nomatch h),
      fun _ h => (nomatch h), fun _ _ => ⟨1 / 2, rfl, by norm_num⟩⟩
  obtain ⟨N, K, st, hst, hs⟩ := setup_ok exTwoOfThree_ok hadm (.inl rfl) (fun _ => rfl) (by decide) (v := 3) (by norm_num) rfl
    (beta := ⟨1, fun _ => 4⟩) rfl rfl false
  have hpd : st.KernEta.PosDef := by
    rw [hs.cov]
    obtain ⟨Na, hNa, rfl⟩ := hs.noise
    have hN := NoiseSpec.nonneg exTwoOfThree_ok hadm hNa
    refine posDef_add_diagonal hs.psd fun i => add_pos_of_nonneg_of_pos (hN i) (mul_pos (hs.etaPos (by simp [exGpTwoOfThree, exGp])) ?_)
    split_ifs
    · have := hs.diag i; have := hN i; linarith
    · norm_num
  obtain ⟨F, hF⟩ := hs.facSome (.inl rfl) hpd
  exact ⟨st, hst, C36_ratQuad_mask_raises exTwoOfThree_ok hadm rfl rfl (m := [true, false, true]) rfl (by decide) (by decide) (by decide)
    (by decide) (by rw [hF]; simp) hs.hp_eq (b := ⟨1, fun _ => 4⟩) rfl (v := 3) rfl rfl true⟩

/-- One noisy observation. -/
def exGpNoisyOne : Gp := { exGpQuiet with
  nEval := 1
  nData := 1
  fvalZero := false
  noisy := true
  x := ⟨1, 2, fun _ _ => 0⟩
  fval := ⟨1, fun _ => 7⟩
  stdFval := some ⟨1, fun _ => 1 / 2⟩ }

theorem exReadyNoisyOne : Ready exGpNoisyOne exHpQuiet 3 4 := by
  constructor
  · constructor
    all_goals first
      | rfl
      | exact fun _ => rfl
      | exact fun _ => ⟨_, rfl, rfl⟩
      | (intro h; simp [exGpNoisyOne, exGpQuiet, exGp] at h; done)
      | (intro _ h; simp [exGpNoisyOne, exGpQuiet, exGp] at h; done)
  · refine ⟨⟨exTheta, rfl, rfl, exTheta_pos⟩, fun h => (nomatch h), fun _ => rfl, fun h => (nomatch h), fun h => (nomatch h), fun h => (nomatch h)⟩
  · exact .inr rfl
  · intro h; exact nomatch h
  · decide
  · norm_num
  · rfl
  · exact ⟨⟨1, fun _ => 4⟩, rfl, rfl, rfl⟩
  · norm_num [exGpNoisyOne, exGpQuiet, exGp]
  · intro h; exact nomatch h

example : ∃ st N K, setupEvalModel exGpNoisyOne exHpQuiet false = .ok st ∧ IsNoise exGpNoisyOne exHpQuiet N ∧ (∀ i, 0 < N i) ∧
    IsKern exGpNoisyOne exHpQuiet K ∧
    ∃ out, evalModel exGpNoisyOne st exHpQuiet exGpNoisyOne.x false false = .ok out ∧ ∀ (a : Fin 1) k,
      IsCross exGpNoisyOne exHpQuiet (exGpNoisyOne.x.get a) k →
      ¬ CondNormal (noisyCov exGpNoisyOne.o.precon 3 K N st.etaK) ((3 : ℝ) • k) 3 (priorMean exGpNoisyOne 4) 4 st.dataVec (out.mu a) (out.sig a ^ 2) := by
  obtain ⟨st, N, K, hst, hF, ⟨Na, hNa, hN⟩, hK, hy, -⟩ := ready_state exReadyNoisyOne.toV (by norm_num [exGpNoisyOne, exGpQuiet, exGp])
  have hpos : ∀ i, 0 < N i := by
    intro i
    have hi : (i : ℕ) < 1 := i.2
    rw [hN, hNa.val i hi]
    norm_num [valVar, exGpNoisyOne, exGpQuiet, exGp]
  exact ⟨st, N, K, hst, ⟨Na, hNa, hN⟩, hpos, hK, C36_noisy_not_posterior exReadyNoisyOne rfl rfl hst hF ⟨Na, hNa, hN⟩ hpos (by norm_num) hK hy⟩

end Props
