import Verif.Props.EvalDerivs

/-! Rational quadratic kernel, gradient at exactly one of several points: values right, gradients silently wrong. -/

open Np Spec GP Matrix

noncomputable section

namespace GP

theorem rq_pow_ne {α s s' : ℝ} (hα : 0 < α) (hs : 0 ≤ s) (hs' : 0 ≤ s') (h : s ≠ s') :
    (1 + s / α) ^ (-α - 1) ≠ (1 + s' / α) ^ (-α - 1) := by
  have h1 : 0 < 1 + s / α := by positivity
  have h2 : 0 < 1 + s' / α := by positivity
  intro he
  have he' := (Real.rpow_left_inj h1.le h2.le (by linarith : (-α - 1 : ℝ) ≠ 0)).mp he
  have : s / α = s' / α := by linarith
  exact h (by field_simp at this; exact this)

theorem sel_zero_lt {m : List Bool} (h : 0 < nTrue m) : sel m 0 < m.length :=
  Ix.pt_lt (m := some m) (n := m.length) (dim := 1) (x := .g 0 0) (by rintro l h; cases h; rfl) ⟨one_pos, h⟩

theorem ssq_nonneg' {g : Gp} {hp : HpVals} (hh : HpAdm g hp) (r : ℕ → ℝ) : 0 ≤ ssq g.dim (thF hp) r :=
  ssq_nonneg (fun d hd => (thF_pos hh d hd).le) r

end GP

namespace Props

/-- **C04, rational quadratic, one of several points selected, mask for the first point set only.** The call succeeds, but
in the block of covariances between values and derivatives every row uses the factor of the one selected point `s`
instead of its own: entry (value at `x_p`, derivative wrt coordinate `j` at `y_b`) is
`2 θ_j (x_pj - y_bj) (1 + S(x_s, y_b)/α)^(-α-1)`, and this is not the derivative of the kernel wherever
`x_pj ≠ y_bj` and `x_p` and `x_s` are at different scaled distances from `y_b`. -/
theorem C04_ratQuad_single_gradient (X Y : Arr2) (hc : X.c = Y.c) (theta : Arr1) (hn : theta.n = X.c)
    (hθ : ∀ d < X.c, 0 < theta.get d) (α : ℝ) (hα : 0 < α) (m : List Bool) (hm : m.length = X.r) (h1 : nTrue m = 1) (hr : X.r ≠ 1) :
    ∃ R A, calcRtensor X Y = .ok R ∧ calcKernGrad .ratQuad R theta (some α) (some m) none = .ok A ∧
      ∀ p < X.r, ∀ b < Y.r, ∀ j < X.c,
        A.get p (Y.r + j * Y.r + b) = 2 * theta.get j * (X.get p j - Y.get b j) *
          (1 + wdist2 X.c theta.get (X.get (sel m 0)) (Y.get b) / α) ^ (-α - 1) ∧
        (X.get p j ≠ Y.get b j → wdist2 X.c theta.get (X.get p) (Y.get b) ≠ wdist2 X.c theta.get (X.get (sel m 0)) (Y.get b) →
          ¬ HasDerivAt (fun t => kRatQuad α X.c theta.get (X.get p) (Function.update (Y.get b) j t))
            (A.get p (Y.r + j * Y.r + b)) (Y.get b j)) := by
  obtain ⟨R, hR, -⟩ := calcRtensor_ok hc
  have hI := (calcRtensor_isR hR).2
  obtain ⟨A, hA, hrep⟩ := ratQuadKernGrad_mask1 (R := R) (theta := theta) (α := α) (l := m) (by rw [hI.d, hn]) (by rw [hI.r]; exact hm)
    (σ := fun _ => sel m 0) (.inr ⟨h1, by rw [hI.r]; exact hr, rfl⟩)
  refine ⟨R, A, hR, hA, fun p hp b hb j hj => ?_⟩
  have hs : sel m 0 < X.r := hm ▸ sel_zero_lt (by omega)
  have key : A.get p (Y.r + j * Y.r + b) = 2 * theta.get j * (X.get p j - Y.get b j) *
      (1 + wdist2 X.c theta.get (X.get (sel m 0)) (Y.get b) / α) ^ (-α - 1) := by
    have h := hrep.get (.v p) (.g j b) (by rw [hI.r]; exact hp) ⟨by rw [hI.d]; exact hj, by rw [hI.c]; exact hb⟩
    simp only [Ix.pos_v, Ix.pos_g, hI.c, ratQuadF1] at h
    rw [h, hI.get j hj p hp b hb]
    congr 4
    unfold rqS
    rw [hI.d, wdist2_eq]
    exact ssq_congr fun d hd => hI.get d hd _ hs _ hb
  refine ⟨key, fun hx hw hd => ?_⟩
  have htrue := radKG_isCov (rqProfile hα) (dim := X.c) (θ := theta.get) (fun d hd => (hθ d hd).le) (X.get p) (Y.get b) none (some j)
    (by simp) (by rintro i h; cases h; exact hj)
  rw [← kRatQuad_eq] at htrue
  have he := HasDerivAt.unique hd htrue
  rw [key] at he
  simp only [radKG, rqφ1, ← wdist2_eq] at he
  refine rq_pow_ne hα (ssq_nonneg (fun d hd => (hθ d hd).le) _) (ssq_nonneg (fun d hd => (hθ d hd).le) _) hw.symm ?_
  have h2 : 2 * theta.get j * (X.get p j - Y.get b j) ≠ 0 :=
    mul_ne_zero (mul_ne_zero two_ne_zero (hθ j hj).ne') (sub_ne_zero.mpr hx)
  refine mul_left_cancel₀ h2 ?_
  simp only [wdist2_eq] at he ⊢
  rw [he]; ring

/-- **C39/C40, an excluded case: silently wrong gradients.** With the rational quadratic kernel and a gradient at exactly one
point `s` of several, `eval_model` succeeds and its mean is right (`C36_posterior_with_scaled_noise`), but the gradient of
the mean it returns differs from the derivative of that mean by
`∑_p w_p 2 θ_i (x_pi - x_i) [(1 + S(x_s, x)/α)^(-α-1) - (1 + S(x_p, x)/α)^(-α-1)]`, where `p` ranges over the data points, `w`
are the weights stored by `setup_eval_model` and `S` is the scaled squared distance. -/
theorem C39_single_gradient_wrong {g : Gp} {hp : HpVals} {v β : ℝ} (hr : ReadyV g hp v β) (hk : g.kernel = .ratQuad)
    {α : ℝ} (hα : hp.kernel = some α) {theta : Arr1} (hth : hp.theta = some theta)
    (hu : g.useGrad = true) {m : List Bool} (hm : g.bvec = some m) (h1 : nTrue m = 1) (hn : g.nEval ≠ 1)
    {cc : Bool} {st : EvalState g.nData} (hst : setupEvalModel g hp cc = .ok st) (hF : st.chofac ≠ none)
    {X : Arr2} (hX : X.c = g.dim) (hXr : 0 < X.r) :
    ∃ out dmu w, evalModel g st hp X true false = .ok out ∧ out.dmu = some dmu ∧ st.w = some w ∧
      ∀ (a : Fin X.r) (i : Fin g.dim), ∃ (f : ℝ → ℝ) (f' : ℝ),
        (∀ t cg, ∃ o, evalModel g st hp (moved X a i t) cg false = .ok o ∧ o.mu a = f t) ∧
        HasDerivAt f f' (X.get a i) ∧
        dmu a i - f' = ∑ q : Fin g.nData, if (q : ℕ) < g.nEval then
          w q * (2 * theta.get i * (g.x.get q i - X.get a i) *
            ((1 + wdist2 g.dim theta.get (g.x.get (sel m 0)) (X.get a) / α) ^ (-α - 1) -
              (1 + wdist2 g.dim theta.get (g.x.get q) (X.get a) / α) ^ (-α - 1))) else 0 := by
  obtain ⟨N, K, hs, hN⟩ := ready_setup hr hst
  obtain ⟨F, hF'⟩ := Option.ne_none_iff_exists'.mp hF
  obtain ⟨b, hb, hbn, rfl⟩ := hr.beta
  have hal : alphaOf g.kernel hp.kernel = α := by rw [hk, hα]; rfl
  have hthF : thF hp = theta.get := by simp [thF, hth]
  refine ⟨_, _, _, evalModel_one hr.ok hr.adm hr.vpos hr.varK hb hbn hs (hs.etaNonneg hr.eta) hF' hX hXr hk hu hm h1 hn true, rfl,
    hs.w F hF', fun a i => ?_⟩
  refine ⟨_, _, fun t cg => ?_, muF_deriv hr.ok hr.adm (st.KernEta⁻¹ *ᵥ (st.dataVec - priorMean g (b.get 0))) (b.get 0) (X.get a) i.2, ?_⟩
  · obtain ⟨o, ho, hmu, -⟩ := ready_vals hr hs hF (X := moved X a i t) hX hXr cg
    refine ⟨o, ho, ?_⟩
    rw [hmu]
    show muF g hp _ _ ((moved X a i t).get a) = _
    rw [moved_get_self]
  · simp only [of_apply, dmuF, dotProduct]
    rw [← Finset.sum_sub_distrib]
    refine Finset.sum_congr rfl fun q _ => ?_
    by_cases hq : (q : ℕ) < g.nEval
    · have e1 : dpt g q = g.x.get q := by simp [dpt, dIx_val hq]
      have e2 : dco g q = none := by simp [dco, dIx_val hq]
      have e3 : kd g hp (X.get a) i q = 2 * theta.get i * (g.x.get q i - X.get a i) *
          (1 + wdist2 g.dim theta.get (g.x.get q) (X.get a) / α) ^ (-α - 1) := by
        simp only [kd, e1, e2, radKG, hal, hthF]
        rw [hk, wdist2_eq]
        simp only [prφ1, rqφ1]; ring
      rw [if_pos hq, e3]
      simp only [kdOne, e1, e2, hal, hthF, wdist2_eq]
      ring
    · rw [if_neg hq]
      have e2 : ∃ j, dco g q = some j := by
        exact ⟨((q : ℕ) - g.nEval) / g.nGrad, by simp only [dco, dIx, hq, if_false, Ix.coord_g]⟩
      obtain ⟨j, e2⟩ := e2
      simp only [kdOne, e2]
      ring

/-- One dimension, points 0 and 1, gradient at 0 only. The data are chosen so that the weights are `(0, 1, 0)`. -/
def exGpSole : Gp where
  dim := 1
  useGrad := true
  kernel := .ratQuad
  nEval := 2
  nGrad := 1
  nData := 3
  bvec := some [true, false]
  o := { precon := false, etaConst := true, etaK := 1 / 2, condMaxTarget := 10, condMax := 10, condMaxAbs := 100, fro := false }
  knownFval := true
  knownFgrad := true
  fvalZero := true
  fgradZero := true
  noisy := false
  x := ⟨2, 1, fun p _ => p⟩
  fval := ⟨2, fun p => if p = 0 then 1 / 2 else 3 / 2⟩
  stdFval := some ⟨2, fun _ => 0⟩
  grad := some ⟨1, 1, fun _ _ => 1 / 2⟩
  stdGrad := some ⟨1, 1, fun _ _ => 0⟩

def exHpSole : HpVals where
  theta := some ⟨1, fun _ => 1⟩
  kernel := some 1
  varK := some 3
  beta := some ⟨1, fun _ => 0⟩

theorem exReadySole : ReadyV exGpSole exHpSole 3 0 where
  ok := by
    constructor
    all_goals first
      | rfl
      | exact fun _ => rfl
      | exact fun _ => ⟨_, rfl, rfl⟩
      | exact fun _ => ⟨_, rfl, rfl, rfl⟩
      | (intro h; simp [exGpSole] at h; done)
      | (intro l h; cases h; rfl)
      | exact fun _ _ => rfl
  adm := ⟨⟨_, rfl, rfl, fun _ _ => one_pos⟩, fun _ => ⟨1, one_pos, rfl⟩, fun _ => rfl, by intro h; simp [exGpSole] at h, fun _ _ => rfl,
    by intro _ h; simp [exGpSole] at h⟩
  noise := .inl rfl
  precon := fun _ => rfl
  ne := by simp [exGpSole]
  vpos := by norm_num
  varK := rfl
  beta := ⟨_, rfl, rfl, rfl⟩
  eta := by norm_num [exGpSole]
  mask := fun _ => .inr rfl

/-- **C39, a concrete wrong gradient**: points 0 and 1, gradient at 0 only, prediction at 2. `eval_model` succeeds, and the
gradient it returns is off by 21/50. -/
theorem C39_single_gradient_example : ∃ st out dmu, setupEvalModel exGpSole exHpSole false = .ok st ∧
    evalModel exGpSole st exHpSole ⟨1, 1, fun _ _ => 2⟩ true false = .ok out ∧ out.dmu = some dmu ∧
    ∃ (f : ℝ → ℝ) (f' : ℝ),
      (∀ t, ∃ o, evalModel exGpSole st exHpSole (moved ⟨1, 1, fun _ _ => 2⟩ 0 0 t) true false = .ok o ∧ o.mu ⟨0, one_pos⟩ = f t) ∧
      HasDerivAt f f' 2 ∧ dmu ⟨0, one_pos⟩ ⟨0, one_pos⟩ - f' = 21 / 50 := by
  have hr := exReadySole
  obtain ⟨st, out0, hst, hev, -⟩ := C37_pipeline_total hr (by norm_num [exGpSole]) (X := ⟨1, 1, fun _ _ => 2⟩) rfl one_pos true
  have hF : st.chofac ≠ none := by
    intro h0
    unfold evalModel at hev
    simp only [h0] at hev
    cases hev
  obtain ⟨out, dmu, w, h1, h2, hw, h3⟩ := C39_single_gradient_wrong hr rfl rfl rfl rfl rfl rfl (by decide) hst hF
    (X := ⟨1, 1, fun _ _ => 2⟩) rfl one_pos
  obtain ⟨f, f', hf, hd, he⟩ := h3 ⟨0, one_pos⟩ ⟨0, one_pos⟩
  refine ⟨st, out, dmu, hst, h1, h2, f, f', fun t => hf t true, hd, ?_⟩
  rw [he]
  obtain ⟨N, K, hs, Na, hNa, hN⟩ := ready_setup hr hst
  obtain ⟨F, hF'⟩ := Option.ne_none_iff_exists'.mp hF
  have hpd := ready_pd hs hF
  have hη : st.etaK = 1 / 2 := hs.etaConst rfl
  have hN0 : ∀ q, N q = 0 := by
    intro q
    rw [hN q]
    rcases q with ⟨q, hq⟩
    have hq' : q < 3 := hq
    rcases (by omega : q = 0 ∨ q = 1 ∨ q = 2) with rfl | rfl | rfl
    · rw [hNa.val 0 (by decide)]; simp [valVar, exGpSole]
    · rw [hNa.val 1 (by decide)]; simp [valVar, exGpSole]
    · have := hNa.grad 0 (by decide) 0 (by decide)
      refine Eq.trans this ?_
      simp [gradVar, exGpSole]
  have hK : ∀ p q, K p q = kk exGpSole exHpSole p q := isKern_entry hr.ok hr.adm hs.isKern
  have hsel : sel [true, false] 0 = 0 := rfl
  let e : Vec exGpSole.nData := fun q => if (q : ℕ) = 1 then 1 else 0
  have k0 : kk exGpSole exHpSole 0 1 = 1 / 2 := by
    norm_num [kk, dpt, dco, dIx, exGpSole, exHpSole, radKG, ssq, thF, alphaOf, prφ, rqφ, Real.rpow_neg_one]
  have k1 : kk exGpSole exHpSole 1 1 = 1 := by
    norm_num [kk, dpt, dco, dIx, exGpSole, exHpSole, radKG, ssq, thF, alphaOf, prφ, rqφ, Real.rpow_neg_one]
  have k2 : kk exGpSole exHpSole 2 1 = 1 / 2 := by
    norm_num [kk, dpt, dco, dIx, exGpSole, exHpSole, radKG, ssq, thF, alphaOf, prφ1, rqφ1, Ix.pt, gSel, hsel]
  have hsol : st.KernEta *ᵥ e = st.dataVec - priorMean exGpSole 0 := by
    funext p
    have hrow : (st.KernEta *ᵥ e) p = st.KernEta p ⟨1, by decide⟩ := by
      simp only [mulVec, dotProduct]
      rw [Finset.sum_eq_single (⟨1, by decide⟩ : Fin exGpSole.nData)]
      · simp [e]
      · intro q _ hq
        have : (q : ℕ) ≠ 1 := fun h => hq (Fin.ext h)
        simp [e, this]
      · simp
    rw [hrow, hs.cov, Matrix.add_apply, hK]
    rcases p with ⟨p, hp⟩
    have hp' : p < 3 := hp
    rcases (by omega : p = 0 ∨ p = 1 ∨ p = 2) with rfl | rfl | rfl
    · have := hs.data.val ⟨0, hp⟩ (show 0 < 2 by norm_num)
      rw [Pi.sub_apply, this, k0, Matrix.diagonal_apply_ne _ (by intro h; cases h)]
      norm_num [priorMean, exGpSole]
    · have := hs.data.val ⟨1, hp⟩ (show 1 < 2 by norm_num)
      rw [Pi.sub_apply, this, k1, Matrix.diagonal_apply_eq, addDiag, hN0, hη]
      norm_num [priorMean, exGpSole]
    · have := hs.data.grad _ rfl ⟨2, hp⟩ 0 (by decide) 0 (by decide) rfl
      rw [Pi.sub_apply, this, k2, Matrix.diagonal_apply_ne _ (by intro h; cases h)]
      norm_num [priorMean, exGpSole]
  have hwv : w = e := by
    have h := hs.w F hF'
    rw [hw, ← hsol, mulVec_mulVec, nonsing_inv_mul _ (posDef_detne hpd).isUnit, one_mulVec] at h
    exact Option.some.inj h
  rw [hwv, Finset.sum_eq_single (⟨1, by decide⟩ : Fin exGpSole.nData)]
  · norm_num [exGpSole, e, hsel, wdist2]
  · intro q _ hq
    have : (q : ℕ) ≠ 1 := fun h => hq (Fin.ext h)
    simp [e, this]
  · simp

/-! The theorems applied: two points of the plane with a gradient at the second only, and `exGpSole`. -/
example := C04_ratQuad_single_gradient exX exX3 rfl exTheta rfl exTheta_pos 2 two_pos [false, true] rfl rfl (by decide)
theorem exStateSole : ∃ st, setupEvalModel exGpSole exHpSole false = .ok st ∧ st.chofac ≠ none := by
  obtain ⟨st, -, -, h1, h2, -⟩ := ready_state exReadySole (by norm_num [exGpSole])
  exact ⟨st, h1, h2⟩
example {st : EvalState exGpSole.nData} (hst : setupEvalModel exGpSole exHpSole false = .ok st) (hF : st.chofac ≠ none) :=
  C39_single_gradient_wrong exReadySole rfl rfl rfl rfl (m := [true, false]) rfl rfl (by decide) hst hF (X := ⟨1, 1, fun _ _ => 2⟩) rfl (by decide)

end Props
