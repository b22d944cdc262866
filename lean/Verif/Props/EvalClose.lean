import Verif.Props.EvalDerivs
import Verif.Props.MaternClose
import Verif.Props.Invariance
import Verif.Proofs.EvalHess

/-! C41 for the Matérn kernel without any condition on the distance between the point and the data: the Hessians that
`eval_model` returns, and how far they can be from the second derivatives. -/

open Np GP Spec Matrix

noncomputable section

namespace Props

/-- The second-derivative covariances that the code computes for the Matérn kernel, regularised division included. -/
def khC (g : Gp) (hp : HpVals) (x : Pt) (e i : ℕ) : Vec g.nData := fun q =>
  radKGx maφ1 maφ2 maφ3c g.dim (thF hp) (fun d => x d - dpt g q d) e i (dco g q)

theorem crossHess_matern {g : Gp} (hg : GpOk g) {hp : HpVals} (hh : HpAdm g hp) (hk : g.kernel = .matern) (hu : g.useGrad = true)
    {X : Arr2} (hX : X.c = g.dim) (h1 : X.r = 1) (hng : g.nGrad = g.nEval) :
    ∃ H, crossHess g hp X = .ok H ∧ H.d = g.dim ∧ H.r = g.dim ∧ H.c = hessNData g ∧ H.c = g.nData ∧
      ∀ (e i : Fin g.dim) (q : Fin g.nData), H.get e i q = khC g hp (X.get 0) e i q := by
  obtain ⟨th, ht, hn, hpos⟩ := hh.theta
  obtain ⟨R, hR, -⟩ := calcRtensor_ok (X := X) (Y := g.x) (by rw [hg.x_c, hX])
  have hI := (calcRtensor_isR hR).2
  have hthF : thF hp = th.get := by simp [thF, ht]
  have hcongr : ∀ (e i : Fin g.dim) (q : Fin g.nData), radKGx maφ1 maφ2 maφ3c g.dim th.get
      (diffAt R 0 ((dIx g q).pt g.bvec)) e i (dco g q) = khC g hp (X.get 0) e i q := by
    intro e i q
    unfold khC
    rw [hthF]
    refine radKGx_congr ?_ e.2 i.2 (dco_lt hg q)
    intro d hd
    exact hI.get d (by rw [hX]; exact hd) 0 (by omega) _ (by rw [hg.x_r]; exact dpt_lt hg q)
  unfold crossHess
  rw [ht]
  simp only [need, ok_bind, hR, hu, if_true]
  obtain ⟨H, hH, hrep⟩ := maternKernGradGradX_raw (R := R) (theta := th) (by rw [hI.d, hX, hn])
  have hd := hrep.d
  have hr := hrep.r
  have hc := hrep.c
  rw [hI.d, hX] at hd
  rw [hI.r, hI.d, h1, hX] at hr
  rw [hI.c, hI.d, hX, hg.x_r] at hc
  refine ⟨H, by rw [hk]; exact hH, hd, by rw [hr]; omega, by rw [hc, hessNData, hu]; simp; ring, by rw [hc, hg.nData, hng], ?_⟩
  intro e i q
  obtain ⟨h2, h3⟩ := dIx_spec hg q
  rw [hng] at h2 h3
  have := hrep.get e (.g i 0) (dIx g q) (by rw [hI.d, hX]; exact e.2) ⟨by rw [hI.d, hX]; exact i.2, by rw [hI.r, h1]; omega⟩
    (by rw [hI.c, hI.d, hX, hg.x_r]; exact h2)
  rw [hI.r, h1, hI.c, hg.x_r, h3] at this
  simp only [Ix.pos_g, Nat.zero_add, Nat.mul_one, Nat.add_zero] at this
  rw [this, ← hcongr]
  have hpt : (dIx g q).pt none = (dIx g q).pt g.bvec := by
    have hgN : gN g.bvec g.nEval = g.nEval := by rw [← hg_mask hg hu, hng]
    revert h2
    cases dIx g q with
    | v p => intro _; rfl
    | g i' a => intro h; simp only [Ix.pt_g]; rw [gSel_all hg.mask hgN a h.2]; rfl
  simp only [kgXF, hpt, hI.d, hX]
  rfl

theorem khC_err {g : Gp} (hg : GpOk g) {hp : HpVals} (hh : HpAdm g hp) (hk : g.kernel = .matern) {T : ℝ}
    (hT : ∀ d < g.dim, thF hp d ≤ T) (x : Pt) {e i : ℕ} (he : e < g.dim) (hi : i < g.dim) (w : Vec g.nData) :
    |khC g hp x e i ⬝ᵥ w - kh g hp x e i ⬝ᵥ w| ≤ 20 * (T * Real.sqrt T) * (10 : ℝ) ^ (-32 : ℤ) * ∑ q, |w q| := by
  rw [← sub_dotProduct, dotProduct, Finset.mul_sum]
  refine (Finset.abs_sum_le_sum_abs _ _).trans (Finset.sum_le_sum fun q _ => ?_)
  rw [abs_mul]
  refine mul_le_mul_of_nonneg_right ?_ (abs_nonneg _)
  rw [Pi.sub_apply, kh, khC, hk]
  exact ma_x_err (thF_pos hh) hT he hi _ (dco_lt hg q)

/-- **C41, Matérn, any point** (no separation from the data). With gradients at all the data points the Hessians returned at
one point differ from the derivatives of the gradients that `eval_model` returns by at most
`20 T^(3/2) * 1e-32 * Σ|w|` (mean, `w = Σ⁻¹ (y - m)`) and, where `σ > 0`, by at most `(v / σ) * 20 T^(3/2) * 1e-32 * Σ|Σ⁻¹ k|`
(standard deviation, `k` the covariances of the data with the value at the point), `T` being a bound on the kernel's `theta`. -/
theorem C41_matern_error {g : Gp} {hp : HpVals} {v β : ℝ} (hr : Ready g hp v β) {cc : Bool} {st : EvalState g.nData}
    (hst : setupEvalModel g hp cc = .ok st) (hF : st.chofac ≠ none) {X : Arr2} (hX : X.c = g.dim) (hXr : X.r = 1)
    (hk : g.kernel = .matern) (hu : g.useGrad = true) (hfull : g.nGrad = g.nEval)
    {th : Arr1} (hth : hp.theta = some th) {T : ℝ} (hT : ∀ d < g.dim, th.get d ≤ T)
    {k : Vec g.nData} (hcr : IsCross g hp (X.get 0) k) :
    ∃ out H Hs w, evalModel g st hp X true true = .ok out ∧ out.d2mu = some H ∧ out.d2sig = some Hs ∧ st.w = some w ∧
      (Hs = none ↔ ∀ a, out.sig a = 0) ∧
      ∀ (a : Fin X.r) (e i : Fin g.dim), ∃ (f h : ℝ → ℝ) (D : ℝ),
        (∀ t, ∃ o dm ds, evalModel g st hp (moved X a e t) true false = .ok o ∧ o.dmu = some dm ∧ o.dsig = some ds ∧
          dm a i = f t ∧ ds a i = h t) ∧
        HasDerivAt f D (X.get a e) ∧ |H e i - D| ≤ 20 * (T * Real.sqrt T) * (10 : ℝ) ^ (-32 : ℤ) * ∑ q, |w q| ∧
        (0 < out.sig a → ∃ S E, Hs = some S ∧ HasDerivAt h E (X.get a e) ∧
          |S e i - E| ≤ v / out.sig a * (20 * (T * Real.sqrt T) * (10 : ℝ) ^ (-32 : ℤ) * ∑ q, |(st.KernEta⁻¹ *ᵥ k) q|)) := by
  classical
  obtain ⟨N, K, hs, hN⟩ := ready_setup hr.toV hst
  obtain ⟨F, hF'⟩ := Option.ne_none_iff_exists'.mp hF
  obtain ⟨b, hb, hbn, rfl⟩ := hr.beta
  have h0 : ∀ a : Fin X.r, (a : ℕ) = 0 := fun a => by omega
  have hT' : ∀ d < g.dim, thF hp d ≤ T := by rw [show thF hp = th.get by simp [thF, hth]]; exact hT
  rw [isCross_eq hr.ok hr.adm hcr]
  obtain ⟨H, hH, H1, H2, H3, H4, H5⟩ := crossHess_matern hr.ok hr.adm hk hu hX hXr hfull
  have hev := evalModel_hess hr.ok hr.adm hr.vpos hr.varK hb hbn hs (hs.etaNonneg hr.eta) hF' hX hXr hr.mask hH H1 H2 H3 H4
    (L := khC g hp (X.get 0)) H5
  refine ⟨_, _, _, _, hev, rfl, rfl, hs.w F hF', ?_, ?_⟩
  · constructor
    · intro h a
      show sgF g hp st.KernEta v (X.get a) = 0
      rw [h0 a]
      by_contra hne
      rw [if_neg hne] at h
      cases h
    · intro h
      have := h ⟨0, by omega⟩
      exact if_pos this
  · intro a e i
    have ha := h0 a
    refine ⟨fun t => dmuF g hp (st.KernEta⁻¹ *ᵥ (st.dataVec - priorMean g (b.get 0))) (Function.update (X.get a) e t) i,
      fun t => dsgF g hp st.KernEta v (Function.update (X.get a) e t) i,
      d2muF g hp (st.KernEta⁻¹ *ᵥ (st.dataVec - priorMean g (b.get 0))) (X.get a) e i, fun t => ?_, ?_, ?_, fun hpos => ?_⟩
    · refine ⟨_, _, _, ready_eval hr hs hF (X := moved X a e t) hX (by show 0 < X.r; omega) true false noHess, rfl, rfl, ?_, ?_⟩
      · show dmuF g hp _ ((moved X a e t).get a) i = _
        rw [moved_get_self]
      · show dsgF g hp st.KernEta v ((moved X a e t).get a) i = _
        rw [moved_get_self]
    · exact dmuF_deriv hr.ok hr.adm _ (X.get a) e.2 i.2
    · rw [ha]
      exact khC_err hr.ok hr.adm hk hT' _ e.2 i.2 _
    · have hpos' : 0 < sgF g hp st.KernEta v (X.get a) := hpos
      have hd := dsgF_deriv hr.ok hr.adm (ready_pd hs hF) hr.vpos (X.get a) e.2 i.2 (sgF_ne_iff hr hs hF hpos')
      refine ⟨of fun e i => d2sgL g hp st.KernEta v (X.get 0) (khC g hp (X.get 0)) e i, _,
        if_neg (by rw [ha] at hpos'; exact hpos'.ne'), hd, ?_⟩
      show |d2sgL g hp st.KernEta v (X.get 0) (khC g hp (X.get 0)) e i - d2sgF g hp st.KernEta v (X.get a) e i| ≤
        v / sgF g hp st.KernEta v (X.get a) * _
      rw [ha] at hpos' ⊢
      set σ := sgF g hp st.KernEta v (X.get 0)
      have hE := khC_err hr.ok hr.adm hk hT' (X.get 0) e.2 i.2 (st.KernEta⁻¹ *ᵥ kv g hp (X.get 0))
      have : d2sgL g hp st.KernEta v (X.get 0) (khC g hp (X.get 0)) e i - d2sgF g hp st.KernEta v (X.get 0) e i =
          -(v / σ) * (khC g hp (X.get 0) e i ⬝ᵥ st.KernEta⁻¹ *ᵥ kv g hp (X.get 0) -
            kh g hp (X.get 0) e i ⬝ᵥ st.KernEta⁻¹ *ᵥ kv g hp (X.get 0)) := by
        have alg : ∀ s A B C E : ℝ, s ≠ 0 →
            1 / (2 * s) * (-2 * v * (A + C) - E) - 1 / (2 * s) * (-2 * v * (B + C) - E) = -(v / s) * (A - B) := by
          intro s A B C E hs
          field_simp
          ring
        exact alg σ _ _ _ _ hpos'.ne'
      rw [this, abs_mul, abs_neg, abs_of_pos (div_pos hr.vpos hpos')]
      exact mul_le_mul_of_nonneg_left hE (div_pos hr.vpos hpos').le

/-- The example object with gradients at both points. -/
def exGpAll : Gp := { exGp with
  nGrad := 2
  nData := 6
  bvec := none
  grad := some ⟨2, 2, fun a d => a + d⟩ }

theorem exReadyAll : Ready exGpAll exHpB 3 4 where
  ok := { exGp_ok with
          mask := by intro l h; simp [exGpAll] at h
          nGrad := rfl
          noMask := by intro h; simp [exGpAll, exGp] at h
          nData := rfl
          grad_none := by intro h; simp [exGpAll, exGp] at h
          grad_some := fun _ => ⟨_, rfl, rfl, rfl⟩
          std_fgrad := by intro h; simp [exGpAll, exGp] at h }
  adm := ⟨exReady.adm.theta, exReady.adm.kernel, exReady.adm.vf_none, exReady.adm.vf_some, exReady.adm.vg_none, exReady.adm.vg_some⟩
  noise := .inl rfl
  precon := fun _ => rfl
  ne := by simp [exGpAll, exGp]
  vpos := by norm_num
  varK := rfl
  beta := ⟨_, rfl, rfl, rfl⟩
  eta := by norm_num [exGpAll, exGp]
  mask := by intro h; simp [exGpAll, exGp] at h

-- the model can be set up, and `1e-20` beside the first data point the bound applies (`C41_hessians_partial` does not)
example : ∃ st, setupEvalModel exGpAll exHpB false = .ok st ∧ st.chofac ≠ none :=
  ready_total exReadyAll.toV (by norm_num [exGpAll, exGp])
section
variable {st : EvalState exGpAll.nData} (hst : setupEvalModel exGpAll exHpB false = .ok st) (hF : st.chofac ≠ none)
example := C41_matern_error exReadyAll hst hF (X := ⟨1, 2, fun _ d => exX.get 0 d + (10 : ℝ) ^ (-20 : ℤ)⟩) rfl rfl rfl rfl rfl
  (th := exTheta) rfl (T := 3) (by intro d _; simp only [exTheta]; split_ifs <;> norm_num) (kv_isCross exReadyAll.adm _)
end

end Props
