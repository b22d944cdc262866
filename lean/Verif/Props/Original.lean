import Verif.Proofs.CondAffine
import Verif.Proofs.Units
import Verif.Props.EvalScl
import Verif.Props.Predict

/-! C75: predictions with data scaling, in the original units. -/

open Np GP Matrix Spec

noncomputable section

namespace Props

/-- Points that are images of other points in the coordinates that matter. -/
def Img (s : Scl) (dim : ℕ) (x x' : Pt) : Prop := ∀ d < dim, x' d = sclPt s x d

theorem jointCov_orig {g g0 : Gp} {hp : HpVals} {s : Scl} (ht : hp.theta.isSome = true) (hk : g.kernel = g0.kernel) (hd : g.dim = g0.dim)
    {n1 g1 n2 g2 : ℕ} {X X' Y Y' : ℕ → Pt} {s1 s2 : ℕ → ℕ} (hX : ∀ p < n1, Img s g0.dim (X p) (X' p))
    (hX1 : ∀ a < g1, s1 a < n1) (hY : ∀ p < n2, Img s g0.dim (Y p) (Y' p)) (hY1 : ∀ a < g2, s2 a < n2) {A : ℕ → ℕ → ℝ}
    (h : JointCov (gpKern g hp) g.dim n1 g1 n2 g2 X' s1 Y' s2 A) {u1 u2 : ℕ → ℝ} (hu1 : ∀ a < n1, u1 a = 1)
    (hv1 : ∀ i < g0.dim, ∀ a < g1, u1 (n1 + i * g1 + a) = s.xScale.get i) (hu2 : ∀ a < n2, u2 a = 1)
    (hv2 : ∀ i < g0.dim, ∀ a < g2, u2 (n2 + i * g2 + a) = s.xScale.get i) :
    JointCov (gpKern g0 (origHp s hp)) g0.dim n1 g1 n2 g2 X s1 Y s2 fun p q => u1 p * u2 q * A p q := by
  have hkern : gpKern g hp = gpKern g0 hp := by unfold gpKern; rw [hk, hd]
  rw [hkern, hd] at h
  have key : ∀ {x x' y y' : Pt} {ox oy : Option ℕ} {e : ℝ}, Img s g0.dim x x' → Img s g0.dim y y' → (∀ i, ox = some i → i < g0.dim) →
      (∀ i, oy = some i → i < g0.dim) → IsCov (gpKern g0 hp) x' ox y' oy e →
      IsCov (gpKern g0 (origHp s hp)) x ox y oy (optUnit s ox * optUnit s oy * e) := by
    intro x x' y y' ox oy e hx hy h1 h2 h3
    exact isCov_scl (gpKern_orig ht s) (isCov_congr (fun a a' b b' => gpKern_congr g0 hp a a' b b') hx hy h1 h2 h3)
  have hn : ∀ i, (none : Option ℕ) = some i → i < g0.dim := fun i hi => by cases hi
  have hs : ∀ {j}, j < g0.dim → ∀ i, some j = some i → i < g0.dim := fun hj i hi => by cases hi; exact hj
  refine ⟨fun p hp q hq => ?_, fun i hi a ha q hq => ?_, fun p hp j hj b hb => ?_, fun i hi a ha j hj b hb => ?_⟩
  · have := key (hX p hp) (hY q hq) hn hn (show IsCov _ _ none _ none (A p q) from h.val_val p hp q hq)
    rw [hu1 p hp, hu2 q hq]
    exact this
  · have := key (hX _ (hX1 a ha)) (hY q hq) (hs hi) hn (h.der_val i hi a ha q hq)
    rw [hv1 i hi a ha, hu2 q hq]
    exact this
  · have := key (hX p hp) (hY _ (hY1 b hb)) hn (hs hj) (h.val_der p hp j hj b hb)
    rw [hu1 p hp, hv2 j hj b hb]
    exact this
  · have := key (hX _ (hX1 a ha)) (hY _ (hY1 b hb)) (hs hi) (hs hj) (h.der_der i hi a ha j hj b hb)
    rw [hv1 i hi a ha, hv2 j hj b hb]
    exact this

/-- The data of `g0` replaced. -/
abbrev withData (g0 : Gp) (x : Arr2) (f : Arr1) (sf : Option Arr1) (G sG : Option Arr2) : Gp :=
  { g0 with x := x, fval := f, stdFval := sf, grad := G, stdGrad := sG }

/-- The scaled view. -/
theorem sclView_img {g0 : Gp} (hg : GpOk g0) {s : Scl} (hI : Images s) (ho : s.obj.isSome = true) (hx : s.xInit = g0.x)
    (hstd : ∀ S, g0.stdGrad = some S → S.c = g0.dim) : ∃ f sf G sG, sclView g0 s = .ok (withData g0 s.xScl f sf G sG) ∧
      (∀ a < g0.nEval, f.get a = (g0.fval.get a - s.objShift) * s.objScale) ∧
      (∀ S, g0.stdFval = some S → ∃ S', sf = some S' ∧ ∀ a, S'.get a = S.get a * s.objScale) ∧
      (∀ H, g0.grad = some H → ∃ H', G = some H' ∧ ∀ a i, H'.get a i = H.get a i * (s.objScale / s.xScale.get i)) ∧
      (∀ H, g0.stdGrad = some H → ∃ H', sG = some H' ∧ ∀ a i, H'.get a i = H.get a i * (s.objScale / s.xScale.get i)) := by
  have hc : s.xInit.c = g0.dim := by rw [hx, hg.x_c]
  have hG : ∀ G, g0.grad = some G → G.c = s.xInit.c := by
    intro G hG
    cases hu : g0.useGrad with
    | false => rw [hg.grad_none hu] at hG; cases hG
    | true =>
      obtain ⟨G', h1, -, h2⟩ := hg.grad_some hu
      rw [h1] at hG
      cases hG
      rw [h2, hc]
  have hval := objInit2Scl_val ho hI.scale_n (a := { mu := some g0.fval, sig := g0.stdFval, dmu := g0.grad, dsig := g0.stdGrad })
    ⟨hG, fun S hS => by rw [hstd S hS, hc], fun A hA => (by cases hA), fun A hA => (by cases hA)⟩
  unfold sclView
  rw [hval]
  refine ⟨_, _, _, _, rfl, fun a _ => rfl, fun S hS => ⟨_, by rw [hS]; rfl, fun a => rfl⟩, fun H hH => ⟨_, by rw [hH]; rfl, fun a i => ?_⟩,
    fun H hH => ⟨_, by rw [hH]; rfl, fun a i => ?_⟩⟩
  · show H.get a i * ((1 / s.xScale.get i) ^ 1 * s.objScale) = _
    rw [pow_one, one_div, div_eq_mul_inv, mul_comm s.objScale]
  · show H.get a i * ((1 / s.xScale.get i) ^ 1 * s.objScale) = _
    rw [pow_one, one_div, div_eq_mul_inv, mul_comm s.objScale]

/-- **C75, posterior in original units.** For consistent data `g0`, a scaling object `s` that holds them with positive scales, and
hyperparameters for the scaled data: the mean and standard deviation that `eval_model` returns in original units are those of the
conditional distribution of the function at `x` given the original data, for the prior with mean `β / c + shift`, variance `v / c²`
(`c` the scale of the objective) and kernel parameters `theta_d s_d²`. Noise variances are multiplied by `v` (C36), and the nugget acts
on the derivative wrt `x_i` with the factor `s_i²`. -/
theorem C75_posterior_original_units {s : Scl} (hI : Images s) (ho : s.obj.isSome = true) {g0 g : Gp} (hx : s.xInit = g0.x)
    (hstd : ∀ S, g0.stdGrad = some S → S.c = g0.dim) (hs0 : ∀ d < g0.dim, 0 < s.xScale.get d) (hc0 : 0 < s.objScale)
    (hv : sclView g0 s = .ok g) {hp : HpVals} {v β : ℝ} (hr : Ready g0 hp v β) {cc : Bool} {st : EvalState g.nData}
    (hst : setupEvalModel g hp cc = .ok st) (hF : st.chofac ≠ none) {X : Arr2} (hX : X.c = g0.dim) (hXr : 0 < X.r) (cg : Bool) :
    ∃ out μ σ, evalModelScl s g st hp X cg false = .ok out ∧ out.mu = some μ ∧ μ.n = X.r ∧ out.sig = some σ ∧ σ.n = X.r ∧
      ∀ u, UnitFactor g0 s u → ∀ N, OrigNoise g0 hp s N → ∀ K, IsKern g0 (origHp s hp) K → ∀ y, DataSpec g0 y → ∀ a < X.r, ∀ k,
        IsCross g0 (origHp s hp) (X.get a) k → 0 < σ.get a →
        CondNormal (origCov g0.o.precon (v / s.objScale ^ 2) K (fun q => v * N q) st.etaK u) ((v / s.objScale ^ 2) • k) (v / s.objScale ^ 2)
          (priorMean g0 (β / s.objScale + s.objShift)) (β / s.objScale + s.objShift) y (μ.get a) (σ.get a ^ 2) := by
  have hg0 := hr.ok
  have hcd : s.xInit.c = g0.dim := by rw [hx, hg0.x_c]
  obtain ⟨f, sf, G, sG, hv', hf, hsf, hG, hsG⟩ := sclView_img hr.ok hI ho hx hstd
  obtain ⟨g', hv'', hR, -, -⟩ := sclView_ready hr hI ho hx hstd
  rw [hv] at hv''
  cases hv''
  rw [hv] at hv'
  obtain rfl := Except.ok.inj hv'
  set X' : Arr2 := ⟨X.r, X.c, fun p d => sclPt s (X.get p) d⟩ with hX'
  have hXs : xInit2Scl s X = .ok X' := xInit2Scl_ok hI.shift_n hI.scale_n (by rw [hX, hcd])
  obtain ⟨o, hev, hpost⟩ := C36_posterior_with_scaled_noise hR.toV hst hF (X := X') hX hXr cg
  obtain ⟨out, h1, ⟨μ, h2, h3, h4⟩, ⟨σ, h5, h6, h7⟩, -⟩ := evalScl_val (g := withData g0 s.xScl f sf G sG) hI ho hcd.symm hXs hev
  refine ⟨out, μ, σ, h1, h2, h3, h5, h6, fun u hu N hN K hK y hy a ha k hk hσ => ?_⟩
  obtain ⟨Ns, Ks, hs, hNs⟩ := ready_setup hR.toV hst
  have hpd := ready_pd hs hF
  have hth : hp.theta.isSome = true := by obtain ⟨t, ht, -⟩ := hr.adm.theta; rw [ht]; rfl
  have hadm : HpAdm g0 (origHp s hp) := by
    obtain ⟨t, ht, hn, hp0⟩ := hr.adm.theta
    refine ⟨⟨⟨t.n, fun d => t.get d * s.xScale.get d ^ 2⟩, by simp [origHp, ht], hn, fun d hd => ?_⟩, hr.adm.kernel, hr.adm.vf_none, hr.adm.vf_some,
      hr.adm.vg_none, hr.adm.vg_some⟩
    have := hp0 d hd; have := hs0 d hd
    positivity
  -- the kernel matrix
  have himg : ∀ p < g0.nEval, Img s g0.dim (g0.x.get p) (s.xScl.get p) := fun p hp d hd => by
    have := hI.x.2.2 p (by rw [hx, hg0.x_r]; exact hp) d (by rw [hcd]; exact hd)
    rw [hx] at this; exact this
  have hsel : ∀ a < g0.nGrad, gSel g0.bvec a < g0.nEval := fun a ha => by
    refine gSel_lt hg0.mask ?_
    rw [hg0.nGrad] at ha
    split at ha
    · exact ha
    · omega
  obtain ⟨A, hA, hKA⟩ := hs.isKern
  have hJ := jointCov_orig (g := withData g0 s.xScl f sf G sG) (g0 := g0) hth rfl rfl (X := g0.x.get) (Y := g0.x.get) himg hsel himg hsel hA hu.val hu.grad hu.val hu.grad
  have hK' : K = of fun (i j : Fin g0.nData) => u i * u j * Ks i j := isKern_unique hg0 hadm hK ⟨_, hJ, fun i j => by simp only [of_apply, hKA]⟩
  -- the covariances with the function at the point
  have hks := kv_isCross (g := withData g0 s.xScl f sf G sG) (hp := hp) hR.adm (sclPt s (X.get a))
  obtain ⟨B, hB, hkB⟩ := hks
  have hJ2 := jointCov_orig (g := withData g0 s.xScl f sf G sG) (g0 := g0) (s := s) hth rfl rfl (X := g0.x.get) (Y := fun _ => X.get a) himg hsel
    (fun _ _ d _ => rfl) (fun a ha => by omega) hB hu.val hu.grad (u2 := fun _ => 1) (fun _ _ => rfl) (fun _ _ _ h => by omega)
  have hk' : k = fun i : Fin g0.nData => u i * kv (withData g0 s.xScl f sf G sG) hp (sclPt s (X.get a)) i := by
    rw [isCross_eq hg0 hadm hk]
    refine (isCross_eq hg0 hadm ⟨_, hJ2, fun i => ?_⟩).symm
    simp only [hkB, mul_one]
  have hupos : ∀ i : Fin g0.nData, 0 < u i := by
    intro i
    have hi : (i : ℕ) < g0.nEval + g0.nGrad * g0.dim := by rw [← hg0.nData]; exact i.2
    rcases row_cases hi with h | ⟨j, b, hj, hb, he⟩
    · rw [hu.val _ h]; norm_num
    · rw [he, hu.grad j hj b hb]; exact hs0 j hj
  -- the noise
  have hN' : ∀ i : Fin g0.nData, N i = u i ^ 2 / s.objScale ^ 2 * Ns i := by
    obtain ⟨Na, hNa, hNa'⟩ := hNs
    intro i
    rw [hNa']
    have hi : (i : ℕ) < g0.nEval + g0.nGrad * g0.dim := by rw [← hg0.nData]; exact i.2
    rcases row_cases hi with h | ⟨j, b, hj, hb, he⟩
    · rw [hN.val _ h, hNa.val _ h, hu.val _ h]
      unfold valVar
      show (if (g0.fvalZero && g0.fgradZero) = true then (0 : ℝ) else _) * _ = 1 ^ 2 / s.objScale ^ 2 *
        (if (g0.fvalZero && g0.fgradZero) = true then 0 else if g0.knownFval = true then ((sf.getD ⟨0, fun _ => 0⟩).get i) ^ 2 else hp.varFval.getD 0)
      by_cases hz : (g0.fvalZero && g0.fgradZero) = true
      · simp [hz]
      · by_cases hkn : g0.knownFval = true
        · obtain ⟨S, hS, -⟩ := hg0.std_fval hkn
          obtain ⟨S', hS', hSe⟩ := hsf S hS
          rw [if_neg hz, if_neg hz, if_pos hkn, if_pos hkn, if_pos hkn, hS, hS']
          simp only [Option.getD_some, hSe]
          field_simp
        · rw [if_neg hz, if_neg hz, if_neg hkn, if_neg hkn, if_neg hkn]
          ring
    · rw [he, hN.grad j hj b hb, hNa.grad j hj b hb, hu.grad j hj b hb]
      unfold gradVar
      show (if (g0.fvalZero && g0.fgradZero) = true then (0 : ℝ) else _) * _ = s.xScale.get j ^ 2 / s.objScale ^ 2 *
        (if (g0.fvalZero && g0.fgradZero) = true then 0 else if g0.knownFgrad = true then ((sG.getD ⟨0, 0, fun _ _ => 0⟩).get b j) ^ 2 else hp.varFgrad.getD 0)
      have hsj := (hs0 j hj).ne'
      by_cases hz : (g0.fvalZero && g0.fgradZero) = true
      · simp [hz]
      · by_cases hkn : g0.knownFgrad = true
        · obtain ⟨S, hS, -⟩ := hg0.std_fgrad hkn
          obtain ⟨S', hS', hSe⟩ := hsG S hS
          rw [if_neg hz, if_neg hz, if_pos hkn, if_pos hkn, if_pos hkn, hS, hS']
          simp only [Option.getD_some, hSe]
          field_simp
        · rw [if_neg hz, if_neg hz, if_neg hkn, if_neg hkn, if_neg hkn]
          ring
  have hσ' : σ.get a = o.sig ⟨a, ha⟩ / s.objScale := h7 ⟨a, ha⟩
  have hμ' : μ.get a = o.mu ⟨a, ha⟩ / s.objScale + s.objShift := h4 ⟨a, ha⟩
  have hop : 0 < o.sig ⟨a, ha⟩ := by
    rw [hσ'] at hσ
    have := mul_pos hσ hc0
    rwa [div_mul_cancel₀ _ hc0.ne'] at this
  have hcn := hpost Ns hNs Ks hs.isKern st.dataVec hs.data ⟨a, ha⟩ (kv (withData g0 s.xScl f sf G sG) hp (sclPt s (X.get a))) ⟨B, hB, hkB⟩ hop
  have hCpd : (noisyCov g0.o.precon v Ks (v • Ns) st.etaK).PosDef := by
    have hC : noisyCov g0.o.precon v Ks (v • Ns) st.etaK = v • st.KernEta := by
      rw [hs.cov]
      ext i j
      simp only [noisyCov, of_apply, Matrix.smul_apply, Matrix.add_apply, diagonal_apply, addDiag, Pi.smul_apply, smul_eq_mul]
      by_cases hij : i = j
      · simp only [hij, if_true]
        split_ifs <;> ring
      · simp only [hij, if_false]; ring
    rw [hC]
    exact hpd.smul hr.vpos
  have hc2 := condNormal_affine hCpd hcn (w := fun i => u i / s.objScale) (fun i => div_pos (hupos i) hc0) (a := 1 / s.objScale) (by positivity)
    (fun i => if (i : ℕ) < g0.nEval then s.objShift else 0) s.objShift
  have hcne := hc0.ne'
  convert hc2 using 1
  · ext i j
    rw [diag_conj_entry]
    simp only [origCov, noisyCov, of_apply, hK', hN', Pi.smul_apply, smul_eq_mul]
    show _ + (if i = j then _ + _ * (if g0.o.precon = true then _ else _) else (0 : ℝ)) = _ * (_ + if i = j then _ + _ * (if g0.o.precon = true then _ else _) else (0 : ℝ)) * _
    by_cases hij : i = j
    · subst hij
      simp only [if_true]
      split_ifs <;> (field_simp)
    · simp only [hij, if_false]
      field_simp
      ring
  · rw [hk']
    funext i
    simp only [Pi.smul_apply, smul_eq_mul]
    field_simp
  · field_simp
  · funext i
    simp only [priorMean, Pi.add_apply, Pi.mul_apply]
    show (if (i : ℕ) < g0.nEval then _ else (0 : ℝ)) = u i / s.objScale * (if (i : ℕ) < g0.nEval then β else 0) + (if (i : ℕ) < g0.nEval then s.objShift else 0)
    by_cases h : (i : ℕ) < g0.nEval
    · simp only [h, if_true, hu.val _ h]; ring
    · simp only [h, if_false]; ring
  · ring
  · funext i
    simp only [Pi.add_apply, Pi.mul_apply]
    have hi : (i : ℕ) < g0.nEval + g0.nGrad * g0.dim := by rw [← hg0.nData]; exact i.2
    rcases row_cases hi with h | ⟨j, b, hj, hb, he⟩
    · rw [hy.val i h, hs.data.val i h, hu.val _ h, if_pos h]
      show _ = 1 / s.objScale * f.get i + s.objShift
      rw [hf i h]
      field_simp
      ring
    · have hug : g0.useGrad = true := by
        by_contra hug
        rw [hg0.nGrad] at hb
        simp [hug] at hb
      obtain ⟨H, hH, -⟩ := hg0.grad_some hug
      obtain ⟨H', hH', hHe⟩ := hG H hH
      have hsj := (hs0 j hj).ne'
      rw [hy.grad H hH i j hj b hb he, hs.data.grad H' hH' i j hj b hb he, if_neg (by omega), hHe, he, hu.grad j hj b hb]
      field_simp
      ring
  · rw [hμ']; ring
  · rw [hσ']; field_simp

end Props
