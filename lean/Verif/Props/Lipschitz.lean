import Verif.Props.Average
import Mathlib.Analysis.Convex.SpecificFunctions.Basic
import Mathlib.Analysis.Calculus.MeanValue

/-! Property C129: explicit Lipschitz constants of the predictions. -/

open Np Spec GP Matrix Filter Topology

noncomputable section

namespace Spec

/-- Minus the slope of the kernel as a function of the squared scaled distance, at distance zero. -/
def slope0 : KType → ℝ
  | .sqExp => 1
  | .matern => 5 / 6
  | .ratQuad => 1

end Spec

namespace GP

theorem slope0_pos (k : KType) : 0 < slope0 k := by cases k <;> norm_num [slope0]

/-- `1 - (1 + u + u²/3) exp(-u) ≤ u²/6` for `u ≥ 0`. -/
theorem matern_below {u : ℝ} (hu : 0 ≤ u) : 1 - (1 + u + u ^ 2 / 3) * Real.exp (-u) ≤ u ^ 2 / 6 := by
  have hd : ∀ s : ℝ, HasDerivAt (fun s : ℝ => s ^ 2 / 6 + (1 + s + s ^ 2 / 3) * Real.exp (-s)) (s / 3 * (1 - (1 + s) * Real.exp (-s))) s := by
    intro s
    have h1 : HasDerivAt (fun s : ℝ => s ^ 2) (2 * s) s := by simpa using hasDerivAt_pow 2 s
    have h2 : HasDerivAt (fun s : ℝ => Real.exp (-s)) (-Real.exp (-s)) s := by simpa using (hasDerivAt_neg s).exp
    have h3 : HasDerivAt (fun s : ℝ => 1 + s + s ^ 2 / 3) (1 + 2 * s / 3) s := ((hasDerivAt_id s).const_add 1).add (h1.div_const 3)
    refine ((h1.div_const 6).add (h3.mul h2)).congr_deriv ?_
    ring
  have hm : MonotoneOn (fun s : ℝ => s ^ 2 / 6 + (1 + s + s ^ 2 / 3) * Real.exp (-s)) (Set.Ici 0) := by
    refine monotoneOn_of_deriv_nonneg (convex_Ici 0) (fun s _ => (hd s).continuousAt.continuousWithinAt)
      (fun s _ => (hd s).differentiableAt.differentiableWithinAt) ?_
    intro s hs
    rw [interior_Ici, Set.mem_Ioi] at hs
    rw [(hd s).deriv]
    refine mul_nonneg (by linarith) ?_
    have h1 := Real.add_one_le_exp s
    have h2 : (1 + s) * Real.exp (-s) ≤ 1 := by
      rw [Real.exp_neg, ← div_eq_mul_inv, div_le_one (Real.exp_pos s)]
      linarith
    linarith
  have := hm (Set.mem_Ici.mpr le_rfl) (Set.mem_Ici.mpr hu) hu
  simp at this
  linarith

/-- The kernel decreases at most linearly in the squared scaled distance. -/
theorem one_sub_kern {g : Gp} {hp : HpVals} (hh : HpAdm g hp) (x y : Pt) :
    1 - gpKern g hp x y ≤ slope0 g.kernel * wdist2 g.dim (hp.theta.getD ⟨0, fun _ => 0⟩).get x y := by
  obtain ⟨th, hth, hn, hpos⟩ := hh.theta
  have hr : 0 ≤ wdist2 g.dim (hp.theta.getD ⟨0, fun _ => 0⟩).get x y := by
    rw [hth]
    exact Finset.sum_nonneg fun d hd => mul_nonneg (hpos d (Finset.mem_range.mp hd)).le (sq_nonneg _)
  have hk := hh.kernel
  unfold gpKern kernOf kern
  set r := wdist2 g.dim (hp.theta.getD ⟨0, fun _ => 0⟩).get x y with hrd
  cases hkk : g.kernel with
  | sqExp =>
    show 1 - Real.exp (-r) ≤ 1 * r
    have := Real.add_one_le_exp (-r)
    linarith
  | matern =>
    show 1 - (1 + Real.sqrt 5 * Real.sqrt r + 5 / 3 * Real.sqrt r ^ 2) * Real.exp (-Real.sqrt 5 * Real.sqrt r) ≤ 5 / 6 * r
    have h1 := matern_below (u := Real.sqrt 5 * Real.sqrt r) (by positivity)
    have h2 : (Real.sqrt 5 * Real.sqrt r) ^ 2 = 5 * r := by rw [mul_pow, Real.sq_sqrt (by norm_num), Real.sq_sqrt hr]
    rw [h2] at h1
    rw [Real.sq_sqrt hr, neg_mul]
    have h3 : 5 / 3 * r = 5 * r / 3 := by ring
    rw [h3]
    linarith
  | ratQuad =>
    obtain ⟨α, hα, hα0⟩ : ∃ α, hp.kernel = some α ∧ 0 < α := by
      obtain ⟨α, h1, h2⟩ := hk hkk
      exact ⟨α, h2, h1⟩
    rw [hα]
    show 1 - (1 + r / α) ^ (-α) ≤ 1 * r
    have h1 : 1 + -α * (r / α) ≤ (1 + r / α) ^ (-α) := by
      have hb : (0 : ℝ) < 1 + r / α := by positivity
      rw [Real.rpow_def_of_pos hb]
      have := Real.add_one_le_exp (Real.log (1 + r / α) * -α)
      have hl := Real.log_le_sub_one_of_pos hb
      nlinarith
    have h2 : -α * (r / α) = -r := by field_simp
    rw [h2] at h1
    linarith

end GP

namespace Props

/-- **C129** The predicted standard deviation is Lipschitz in the scaled distance: `|σ(x) - σ(x')| ≤ √(2 c v) ‖x - x'‖`, with
`‖x - x'‖² = ∑ θ_d (x_d - x'_d)²` and `c = 1` (squared exponential, rational quadratic) or `5/6` (Matérn). -/
theorem C129_sigma {g : Gp} {hp : HpVals} {v β : ℝ} (hr : ReadyV g hp v β) {cc : Bool} {st : EvalState g.nData}
    (hst : setupEvalModel g hp cc = .ok st) (hF : st.chofac ≠ none) {th : Arr1} (hth : hp.theta = some th) {X : Arr2} (hX : X.c = g.dim)
    (hXr : 0 < X.r) (cg : Bool) :
    ∃ out : EvalOut X.r g.dim, evalModel g st hp X cg false = .ok out ∧
      ∀ p q : Fin X.r, (out.sig p - out.sig q) ^ 2 ≤ 2 * slope0 g.kernel * v * wdist2 g.dim th.get (X.get p) (X.get q) := by
  obtain ⟨out, ho, h⟩ := C124_sigma hr hst hF hX hXr cg
  refine ⟨out, ho, fun p q => ?_⟩
  have h1 := one_sub_kern hr.adm (X.get p) (X.get q)
  rw [hth] at h1
  have hθ : ∀ d < g.dim, 0 ≤ thF hp d := fun d hd => (thF_pos hr.adm d hd).le
  have h0 : gpKern g hp (X.get p) (X.get q) ≤ 1 := by
    rw [gpKern_canon hr.adm]
    exact prφ_le_one g.kernel (alphaOf_pos hr.adm.kernel) (wdist2_nonneg hθ _ _)
  have h2 : 0 ≤ 2 * v * (1 - gpKern g hp (X.get p) (X.get q)) := mul_nonneg (mul_nonneg two_pos.le hr.vpos.le) (by linarith)
  have h3 : (out.sig p - out.sig q) ^ 2 ≤ 2 * v * (1 - gpKern g hp (X.get p) (X.get q)) := by
    rw [← sq_abs, ← Real.sq_sqrt h2]
    exact pow_le_pow_left₀ (abs_nonneg _) (h p q) 2
  have h4 := mul_le_mul_of_nonneg_left h1 (mul_nonneg two_pos.le hr.vpos.le)
  calc _ ≤ _ := h3
    _ ≤ _ := h4
    _ = _ := by simp only [Option.getD_some]; ring

/-- **C129** and so is the mean, with a constant that depends on the data: `(μ(x) - μ(x'))² ≤ 2 c ‖x - x'‖² ∑ (y_i - m_i)² / τ_i`. -/
theorem C129_mean {g : Gp} {hp : HpVals} {v β : ℝ} (hr : ReadyV g hp v β) {cc : Bool} {st : EvalState g.nData}
    (hst : setupEvalModel g hp cc = .ok st) (hF : st.chofac ≠ none) {th : Arr1} (hth : hp.theta = some th) {N : Vec g.nData}
    {K : Mat g.nData g.nData} (hN : IsNoise g hp N) (hK : IsKern g hp K) (hτ : ∀ q, 0 < tau g K N st.etaK q) {y : Vec g.nData}
    (hy : DataSpec g y) {X : Arr2} (hX : X.c = g.dim) (hXr : 0 < X.r) (cg : Bool) :
    ∃ out : EvalOut X.r g.dim, evalModel g st hp X cg false = .ok out ∧
      ∀ p q : Fin X.r, (out.mu p - out.mu q) ^ 2 ≤ 2 * slope0 g.kernel * (∑ i, (y i - priorMean g β i) ^ 2 / tau g K N st.etaK i) *
        wdist2 g.dim th.get (X.get p) (X.get q) := by
  obtain ⟨out, ho, h⟩ := C124_mean hr hst hF hN hK hτ hy hX hXr cg
  refine ⟨out, ho, fun p q => ?_⟩
  have h1 := one_sub_kern hr.adm (X.get p) (X.get q)
  rw [hth] at h1
  have h6 : 0 ≤ ∑ i : Fin g.nData, (y i - priorMean g β i) ^ 2 / tau g K N st.etaK i :=
    Finset.sum_nonneg fun i _ => div_nonneg (sq_nonneg _) (hτ i).le
  have h4 := mul_le_mul_of_nonneg_left h1 (mul_nonneg two_pos.le h6)
  calc _ ≤ _ := h p q
    _ = _ := by ring
    _ ≤ _ := h4
    _ = _ := by simp only [Option.getD_some]; ring

theorem slope_bound {f : ℝ → ℝ} {f' x₀ L : ℝ} (hf : HasDerivAt f f' x₀) (hL : 0 ≤ L) (h : ∀ t, (f t - f x₀) ^ 2 ≤ L * (t - x₀) ^ 2) :
    f' ^ 2 ≤ L := by
  have h1 := hf.le_of_lip' (C := Real.sqrt L) (Real.sqrt_nonneg _) (Eventually.of_forall fun t => by
    rw [Real.norm_eq_abs, Real.norm_eq_abs, ← Real.sqrt_sq_eq_abs, ← Real.sqrt_sq_eq_abs, ← Real.sqrt_mul hL]
    exact Real.sqrt_le_sqrt (h t))
  rw [Real.norm_eq_abs] at h1
  rw [← sq_abs, ← Real.sq_sqrt hL]
  exact pow_le_pow_left₀ (abs_nonneg _) h1 2

/-- **C129** The gradients returned by `eval_model` obey the same bounds: `(∂σ/∂x_i)² ≤ 2 c v θ_i` and
`(∂μ/∂x_i)² ≤ 2 c θ_i ∑ (y_j - m_j)² / τ_j`. -/
theorem C129_slopes {g : Gp} {hp : HpVals} {v β : ℝ} (hr : Ready g hp v β) {cc : Bool} {st : EvalState g.nData}
    (hst : setupEvalModel g hp cc = .ok st) (hF : st.chofac ≠ none) {th : Arr1} (hth : hp.theta = some th) {N : Vec g.nData}
    {K : Mat g.nData g.nData} (hN : IsNoise g hp N) (hK : IsKern g hp K) (hτ : ∀ q, 0 < tau g K N st.etaK q) {y : Vec g.nData}
    (hy : DataSpec g y) {X : Arr2} (hX : X.c = g.dim) (hXr : 0 < X.r) :
    ∃ out dmu dsig, evalModel g st hp X true false = .ok out ∧ out.dmu = some dmu ∧ out.dsig = some dsig ∧
      ∀ (a : Fin X.r) (i : Fin g.dim), dsig a i ^ 2 ≤ 2 * slope0 g.kernel * v * th.get i ∧
        dmu a i ^ 2 ≤ 2 * slope0 g.kernel * (∑ j, (y j - priorMean g β j) ^ 2 / tau g K N st.etaK j) * th.get i := by
  obtain ⟨N₀, K₀, hs, -⟩ := ready_setup hr.toV hst
  obtain ⟨th', hth', hn, hpos⟩ := hr.adm.theta
  obtain rfl := Option.some.inj (hth.symm.trans hth')
  refine ⟨_, _, _, ready_eval hr hs hF hX hXr true false noHess, rfl, rfl, fun a i => ?_⟩
  have hi := hpos i i.2
  have hS : 0 ≤ ∑ j : Fin g.nData, (y j - priorMean g β j) ^ 2 / tau g K N st.etaK j :=
    Finset.sum_nonneg fun i _ => div_nonneg (sq_nonneg _) (hτ i).le
  have hc := slope0_pos g.kernel
  set x := X.get a with hx
  set Y : ℝ → Arr2 := fun t => ⟨2, g.dim, fun b => if b = 0 then Function.update x i t else x⟩ with hY
  have hw : ∀ t, wdist2 g.dim th.get ((Y t).get 0) ((Y t).get 1) = th.get i * (t - x i) ^ 2 := by
    intro t
    show ∑ d ∈ Finset.range g.dim, th.get d * (Function.update x i t d - x d) ^ 2 = _
    rw [Finset.sum_eq_single_of_mem (i : ℕ) (Finset.mem_range.mpr i.2)]
    · rw [Function.update_self]
    · intro d _ hd
      rw [Function.update_of_ne hd]
      ring
  constructor
  · by_cases h0 : sgF g hp st.KernEta v x = 0
    · show dsgF g hp st.KernEta v x i ^ 2 ≤ _
      rw [dsgF, h0]
      simp only [div_zero]
      have := mul_nonneg (mul_nonneg (mul_nonneg two_pos.le hc.le) hr.vpos.le) hi.le
      simpa using this
    · have hpos' : 0 < sgF g hp st.KernEta v x := lt_of_le_of_ne (mul_nonneg (Real.sqrt_nonneg _) (Real.sqrt_nonneg _)) (Ne.symm h0)
      refine slope_bound (sgF_deriv hr.ok hr.adm (ready_pd hs hF) hr.vpos x i.2 (sgF_ne_iff hr hs hF hpos')) (by positivity [hr.vpos]) fun t => ?_
      obtain ⟨o, ho, h⟩ := C129_sigma hr.toV hst hF hth (X := Y t) rfl (by norm_num [hY]) false
      have he := ready_eval hr hs hF (X := Y t) rfl (by norm_num [hY]) false false noHess
      obtain rfl := Except.ok.inj (ho.symm.trans he)
      have h1 : (sgF g hp st.KernEta v (Function.update x i t) - sgF g hp st.KernEta v x) ^ 2 ≤
          2 * slope0 g.kernel * v * wdist2 g.dim th.get ((Y t).get 0) ((Y t).get 1) := h (0 : Fin 2) (1 : Fin 2)
      rw [hw] at h1
      simp only [Function.update_eq_self]
      linarith
  · refine slope_bound (muF_deriv hr.ok hr.adm _ β x i.2) (by positivity) fun t => ?_
    obtain ⟨o, ho, h⟩ := C129_mean hr.toV hst hF hth hN hK hτ hy (X := Y t) rfl (by norm_num [hY]) false
    have he := ready_eval hr hs hF (X := Y t) rfl (by norm_num [hY]) false false noHess
    obtain rfl := Except.ok.inj (ho.symm.trans he)
    have h1 : (muF g hp (st.KernEta⁻¹ *ᵥ (st.dataVec - priorMean g β)) β (Function.update x i t) -
        muF g hp (st.KernEta⁻¹ *ᵥ (st.dataVec - priorMean g β)) β x) ^ 2 ≤
        2 * slope0 g.kernel * (∑ i, (y i - priorMean g β i) ^ 2 / tau g K N st.etaK i) *
          wdist2 g.dim th.get ((Y t).get 0) ((Y t).get 1) := h (0 : Fin 2) (1 : Fin 2)
    rw [hw] at h1
    simp only [Function.update_eq_self]
    linarith

/-- The hypotheses are met: two points, one with a gradient, noise and a nugget (Matérn kernel). -/
example : ∃ (st : EvalState exGp.nData) (N : Vec exGp.nData) (K : Mat exGp.nData exGp.nData) (y : Vec exGp.nData) (out : EvalOut 2 2)
    (dmu dsig : Mat 2 2), setupEvalModel exGp exHpB false = .ok st ∧ IsNoise exGp exHpB N ∧ IsKern exGp exHpB K ∧ DataSpec exGp y ∧
    (∀ q, 0 < tau exGp K N st.etaK q) ∧ evalModel exGp st exHpB ⟨2, 2, fun p _ => p⟩ true false = .ok out ∧ out.dmu = some dmu ∧
    out.dsig = some dsig ∧ dsig 1 0 ^ 2 ≤ 5 * exTheta.get 0 ∧
    dmu 1 0 ^ 2 ≤ 5 / 3 * (∑ j, (y j - priorMean exGp 4 j) ^ 2 / tau exGp K N st.etaK j) * exTheta.get 0 := by
  have hη : if exGp.o.etaConst then 0 < exGp.o.etaK else 1 < exGp.o.condMaxTarget := by norm_num [exGp]
  have hr := exReady.toV
  obtain ⟨st, h1, h2⟩ := ready_total hr hη
  obtain ⟨N, K, hs, hN⟩ := ready_setup hr h1
  have hτ : ∀ q, 0 < tau exGp K N st.etaK q := by
    intro q
    obtain ⟨A, a1, a2⟩ := hN
    have hn : 0 ≤ N q := by rw [a2]; exact NoiseSpec.nonneg hr.ok hr.adm a1 q
    have hd := hs.diag q
    refine add_pos_of_nonneg_of_pos hn (mul_pos (hs.etaPos hη) ?_)
    split_ifs <;> linarith
  obtain ⟨out, dmu, dsig, k1, k2, k3, k4⟩ := C129_slopes exReady h1 h2 (th := exTheta) rfl hN hs.isKern hτ hs.data
    (X := ⟨2, 2, fun p _ => p⟩) rfl Nat.two_pos
  obtain ⟨k5, k6⟩ := k4 1 (0 : Fin 2)
  refine ⟨st, N, K, _, out, dmu, dsig, h1, hN, hs.isKern, hs.data, hτ, k1, k2, k3, k5.trans (le_of_eq ?_), k6.trans (le_of_eq ?_)⟩
  · show 2 * (5 / 6) * 3 * exTheta.get 0 = _
    ring
  · show 2 * (5 / 6) * (∑ j, (st.dataVec j - priorMean exGp 4 j) ^ 2 / tau exGp K N st.etaK j) * exTheta.get 0 = _
    ring

end Props
