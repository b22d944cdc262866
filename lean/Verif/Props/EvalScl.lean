import Verif.Props.EvalDerivs
import Verif.Props.Rescale
import Verif.Model.EvalScl

/-! C45: predictions in original units. -/

open Np GP Spec Matrix

noncomputable section

namespace Props

/-- Scaling a batch with one coordinate of one point changed. -/
theorem scl_moved {s : Scl} (hI : Images s) {X : Arr2} (hX : X.c = s.xInit.c) (a i : ℕ) (t : ℝ) :
    xInit2Scl s (moved X a i t) =
      .ok (moved ⟨X.r, X.c, fun p d => sclPt s (X.get p) d⟩ a i ((t - s.xShift.get i) * s.xScale.get i)) := by
  rw [xInit2Scl_ok hI.shift_n hI.scale_n (X := moved X a i t) hX]
  refine congrArg Except.ok ?_
  unfold moved
  simp only [Arr2.mk.injEq, true_and]
  funext b d
  by_cases hb : b = a
  · subst hb
    by_cases hd : d = i
    · subst hd; simp [sclPt]
    · simp [sclPt, Function.update_of_ne hd]
  · simp [hb]

theorem arrs_ok {nx dim : ℕ} (o : EvalOut nx dim) : Obj6Ok dim o.arrs := by
  refine ⟨fun A hA => ?_, fun A hA => ?_, fun A hA => ?_, fun A hA => ?_⟩ <;>
  · obtain ⟨M, -, rfl⟩ := Option.map_eq_some_iff.mp hA
    rfl

/-- The chain rule for one coordinate. -/
theorem chain_coord {f : ℝ → ℝ} {D sh sc c x : ℝ} (k : ℝ) (h : HasDerivAt f D ((x - sh) * sc)) :
    HasDerivAt (fun t => f ((t - sh) * sc) / c + k) (D * (sc ^ 1 / c)) x := by
  have h1 : HasDerivAt (fun t : ℝ => (t - sh) * sc) (1 * sc) x := ((hasDerivAt_id x).sub_const sh).mul_const sc
  have h2 := ((h.comp x h1).div_const c).add_const k
  exact h2.congr_deriv (by ring)

/-- What `eval_model` returns in original units, in terms of the result in scaled units. -/
theorem evalScl_val {s : Scl} (hI : Images s) (ho : s.obj.isSome = true) {g : Gp} (hdim : g.dim = s.xInit.c) {hp : HpVals}
    {st : EvalState g.nData} {X X' : Arr2} (hX : xInit2Scl s X = .ok X') {cg ch : Bool} {o : EvalOut X'.r g.dim}
    (h : evalModel g st hp X' cg ch = .ok o) :
    ∃ out, evalModelScl s g st hp X cg ch = .ok out ∧
      (∃ mu, out.mu = some mu ∧ mu.n = X'.r ∧ ∀ a : Fin X'.r, mu.get a = o.mu a / s.objScale + s.objShift) ∧
      (∃ sig, out.sig = some sig ∧ sig.n = X'.r ∧ ∀ a : Fin X'.r, sig.get a = o.sig a / s.objScale) ∧
      (∀ dm, o.dmu = some dm → ∃ D, out.dmu = some D ∧ D.r = X'.r ∧ D.c = g.dim ∧
        ∀ (a : Fin X'.r) (i : Fin g.dim), D.get a i = dm a i * (s.xScale.get i ^ 1 / s.objScale)) ∧
      (∀ ds, o.dsig = some ds → ∃ D, out.dsig = some D ∧ D.r = X'.r ∧ D.c = g.dim ∧
        ∀ (a : Fin X'.r) (i : Fin g.dim), D.get a i = ds a i * (s.xScale.get i ^ 1 / s.objScale)) ∧
      (∀ H, o.d2mu = some H → ∃ D, out.d2mu = some D ∧ D.d = 1 ∧ D.r = g.dim ∧ D.c = g.dim ∧
        ∀ (e i : Fin g.dim), D.get 0 e i = H e i * (s.xScale.get i ^ 2 / s.objScale)) ∧
      (∀ H, o.d2sig = some (some H) → ∃ D, out.d2sig = some D ∧ D.d = 1 ∧ D.r = g.dim ∧ D.c = g.dim ∧
        ∀ (e i : Fin g.dim), D.get 0 e i = H e i * (s.xScale.get i ^ 2 / s.objScale)) := by
  have hval : evalModelScl s g st hp X cg ch = objScl2Init s o.arrs := by
    unfold evalModelScl
    rw [hX]
    simp only [ok_bind]
    rw [h]
    simp only [ok_bind]
  rw [hval, objScl2Init_val ho hI.scale_n (by rw [← hdim]; exact arrs_ok o)]
  refine ⟨_, rfl, ⟨_, rfl, rfl, fun a => ?_⟩, ⟨_, rfl, rfl, fun a => ?_⟩, fun dm hd => ?_, fun dm hd => ?_, fun H hH => ?_, fun H hH => ?_⟩
  · simp [Arr1.map]
  · simp [Arr1.map]
  · simp only [EvalOut.arrs, hd, Option.map_some]
    exact ⟨_, rfl, rfl, rfl, fun a i => by simp⟩
  · simp only [EvalOut.arrs, hd, Option.map_some]
    exact ⟨_, rfl, rfl, rfl, fun a i => by simp⟩
  · simp only [EvalOut.arrs, hH, Option.map_some]
    exact ⟨_, rfl, rfl, rfl, rfl, fun a i => by simp⟩
  · simp only [EvalOut.arrs, hH, Option.join_some, Option.map_some]
    exact ⟨_, rfl, rfl, rfl, rfl, fun a i => by simp⟩

/-- **C45**, mean, standard deviation and their gradients. With data scaling on, for every scaled object ready for prediction
and every batch of points in original coordinates: `eval_model` returns the scaled model's mean and standard deviation at the
scaled points converted to original units; the returned gradient of the mean is the derivative, wrt each original coordinate,
of the returned mean; and the same holds for the standard deviation where the scaled one is positive. -/
theorem C45_gradients {s : Scl} (hI : Images s) (ho : s.obj.isSome = true) {g0 g : Gp} (_hv : sclView g0 s = .ok g)
    (hdim : g.dim = s.xInit.c) {hp : HpVals} {v β : ℝ}
    (hr : Ready g hp v β) {cc : Bool} {st : EvalState g.nData} (hst : setupEvalModel g hp cc = .ok st) (hF : st.chofac ≠ none)
    {X : Arr2} (hX : X.c = g.dim) (hXr : 0 < X.r) :
    ∃ out mu sig dmu dsig, evalModelScl s g st hp X true false = .ok out ∧
      out.mu = some mu ∧ out.sig = some sig ∧ out.dmu = some dmu ∧ out.dsig = some dsig ∧
      mu.n = X.r ∧ sig.n = X.r ∧ dmu.r = X.r ∧ dmu.c = g.dim ∧ dsig.r = X.r ∧ dsig.c = g.dim ∧
      ∃ os, evalModel g st hp ⟨X.r, X.c, fun p d => sclPt s (X.get p) d⟩ true false = .ok os ∧
        (∀ a : Fin X.r, mu.get a = os.mu a / s.objScale + s.objShift ∧ sig.get a = os.sig a / s.objScale) ∧
        ∀ (a : Fin X.r) (i : Fin g.dim), ∃ f h : ℝ → ℝ,
          (∀ t cg, ∃ o m d, evalModelScl s g st hp (moved X a i t) cg false = .ok o ∧ o.mu = some m ∧ m.get a = f t ∧
            o.sig = some d ∧ d.get a = h t) ∧
          HasDerivAt f (dmu.get a i) (X.get a i) ∧ (0 < os.sig a → HasDerivAt h (dsig.get a i) (X.get a i)) := by
  have hXc : X.c = s.xInit.c := by rw [hX, hdim]
  obtain ⟨os, dm, h1, h2, h3⟩ := C39_mean_gradient hr hst hF (X := ⟨X.r, X.c, fun p d => sclPt s (X.get p) d⟩) hX hXr
  obtain ⟨os', ds, h1', h2', h3'⟩ := C40_sigma_gradient hr hst hF (X := ⟨X.r, X.c, fun p d => sclPt s (X.get p) d⟩) hX hXr
  rw [h1] at h1'
  obtain rfl : os = os' := by cases h1'; rfl
  obtain ⟨out, k0, ⟨mu, k1, k1n, k1v⟩, ⟨sig, k2, k2n, k2v⟩, k3, k4, -, -⟩ :=
    evalScl_val hI ho hdim (xInit2Scl_ok hI.shift_n hI.scale_n hXc) h1
  obtain ⟨dmu, k3, k3r, k3c, k3v⟩ := k3 dm h2
  obtain ⟨dsig, k4, k4r, k4c, k4v⟩ := k4 ds h2'
  refine ⟨out, mu, sig, dmu, dsig, k0, k1, k2, k3, k4, k1n, k2n, k3r, k3c, k4r, k4c, os, h1, fun a => ⟨k1v a, k2v a⟩, fun a i => ?_⟩
  obtain ⟨f, hf, hfd⟩ := h3 a i
  obtain ⟨-, h, hh, hhd⟩ := h3' a i
  refine ⟨fun t => f ((t - s.xShift.get i) * s.xScale.get i) / s.objScale + s.objShift,
    fun t => h ((t - s.xShift.get i) * s.xScale.get i) / s.objScale, fun t cg => ?_, ?_, fun hp0 => ?_⟩
  · obtain ⟨o, e1, e2⟩ := hf ((t - s.xShift.get i) * s.xScale.get i) cg
    obtain ⟨o', e1', e2'⟩ := hh ((t - s.xShift.get i) * s.xScale.get i) cg
    rw [e1] at e1'
    obtain rfl : o = o' := by cases e1'; rfl
    obtain ⟨O, l0, ⟨m, l1, -, l1v⟩, ⟨d, l2, -, l2v⟩, -⟩ := evalScl_val hI ho hdim (scl_moved hI hXc a i t) e1
    exact ⟨O, m, d, l0, l1, by rw [l1v a, e2], l2, by rw [l2v a, e2']⟩
  · rw [k3v a i]
    exact chain_coord s.objShift hfd
  · rw [k4v a i]
    have := chain_coord (c := s.objScale) 0 (hhd hp0)
    simpa using this

/-- **C45**, Hessians: for one point (the only case the code supports) the entry `[e, i]` of the Hessian of the mean returned in
original units, multiplied by `s_e / s_i`, is the derivative wrt `x_e` of the returned `i`-th gradient component, where `s` are
the scales of the coordinates; and the same for the standard deviation. -/
theorem C45_hessian_relation {s : Scl} (hI : Images s) (ho : s.obj.isSome = true) (h0 : ∀ d < s.xInit.c, s.xScale.get d ≠ 0)
    {g0 g : Gp} (_hv : sclView g0 s = .ok g)
    (hdim : g.dim = s.xInit.c) {hp : HpVals} {v β : ℝ}
    (hr : Ready g hp v β) {cc : Bool} {st : EvalState g.nData} (hst : setupEvalModel g hp cc = .ok st) (hF : st.chofac ≠ none)
    {X : Arr2} (hX : X.c = g.dim) (hXr : X.r = 1) (hfull : g.useGrad = true → g.nGrad = g.nEval)
    (hsep : g.kernel = .matern → g.useGrad = true → ∀ p < g.nEval,
      wdist2 g.dim (hp.theta.getD ⟨0, fun _ => 0⟩).get (sclPt s (X.get 0)) (g.x.get p) = 0 ∨
      (10 : ℝ) ^ (-16 : ℤ) ≤ Real.sqrt (wdist2 g.dim (hp.theta.getD ⟨0, fun _ => 0⟩).get (sclPt s (X.get 0)) (g.x.get p))) :
    ∃ out H os, evalModelScl s g st hp X true true = .ok out ∧ out.d2mu = some H ∧ H.d = 1 ∧ H.r = g.dim ∧ H.c = g.dim ∧
      evalModel g st hp ⟨X.r, X.c, fun p d => sclPt s (X.get p) d⟩ true true = .ok os ∧
      ∀ (a : Fin X.r) (e i : Fin g.dim), ∃ f h : ℝ → ℝ,
        (∀ t, ∃ o dm ds, evalModelScl s g st hp (moved X a e t) true false = .ok o ∧ o.dmu = some dm ∧ o.dsig = some ds ∧
          dm.get a i = f t ∧ ds.get a i = h t) ∧
        HasDerivAt f (s.xScale.get e / s.xScale.get i * H.get 0 e i) (X.get a e) ∧
        (0 < os.sig a → ∃ S, out.d2sig = some S ∧ HasDerivAt h (s.xScale.get e / s.xScale.get i * S.get 0 e i) (X.get a e)) := by
  have hXc : X.c = s.xInit.c := by rw [hX, hdim]
  obtain ⟨os, H, Hs, h1, h2, h2s, -, h3⟩ := C41_hessians_partial hr hst hF (X := ⟨X.r, X.c, fun p d => sclPt s (X.get p) d⟩) hX hXr
    hfull hsep
  obtain ⟨out, k0, -, -, -, -, k5, k6⟩ := evalScl_val hI ho hdim (xInit2Scl_ok hI.shift_n hI.scale_n hXc) h1
  obtain ⟨D, k5, k5d, k5r, k5c, k5v⟩ := k5 H h2
  refine ⟨out, D, os, k0, k5, k5d, k5r, k5c, h1, fun a e i => ?_⟩
  have hi0 := h0 i (by rw [← hdim]; exact i.2)
  obtain ⟨f, h, hf, hfd, hhd⟩ := h3 a e i
  refine ⟨fun t => f ((t - s.xShift.get e) * s.xScale.get e) * (s.xScale.get i ^ 1 / s.objScale),
    fun t => h ((t - s.xShift.get e) * s.xScale.get e) * (s.xScale.get i ^ 1 / s.objScale), fun t => ?_, ?_, fun hp0 => ?_⟩
  · obtain ⟨o, dm, ds, e1, e2, e3, e4, e5⟩ := hf ((t - s.xShift.get e) * s.xScale.get e)
    obtain ⟨O, l0, -, -, l3, l4, -⟩ := evalScl_val hI ho hdim (scl_moved hI hXc a e t) e1
    obtain ⟨Dm, l3, -, -, l3v⟩ := l3 dm e2
    obtain ⟨Ds, l4, -, -, l4v⟩ := l4 ds e3
    exact ⟨O, Dm, Ds, l0, l3, l4, by rw [l3v a i, e4], by rw [l4v a i, e5]⟩
  · rw [k5v e i]
    have := (chain_coord (c := 1) 0 hfd).mul_const (s.xScale.get i ^ 1 / s.objScale)
    simp only [div_one, add_zero] at this
    refine this.congr_deriv ?_
    field_simp
  · obtain ⟨S, hS, hSd⟩ := hhd hp0
    obtain ⟨E, k6, -, -, -, k6v⟩ := k6 S (by rw [h2s, hS])
    refine ⟨E, k6, ?_⟩
    rw [k6v e i]
    have := (chain_coord (c := 1) 0 hSd).mul_const (s.xScale.get i ^ 1 / s.objScale)
    simp only [div_one, add_zero] at this
    refine this.congr_deriv ?_
    field_simp

/-- **C45**, Hessian of the mean, what holds: if all coordinates have the same scale (which is what `set_data` produces) the
returned Hessian is the derivative of the returned gradient in original coordinates. Missing: different scales, where the
statement is false (next theorem). -/
theorem C45_hessian_isotropic_partial {s : Scl} (hI : Images s) (ho : s.obj.isSome = true)
    (h0 : ∀ d < s.xInit.c, s.xScale.get d ≠ 0) (hiso : ∀ d < s.xInit.c, ∀ e < s.xInit.c, s.xScale.get d = s.xScale.get e)
    {g0 g : Gp} (hv : sclView g0 s = .ok g) (hdim : g.dim = s.xInit.c) {hp : HpVals} {v β : ℝ}
    (hr : Ready g hp v β) {cc : Bool} {st : EvalState g.nData} (hst : setupEvalModel g hp cc = .ok st) (hF : st.chofac ≠ none)
    {X : Arr2} (hX : X.c = g.dim) (hXr : X.r = 1) (hfull : g.useGrad = true → g.nGrad = g.nEval)
    (hsep : g.kernel = .matern → g.useGrad = true → ∀ p < g.nEval,
      wdist2 g.dim (hp.theta.getD ⟨0, fun _ => 0⟩).get (sclPt s (X.get 0)) (g.x.get p) = 0 ∨
      (10 : ℝ) ^ (-16 : ℤ) ≤ Real.sqrt (wdist2 g.dim (hp.theta.getD ⟨0, fun _ => 0⟩).get (sclPt s (X.get 0)) (g.x.get p))) :
    ∃ out H, evalModelScl s g st hp X true true = .ok out ∧ out.d2mu = some H ∧
      ∀ (a : Fin X.r) (e i : Fin g.dim), ∃ f : ℝ → ℝ,
        (∀ t, ∃ o dm, evalModelScl s g st hp (moved X a e t) true false = .ok o ∧ o.dmu = some dm ∧ dm.get a i = f t) ∧
        HasDerivAt f (H.get 0 e i) (X.get a e) := by
  obtain ⟨out, H, os, h1, h2, -, -, -, -, h3⟩ := C45_hessian_relation hI ho h0 hv hdim hr hst hF hX hXr hfull hsep
  refine ⟨out, H, h1, h2, fun a e i => ?_⟩
  obtain ⟨f, h, hf, hfd, -⟩ := h3 a e i
  refine ⟨f, fun t => ?_, ?_⟩
  · obtain ⟨o, dm, ds, e1, e2, -, e3, -⟩ := hf t
    exact ⟨o, dm, e1, e2, e3⟩
  · have he : (e : ℕ) < s.xInit.c := by rw [← hdim]; exact e.2
    have hi : (i : ℕ) < s.xInit.c := by rw [← hdim]; exact i.2
    rw [hiso e he i hi, div_self (h0 i hi), one_mul] at hfd
    exact hfd

/-- **C45 does not hold** for Hessians when the coordinates have different scales: wherever `s_e ≠ s_i` and the returned entry
`[e, i]` is not zero, it is not the derivative wrt `x_e` of the returned `i`-th gradient component. -/
theorem C45_hessian_anisotropic_wrong {s : Scl} (hI : Images s) (ho : s.obj.isSome = true)
    (h0 : ∀ d < s.xInit.c, s.xScale.get d ≠ 0)
    {g0 g : Gp} (hv : sclView g0 s = .ok g) (hdim : g.dim = s.xInit.c) {hp : HpVals} {v β : ℝ}
    (hr : Ready g hp v β) {cc : Bool} {st : EvalState g.nData} (hst : setupEvalModel g hp cc = .ok st) (hF : st.chofac ≠ none)
    {X : Arr2} (hX : X.c = g.dim) (hXr : X.r = 1) (hfull : g.useGrad = true → g.nGrad = g.nEval)
    (hsep : g.kernel = .matern → g.useGrad = true → ∀ p < g.nEval,
      wdist2 g.dim (hp.theta.getD ⟨0, fun _ => 0⟩).get (sclPt s (X.get 0)) (g.x.get p) = 0 ∨
      (10 : ℝ) ^ (-16 : ℤ) ≤ Real.sqrt (wdist2 g.dim (hp.theta.getD ⟨0, fun _ => 0⟩).get (sclPt s (X.get 0)) (g.x.get p))) :
    ∃ out H, evalModelScl s g st hp X true true = .ok out ∧ out.d2mu = some H ∧
      ∀ (a : Fin X.r) (e i : Fin g.dim), s.xScale.get e ≠ s.xScale.get i → H.get 0 e i ≠ 0 → ∀ f : ℝ → ℝ,
        (∀ t, ∃ o dm, evalModelScl s g st hp (moved X a e t) true false = .ok o ∧ o.dmu = some dm ∧ dm.get a i = f t) →
        ¬ HasDerivAt f (H.get 0 e i) (X.get a e) := by
  obtain ⟨out, H, os, h1, h2, -, -, -, -, h3⟩ := C45_hessian_relation hI ho h0 hv hdim hr hst hF hX hXr hfull hsep
  refine ⟨out, H, h1, h2, fun a e i hne hH f hf hd => ?_⟩
  obtain ⟨f', h, hf', hfd, -⟩ := h3 a e i
  have hff : f = f' := by
    funext t
    obtain ⟨o, dm, e1, e2, e3⟩ := hf t
    obtain ⟨o', dm', ds, e1', e2', -, e3', -⟩ := hf' t
    rw [e1] at e1'
    cases e1'
    rw [e2] at e2'
    cases e2'
    rw [← e3, ← e3']
  subst hff
  have hi : (i : ℕ) < s.xInit.c := by rw [← hdim]; exact i.2
  have := hd.unique hfd
  have h5 : s.xScale.get e / s.xScale.get i = 1 := by
    have h6 : (s.xScale.get e / s.xScale.get i - 1) * H.get 0 e i = 0 := by linarith
    rcases mul_eq_zero.mp h6 with h | h
    · linarith
    · exact absurd h hH
  rw [div_eq_one_iff_eq (h0 i hi)] at h5
  exact hne h5

/-- The scaled view of consistent data is consistent: points, values and gradients are the images of the originals. -/
theorem sclView_ok {g0 : Gp} (hg : GpOk g0) {s : Scl} (hI : Images s) (ho : s.obj.isSome = true) (hx : s.xInit = g0.x)
    (hstd : ∀ S, g0.stdGrad = some S → S.c = g0.dim) :
    ∃ g, sclView g0 s = .ok g ∧ GpOk g ∧ g.dim = s.xInit.c ∧ g.nData = g0.nData ∧ g.x = s.xScl ∧
      (∀ a < g.nEval, g.fval.get a = (g0.fval.get a - s.objShift) * s.objScale) ∧
      OptRel (GradImage s s.objScale) g0.grad g.grad := by
  have hc : s.xInit.c = g0.dim := by rw [hx, hg.x_c]
  have hG : ∀ G, g0.grad = some G → G.c = s.xInit.c := by
    intro G hG
    cases hu : g0.useGrad with
    | false => rw [hg.grad_none hu] at hG; cases hG
    | true =>
      obtain ⟨G', h1, -, h2⟩ := hg.grad_some hu
      rw [h1] at hG
      cases hG
      rw [h2, hc]
  have hval := objInit2Scl_val ho hI.scale_n (a := { mu := some g0.fval, sig := g0.stdFval, dmu := g0.grad, dsig := g0.stdGrad })
    ⟨hG, fun S hS => by rw [hstd S hS, hc], fun A hA => (by cases hA), fun A hA => (by cases hA)⟩
  unfold sclView
  rw [hval]
  refine ⟨_, rfl, ?_, hc.symm, rfl, rfl, fun a _ => rfl, ?_⟩
  · refine ⟨by rw [hI.x.1, hx]; exact hg.x_r, by rw [hI.x.2.1, hx]; exact hg.x_c, hg.fval_n, hg.mask, hg.nGrad, hg.noMask, hg.nData,
      fun hu => ?_, fun hu => ?_, fun hk => ?_, fun hk => ?_, hg.fzero, hg.gzero, hg.noisy⟩
    · show Option.map _ g0.grad = none
      rw [hg.grad_none hu]; rfl
    · obtain ⟨G, h1, h2, h3⟩ := hg.grad_some hu
      show ∃ G', Option.map _ g0.grad = some G' ∧ _
      rw [h1]
      exact ⟨_, rfl, h2, h3⟩
    · obtain ⟨S, h1, h2⟩ := hg.std_fval hk
      show ∃ G', Option.map _ g0.stdFval = some G' ∧ _
      rw [h1]
      exact ⟨_, rfl, h2⟩
    · obtain ⟨S, h1, h2, h3⟩ := hg.std_fgrad hk
      show ∃ G', Option.map _ g0.stdGrad = some G' ∧ _
      rw [h1]
      exact ⟨_, rfl, h2, h3⟩
  · show OptRel _ g0.grad (Option.map _ g0.grad)
    cases g0.grad with
    | none => trivial
    | some G =>
      intro hGc
      refine ⟨rfl, rfl, fun a _ i _ => ?_⟩
      show G.get a i * ((1 / s.xScale.get i) ^ 1 * s.objScale) = _
      rw [pow_one]; ring

/-- Prediction can be asked for in scaled units whenever it could be asked for in original units. -/
theorem sclView_ready {g0 : Gp} {hp : HpVals} {v β : ℝ} (hr : Ready g0 hp v β) {s : Scl} (hI : Images s) (ho : s.obj.isSome = true)
    (hx : s.xInit = g0.x) (hstd : ∀ S, g0.stdGrad = some S → S.c = g0.dim) :
    ∃ g, sclView g0 s = .ok g ∧ Ready g hp v β ∧ g.dim = s.xInit.c ∧ g.o = g0.o := by
  obtain ⟨g, h1, h2, h3, -⟩ := sclView_ok hr.ok hI ho hx hstd
  have hg : ∃ v a b c, g = { g0 with x := s.xScl, fval := v, stdFval := a, grad := b, stdGrad := c } := by
    unfold sclView at h1
    cases hq : objInit2Scl s { mu := some g0.fval, sig := g0.stdFval, dmu := g0.grad, dsig := g0.stdGrad } with
    | error e => rw [hq] at h1; cases h1
    | ok r =>
      rw [hq] at h1
      simp only [ok_bind] at h1
      split at h1
      · cases h1; exact ⟨_, _, _, _, rfl⟩
      · cases h1
  obtain ⟨_, _, _, _, rfl⟩ := hg
  exact ⟨_, h1, ⟨h2, ⟨hr.adm.theta, hr.adm.kernel, hr.adm.vf_none, hr.adm.vf_some, hr.adm.vg_none, hr.adm.vg_some⟩, hr.noise, hr.precon,
    hr.ne, hr.vpos, hr.varK, hr.beta, hr.eta, hr.mask⟩, h3, rfl⟩

/-- **C45**, the pipeline succeeds: for every object ready for prediction with a positive nugget, creating the scaling object,
giving it the objective data, setting up the model in scaled units and evaluating at any non-empty batch all succeed, so the
hypotheses of the theorems above are met. -/
theorem C45_pipeline_total {g0 : Gp} {hp : HpVals} {v β : ℝ} (hr : Ready g0 hp v β)
    (hη : if g0.o.etaConst then 0 < g0.o.etaK else 1 < g0.o.condMaxTarget)
    (hstd : ∀ S, g0.stdGrad = some S → S.c = g0.dim) {m : XMtd} (hm : m ≠ .other) (dist : Option ℝ) (u u' : Bool) {mo : ObjMtd}
    (hmo : mo ≠ .other) {X : Arr2} (hX : X.c = g0.dim) (hXr : 0 < X.r) :
    ∃ s1 s g st out, newScl g0.x none u m dist = (s1, .ok ()) ∧
      setObjData ⟨g0.fval, g0.stdFval, g0.grad, g0.stdGrad⟩ u' mo s1 = (s, .ok ()) ∧
      Images s ∧ s.obj.isSome = true ∧ sclView g0 s = .ok g ∧ g.dim = s.xInit.c ∧ Ready g hp v β ∧
      setupEvalModel g hp false = .ok st ∧ st.chofac ≠ none ∧ evalModelScl s g st hp X true false = .ok out := by
  have hn : g0.x.r = g0.nEval := hr.ok.x_r
  have hpos := hr.ne
  have hidx0 : pyIdx ((g0.x.r : ℤ) - 1) g0.x.r = .ok (g0.x.r - 1) := by
    unfold pyIdx
    rw [if_pos (by omega)]
    congr 1; omega
  obtain ⟨s1, h1⟩ := newScl_total (x := g0.x) (idx := none) (u := u) (dist := dist) hm (by omega) (i := g0.x.r - 1) hidx0
  obtain ⟨hI, -, hx, -, -, hidx, -⟩ := newScl_ok h1
  obtain ⟨s, h2, h3, h4, -⟩ := setObjData_total hI (o := ⟨g0.fval, g0.stdFval, g0.grad, g0.stdGrad⟩)
    (by rw [hx, hn]; exact hr.ok.fval_n) (by rw [hr.ok.fval_n]; exact hpos)
    (by
      rintro G (hG | hG)
      · cases hu : g0.useGrad with
        | false => rw [hr.ok.grad_none hu] at hG; cases hG
        | true =>
          obtain ⟨G', e1, -, e2⟩ := hr.ok.grad_some hu
          rw [e1] at hG; cases hG
          rw [e2, hx, hr.ok.x_c]
      · rw [hstd G hG, hx, hr.ok.x_c])
    (i := g0.x.r - 1) (by rw [hidx]; show pyIdx ((g0.x.r : ℤ) - 1) g0.fval.n = _; rw [hr.ok.fval_n, ← hn]; exact hidx0) u' hmo
  have hR := SclReach.call (.objData ⟨g0.fval, g0.stdFval, g0.grad, g0.stdGrad⟩ u' mo) (.new h1) h2
  have hI' := reach_images hR
  have ho : s.obj.isSome = true := by rw [h3]; rfl
  obtain ⟨g, h5, h6, h7, h8⟩ := sclView_ready hr hI' ho (by rw [h4, hx]) hstd
  have hXc : X.c = s.xInit.c := by rw [hX, h4, hx, hr.ok.x_c]
  obtain ⟨st, o, h9, h10, -⟩ := C37_pipeline_total h6.toV (by rw [h8]; exact hη) (X := ⟨X.r, X.c, fun p d => sclPt s (X.get p) d⟩)
    (by rw [h7]; exact hXc) hXr true
  have hF : st.chofac ≠ none := by
    intro h
    unfold evalModel at h10
    rw [h] at h10
    cases h10
  obtain ⟨out, h11, -⟩ := evalScl_val hI' ho h7 (xInit2Scl_ok hI'.shift_n hI'.scale_n hXc) h10
  exact ⟨s1, s, g, st, out, h1, h2, hI', ho, h5, h7, h6, h9, hF, h11⟩

/-- The hypotheses of the C45 theorems are met by an object with gradients at one of two points in the plane. -/
example : ∃ s1 s g st out, newScl exGp.x none true .vmin (some 3) = (s1, .ok ()) ∧
    setObjData ⟨exGp.fval, exGp.stdFval, exGp.grad, exGp.stdGrad⟩ true .dfltMax s1 = (s, .ok ()) ∧
    Images s ∧ s.obj.isSome = true ∧ sclView exGp s = .ok g ∧ g.dim = s.xInit.c ∧ Ready g exHpB 3 4 ∧
    setupEvalModel g exHpB false = .ok st ∧ st.chofac ≠ none ∧
    evalModelScl s g st exHpB ⟨2, 2, fun a d => a + 3 * d⟩ true false = .ok out :=
  C45_pipeline_total exReady (by norm_num [exGp]) (by intro S hS; simp [exGp] at hS) (by decide) _ _ _ (by decide) rfl (by decide)

end Props
