import Verif.Model.RescaleHp
import Verif.Spec.RescaleSpec
import Verif.Props.Rescale
import Verif.Props.Cond

/-! C52, C53: moving length scales into the data. -/

open Np GP Spec

noncomputable section

namespace Props

theorem thetaLog_eq {log : Bool} {v : ℝ} : thetaLog log v = Real.logb 10 (thetaLin log v) := by
  unfold thetaLog thetaLin
  cases log
  · rfl
  · simp [Real.logb_rpow]

theorem thetaLin_enc {log : Bool} {t : ℝ} (ht : 0 < t) : thetaLin log (thetaEnc log t) = t := by
  unfold thetaEnc thetaLin
  cases log
  · rfl
  · simp [Real.rpow_logb, ht]

theorem geoMean_pos {n : ℕ} {θ : ℕ → ℝ} (h : ∀ d < n, 0 < θ d) : 0 < geoMean n θ :=
  Real.rpow_pos_of_pos (Finset.prod_pos fun d hd => h d (Finset.mem_range.mp hd)) _

theorem geoMean_const {n : ℕ} (hn : 0 < n) {θ : ℕ → ℝ} {t : ℝ} (ht : 0 < t) (h : ∀ d < n, θ d = t) : geoMean n θ = t := by
  unfold geoMean
  rw [Finset.prod_congr rfl fun d hd => h d (Finset.mem_range.mp hd), Finset.prod_const, Finset.card_range, ← Real.rpow_natCast,
    ← Real.rpow_mul ht.le, mul_one_div_cancel (by exact_mod_cast hn.ne'), Real.rpow_one]

theorem star_eq {n : ℕ} {log : Bool} {v : ℕ → ℝ} (h : ∀ d < n, 0 < thetaLin log (v d)) :
    (10 : ℝ) ^ ((∑ d ∈ Finset.range n, thetaLog log (v d)) / n) = geoMean n fun d => thetaLin log (v d) := by
  have : ∑ d ∈ Finset.range n, thetaLog log (v d) = Real.logb 10 (∏ d ∈ Finset.range n, thetaLin log (v d)) := by
    rw [Real.logb_prod _ _ fun d hd => (h d (Finset.mem_range.mp hd)).ne']
    exact Finset.sum_congr rfl fun d _ => thetaLog_eq
  unfold geoMean
  rw [this, div_eq_mul_one_div, Real.rpow_mul (by norm_num), Real.rpow_logb (by norm_num) (by norm_num)
    (Finset.prod_pos fun d hd => h d (Finset.mem_range.mp hd))]

/-- What `rescaling_data_w_theta_sol` returns. -/
theorem rescaleTheta_ok {log : Bool} {dim : ℕ} {X : Arr2} {scale1 theta : Arr1} (h2 : 2 ≤ X.r) (hX : X.c = dim)
    (hn : theta.n = dim) (hs : scale1.n = dim) (hθ : ∀ d < dim, 0 < thetaLin log (theta.get d)) :
    ∃ r D, rescaleTheta log dim X scale1 theta = .ok r ∧
      IsMinDist (stretched X fun d => Real.sqrt (thetaLin log (theta.get d) / geoMean dim fun e => thetaLin log (theta.get e))) D ∧
      r.theta = ⟨dim, fun _ => thetaEnc log ((geoMean dim fun e => thetaLin log (theta.get e)) /
        (calcVreq X.r dim / max D ((10 : ℝ) ^ (-15 : ℤ))) ^ 2)⟩ ∧
      r.scale.n = dim ∧ (∀ d, r.scale.get d = scale1.get d *
        Real.sqrt (thetaLin log (theta.get d) / geoMean dim fun e => thetaLin log (theta.get e)) *
        (calcVreq X.r dim / max D ((10 : ℝ) ^ (-15 : ℤ)))) ∧
      r.dist = logSpread dim fun d => thetaLin log (theta.get d) := by
  have hstar := star_eq (n := dim) (log := log) (v := theta.get) hθ
  set G := geoMean dim fun e => thetaLin log (theta.get e) with hG
  obtain ⟨lo, hi, k1, -, k2, -, k3⟩ := (C16_distances ⟨X.r, X.c, fun p d => X.get p d * Real.sqrt (thetaLin log (theta.get d) / G)⟩).2 h2
  have hv : rescaleTheta log dim X scale1 theta = .ok
      { theta := ⟨dim, fun _ => thetaEnc log (G / (calcVreq X.r dim / max lo ((10 : ℝ) ^ (-15 : ℤ))) ^ 2)⟩
        dist := ∑ d ∈ Finset.range theta.n, thetaLog log (theta.get d) * thetaLog log (theta.get d) -
          (∑ d ∈ Finset.range theta.n, thetaLog log (theta.get d) * 1) ^ 2 / dim
        scale := ⟨scale1.n, fun d => scale1.get d * Real.sqrt (thetaLin log (theta.get d) / G) *
          (calcVreq X.r dim / max lo ((10 : ℝ) ^ (-15 : ℤ)))⟩ } := by
    unfold rescaleTheta
    rw [pyAssert_true (by omega)]
    simp only [ok_bind]
    have e1 : (10 : ℝ) ^ ((∑ d ∈ Finset.range (theta.map (thetaLog log)).n, (theta.map (thetaLog log)).get d) /
        (theta.map (thetaLog log)).n) = G := by
      rw [← hstar]
      show (10 : ℝ) ^ ((∑ d ∈ Finset.range theta.n, thetaLog log (theta.get d)) / theta.n) = _
      rw [hn]
    rw [e1, bop_row (by show X.c = theta.n; rw [hX, hn])]
    simp only [ok_bind]
    have e2 : needDist (calcDistMin ⟨X.r, X.c, fun p d => X.get p d *
        ((theta.map (thetaLin log)).map fun t => Real.sqrt (t / G)).get d⟩) = .ok lo := by
      show needDist (calcDistMin ⟨X.r, X.c, fun p d => X.get p d * Real.sqrt (thetaLin log (theta.get d) / G)⟩) = _
      rw [k1]; rfl
    rw [e2]
    simp only [ok_bind]
    rw [bop1_ok (by show scale1.n = theta.n; rw [hs, hn])]
    simp only [ok_bind]
    rw [if_pos hn]
    rfl
  refine ⟨_, lo, hv, ⟨?_, fun a ha b hb hab => (k3 a ha b hb hab).1⟩, rfl, hs, fun d => rfl, ?_⟩
  · obtain ⟨a, ha, b, hb, hab, h⟩ := k2
    exact ⟨a, ha, b, hb, hab, h.symm⟩
  · show ∑ d ∈ Finset.range theta.n, thetaLog log (theta.get d) * thetaLog log (theta.get d) -
          (∑ d ∈ Finset.range theta.n, thetaLog log (theta.get d) * 1) ^ 2 / dim = _
    unfold logSpread
    rw [hn]
    congr 1
    · exact Finset.sum_congr rfl fun d _ => by rw [thetaLog_eq, sq]
    · congr 2
      exact Finset.sum_congr rfl fun d _ => by rw [thetaLog_eq, mul_one]

theorem minDist_scale {X : Arr2} {w : ℕ → ℝ} {D c : ℝ} (hc : 0 ≤ c) (h : IsMinDist (stretched X w) D) :
    IsMinDist (stretched X fun d => w d * c) (c * D) := by
  have key : ∀ a b, ptDist (stretched X fun d => w d * c) a b = c * ptDist (stretched X w) a b := fun a b =>
    ptDist_scale (X := stretched X w) (Y := stretched X fun d => w d * c) hc rfl fun d _ => by simp only [stretched]; ring
  obtain ⟨⟨a, ha, b, hb, hab, he⟩, hl⟩ := h
  exact ⟨⟨a, ha, b, hb, hab, by rw [key, he]⟩, fun a ha b hb hab => by
    rw [key]; exact mul_le_mul_of_nonneg_left (hl a ha b hb hab) hc⟩

theorem minDist_unique {X : Arr2} {D E : ℝ} (h : IsMinDist X D) (h' : IsMinDist X E) : D = E := by
  obtain ⟨⟨a, ha, b, hb, hab, he⟩, hl⟩ := h
  obtain ⟨⟨a', ha', b', hb', hab', he'⟩, hl'⟩ := h'
  exact le_antisymm (he' ▸ hl a' ha' b' hb' hab') (he ▸ hl' a ha b hb hab)

theorem vreq_pos {ne d : ℕ} (hne : 2 ≤ ne) (hd : 0 < d) : 1 < calcVreq ne d :=
  lt_of_lt_of_le (by rw [Real.lt_sqrt (by norm_num)]; norm_num) (sqrt2_le_vreq hne hd).1

/-- **C52.** For two or more points (any dimension) and positive `theta` (given directly or through the base-10 logarithm): if
the smallest distance of the points with the length scales moved into the coordinates is at least the tolerance `1e-15`, the
rescaling succeeds; the new parameters are positive and all equal; the new scale is the old one times positive factors `w`; the
points multiplied by these factors have exactly the required minimum distance; and for every kernel the base kernel matrix
computed from them with the new parameters is the one computed from the given points with the given parameters. -/
theorem C52_rescaling_keeps_kernel {log : Bool} {dim : ℕ} {X : Arr2} {scale1 theta : Arr1} (h2 : 2 ≤ X.r) (hd : 0 < dim)
    (hX : X.c = dim) (hn : theta.n = dim) (hs : scale1.n = dim) (hθ : ∀ d < dim, 0 < thetaLin log (theta.get d))
    (hsep : ∀ p < X.r, ∀ q < X.r, p ≠ q → (10 : ℝ) ^ (-15 : ℤ) ≤ ptDist (stretched X fun d =>
      Real.sqrt (thetaLin log (theta.get d) / geoMean dim fun e => thetaLin log (theta.get e))) p q) :
    ∃ r, ∃ w : ℕ → ℝ, rescaleTheta log dim X scale1 theta = .ok r ∧ r.theta.n = dim ∧ r.scale.n = dim ∧
      (∀ d < dim, 0 < thetaLin log (r.theta.get d) ∧ r.theta.get d = r.theta.get 0) ∧
      (∀ d < dim, 0 < w d ∧ r.scale.get d = scale1.get d * w d) ∧
      IsMinDist (stretched X w) (calcVreq X.r dim) ∧
      (∀ d < dim, thetaLin log (r.theta.get d) * w d ^ 2 = thetaLin log (theta.get d)) ∧
      ∀ (k : KType) (hp : Option ℝ), HpOk k hp → ∃ R R' K K', calcRtensor X X = .ok R ∧
        calcRtensor (stretched X w) (stretched X w) = .ok R' ∧
        calcKernBase k R (theta.map (thetaLin log)) hp = .ok K ∧ calcKernBase k R' (r.theta.map (thetaLin log)) hp = .ok K' ∧
        K.r = X.r ∧ K.c = X.r ∧ Eq2 K K' := by
  obtain ⟨r, D, hr, hD, h1, h2', h3, -⟩ := rescaleTheta_ok (log := log) (scale1 := scale1) h2 hX hn hs hθ
  set G := geoMean dim fun e => thetaLin log (theta.get e) with hG
  have hGp : 0 < G := geoMean_pos hθ
  have hDt : (10 : ℝ) ^ (-15 : ℤ) ≤ D := by
    obtain ⟨⟨a, ha, b, hb, hab, he⟩, -⟩ := hD
    rw [← he]; exact hsep a ha b hb hab
  have hDp : 0 < D := lt_of_lt_of_le (by positivity) hDt
  rw [max_eq_left hDt] at h1 h3
  have hv := vreq_pos h2 hd
  have hv0 : 0 < calcVreq X.r dim := by linarith
  set c := calcVreq X.r dim / D with hc
  have hcp : 0 < c := div_pos hv0 hDp
  have hwp : ∀ d < dim, 0 < Real.sqrt (thetaLin log (theta.get d) / G) := fun d hd => Real.sqrt_pos.mpr (div_pos (hθ d hd) hGp)
  have hnew : ∀ d, thetaLin log (r.theta.get d) = G / c ^ 2 := fun d => by
    rw [h1]; exact thetaLin_enc (div_pos hGp (by positivity))
  have hw : ∀ d < dim, thetaLin log (r.theta.get d) * (Real.sqrt (thetaLin log (theta.get d) / G) * c) ^ 2 =
      thetaLin log (theta.get d) := by
    intro d hdd
    rw [hnew d, mul_pow, Real.sq_sqrt (div_pos (hθ d hdd) hGp).le]
    field_simp
  refine ⟨r, fun d => Real.sqrt (thetaLin log (theta.get d) / G) * c, hr, by rw [h1], h2', fun d hdd => ⟨?_, by rw [h1]⟩,
    fun d hdd => ⟨mul_pos (hwp d hdd) hcp, by rw [h3 d, mul_assoc]⟩, ?_, hw, fun k hp hk => ?_⟩
  · rw [hnew d]; positivity
  · have := minDist_scale hcp.le hD
    rwa [show c * D = calcVreq X.r dim by rw [hc]; field_simp] at this
  · have hsc : (stretched X fun d => Real.sqrt (thetaLin log (theta.get d) / G) * c).c = X.c := rfl
    obtain ⟨R, hR, r1, r2, r3, r4⟩ := calcRtensor_ok (X := X) (Y := X) rfl
    obtain ⟨R', hR', r1', r2', r3', r4'⟩ := calcRtensor_ok
      (X := stretched X fun d => Real.sqrt (thetaLin log (theta.get d) / G) * c)
      (Y := stretched X fun d => Real.sqrt (thetaLin log (theta.get d) / G) * c) rfl
    obtain ⟨α, hα⟩ : ∃ α, ∀ (R : Arr3) (th : Arr1), calcKernBase k R th hp = calcKernBase k R th (some α) := by
      by_cases hkk : k = .ratQuad
      · obtain ⟨α, -, rfl⟩ := hk hkk
        exact ⟨α, fun _ _ => rfl⟩
      · refine ⟨1, fun _ _ => ?_⟩
        cases k <;> first | rfl | exact absurd rfl hkk
    refine ⟨R, R', _, _, hR, hR', (hα _ _).trans (calcKernBase_ok k (by rw [r1, hX]; exact hn.ge)),
      (hα _ _).trans (calcKernBase_ok k (by rw [r1', hsc, hX, h1]; exact le_refl dim)), r2, r3, by
        show R.r = R'.r; rw [r2, r2']; rfl, by show R.c = R'.c; rw [r3, r3']; rfl, fun p hp q hq => ?_⟩
    have hp' : p < X.r := by rw [← r2]; exact hp
    have hq' : q < X.r := by rw [← r3]; exact hq
    refine congrArg (prφ k α) ?_
    unfold ssq
    rw [r1, r1', hsc]
    refine Finset.sum_congr rfl fun d hd => ?_
    have hd' : d < X.c := Finset.mem_range.mp hd
    show thetaLin log (theta.get d) * R.get d p q ^ 2 = thetaLin log (r.theta.get d) * R'.get d p q ^ 2
    rw [r4, r4', if_pos ⟨hd', hp', hq'⟩, if_pos ⟨hd', hp', hq'⟩, ← hw d (by rw [← hX]; exact hd')]
    simp only [stretched]
    ring

/-! ### C53 -/

/-- The part of `set_xscale_data` after the points are scaled succeeds on an object without constraints. -/
theorem sclTail_total {t : Scl} (hn : t.xScale.n = t.xInit.c) (hobj : ∀ o, t.obj = some o → Obj6Ok t.xInit.c o.args)
    (hbox : t.box = none) (hlin : t.lin = none) (hnlc : t.nlc = none) :
    ∃ s', ((Call.when (fun s => s.obj.isSome) setSclObj).andThen
      ((Call.when (fun s => s.nlc.isSome) noSuchMethod).andThen
      ((Call.when (fun s => s.box.isSome) setSclBox).andThen
      ((Call.when (fun s => s.lin.isSome) setSclLin).andThen
      (Call.when (fun s => s.nlc.isSome) noSuchMethod))))) t = (s', .ok ()) := by
  cases ho : t.obj with
  | none => simp [Call.andThen, Call.when, ho, hbox, hlin, hnlc]
  | some o =>
    have h1 := objInit2Scl_val (s := t) (by rw [ho]; rfl) hn (hobj o ho)
    have h2 : ∃ a, sclObj t = .ok a := by
      unfold sclObj
      rw [ho]
      simp only
      rw [h1]
      exact ⟨_, rfl⟩
    obtain ⟨a, h2⟩ := h2
    simp [Call.andThen, Call.when, ho, hbox, hlin, hnlc, setSclObj, compute, h2]

/-- `set_xscale_data` with an explicit positive scale succeeds on an object without constraints. -/
theorem setXscale_total {s : Scl} {v : Arr1} (hv : v.n = s.xInit.c) (hp : ∀ d < v.n, 0 < v.get d) {i : ℕ}
    (hi : pyIdx s.idxBest s.xInit.r = .ok i) (hm : s.xMtd ≠ .other) (h1 : 1 ≤ s.xInit.r)
    (hobj : ∀ o, s.obj = some o → Obj6Ok s.xInit.c o.args) (hbox : s.box = none) (hlin : s.lin = none) (hnlc : s.nlc = none) :
    ∃ s', setXscale none (some v) s = (s', .ok ()) := by
  have hsh : ∃ sh, calcShift s none = .ok sh ∧ sh.n = s.xInit.c := by
    unfold calcShift
    cases hu : s.useShift with
    | true => simp only [if_true, hi]; exact ⟨_, rfl, rfl⟩
    | false => exact ⟨_, rfl, rfl⟩
  obtain ⟨sh, hsh, hshn⟩ := hsh
  have hcf : ∃ c, calcCoeff s ⟨s.xInit.r, s.xInit.c, fun p d => (s.xInit.get p d - sh.get d) * v.get d⟩ = .ok c := by
    unfold calcCoeff
    by_cases hr : s.xInit.r = 1 ∨ s.xMtd = .none
    · rw [if_pos hr]; exact ⟨_, rfl⟩
    · rw [if_neg hr]
      push Not at hr
      have h2 : 2 ≤ s.xInit.r := by have := hr.1; omega
      obtain ⟨lo, hi', k1, k2, -⟩ := (C16_distances ⟨s.xInit.r, s.xInit.c, fun p d => (s.xInit.get p d - sh.get d) * v.get d⟩).2 h2
      have hr2 := hr.2
      cases hmm : s.xMtd with
      | vmin => simp only [isoScaling, if_true, k1, needDist]; exact ⟨_, rfl⟩
      | vmax => simp only [isoScaling, Bool.false_eq_true, if_false, k2, needDist]; exact ⟨_, rfl⟩
      | none => exact absurd hmm hr2
      | other => exact absurd hmm hm
  obtain ⟨c, hcf⟩ := hcf
  have hcx : calcXShiftScale s none (some v) = .ok (sh, ⟨v.n, fun d => v.get d * c⟩) := by
    unfold calcXShiftScale calcScaleIn
    rw [hsh]
    simp only [ok_bind]
    rw [pyAssert_true hv]
    simp only [ok_bind]
    rw [pyAssert_true hp]
    simp only [ok_bind, pure_eq_ok]
    rw [bop_row (by exact hshn.symm)]
    simp only [ok_bind]
    rw [bop_row (by exact hv.symm)]
    simp only [ok_bind]
    rw [hcf]
    rfl
  unfold setXscale
  rw [andThen_of_ok (compute_of_ok hcx)]
  obtain ⟨R, hR, -⟩ := setSclX_ok (s := { s with xShift := sh, xScale := ⟨v.n, fun d => v.get d * c⟩ }) hshn hv
  rw [andThen_of_ok hR]
  exact sclTail_total (t := _) hv hobj hbox hlin hnlc

theorem sameKernel_of {dim : ℕ} {s s' : Scl} {θ θ' : ℕ → ℝ}
    (h : ∀ d < dim, θ' d * s'.xScale.get d ^ 2 = θ d * s.xScale.get d ^ 2) : SameKernel dim s θ s' θ' := by
  have key : ∀ x y, wdist2 dim θ' (sclPt s' x) (sclPt s' y) = wdist2 dim θ (sclPt s x) (sclPt s y) := by
    intro x y
    refine Finset.sum_congr rfl fun d hd => ?_
    have := h d (Finset.mem_range.mp hd)
    simp only [sclPt]
    linear_combination (x d - y d) ^ 2 * this
  intro k α x y
  cases k <;> simp only [kern, kSqExp, kMatern, kRatQuad, key]

theorem sameKernel_weights {dim : ℕ} {s s' : Scl} {θ θ' : ℕ → ℝ} (h : SameKernel dim s θ s' θ') {d : ℕ} (hd : d < dim) :
    θ' d * s'.xScale.get d ^ 2 = θ d * s.xScale.get d ^ 2 := by
  have h1 := h .sqExp 1 (Function.update (fun _ => 0) d 1) (fun _ => 0)
  simp only [kern, kSqExp, Real.exp_eq_exp, neg_inj] at h1
  have key : ∀ (s : Scl) (θ : ℕ → ℝ), wdist2 dim θ (sclPt s (Function.update (fun _ => 0) d 1)) (sclPt s fun _ => 0) =
      θ d * s.xScale.get d ^ 2 := by
    intro s θ
    unfold wdist2
    rw [Finset.sum_eq_single d]
    · simp only [sclPt, Function.update_self]; ring
    · intro e _ he
      simp [sclPt, Function.update_of_ne he]
    · intro h; exact absurd (Finset.mem_range.mpr hd) h
  rwa [key, key] at h1

/-- Stretching the scaled points is stretching the original points by the product. -/
theorem images_minDist {s : Scl} (hI : Images s) {w v : ℕ → ℝ} {D : ℝ} (hv : ∀ d < s.xInit.c, v d = s.xScale.get d * w d)
    (h : IsMinDist (stretched s.xScl w) D) : IsMinDist (stretched s.xInit v) D := by
  obtain ⟨h1, h2, h3⟩ := hI.x
  have key : ∀ a < s.xInit.r, ∀ b < s.xInit.r, ptDist (stretched s.xInit v) a b = ptDist (stretched s.xScl w) a b := by
    intro a ha b hb
    have := ptDist_scale (X := stretched s.xScl w) (Y := stretched s.xInit v) (c := 1) (by norm_num) h2.symm (a := a) (b := b)
      (fun d hd => by
        have hd' : d < s.xInit.c := by rw [← h2]; exact hd
        simp only [stretched]
        rw [h3 a ha d hd', h3 b hb d hd', sclPt, sclPt, hv d hd']
        ring)
    rw [this, one_mul]
  obtain ⟨⟨a, ha, b, hb, hab, he⟩, hl⟩ := h
  have hr : (stretched s.xScl w).r = s.xInit.r := h1
  exact ⟨⟨a, by rw [hr] at ha; exact ha, b, by rw [hr] at hb; exact hb, hab, by rw [key a (by rw [hr] at ha; exact ha) b (by rw [hr] at hb; exact hb), he]⟩,
    fun a ha b hb hab => by
      rw [key a ha b hb]
      exact hl a (by rw [hr]; exact ha) b (by rw [hr]; exact hb) hab⟩

/-- `set_xscale_data` for the minimum-distance method: the factor applied to the given scale. -/
theorem setXscale_factor {s s' : Scl} {v : Arr1} (h : setXscale none (some v) s = (s', .ok ())) (hm : s.xMtd = .vmin)
    (h2 : 2 ≤ s.xInit.r) {V : ℝ} (hV : IsMinDist (stretched s.xInit v.get) V) (hV1 : (10 : ℝ) ^ (-14 : ℤ) ≤ V) :
    Images s' ∧ s'.xInit = s.xInit ∧ ∀ d < s.xInit.c, s'.xScale.get d = v.get d * (s.distSet.getD 1 / V) := by
  obtain ⟨c, sin, hsin, hI, e1, e2, e3, hsc, hcf⟩ := xscale_factor h
  obtain ⟨-, -, hs⟩ := calcScaleIn_n hsin
  have hs : sin = v := hs
  rw [hs] at hsc hcf
  refine ⟨hI, e1, ?_⟩
  have hr1 : ¬ s.xInit.r = 1 := by omega
  unfold calcCoeff at hcf
  rw [if_neg (by rintro (h | h); exact hr1 h; rw [hm] at h; cases h), hm] at hcf
  simp only [isoScaling, if_true] at hcf
  obtain ⟨lo, hi, k1, -, k2, -, k3⟩ := (C16_distances ⟨s.xInit.r, s.xInit.c, fun p d =>
    (s.xInit.get p d - s'.xShift.get d) * v.get d⟩).2 h2
  rw [k1] at hcf
  simp only [needDist, ok_bind, pure_eq_ok] at hcf
  have hlo : lo = V := by
    refine minDist_unique (X := stretched s.xInit v.get) ⟨?_, fun a ha b hb hab => ?_⟩ hV
    · obtain ⟨p, hp, q, hq, hpq, hlo⟩ := k2
      rw [shifted_dist] at hlo
      exact ⟨p, hp, q, hq, hpq, hlo.symm⟩
    · have := (k3 a ha b hb hab).1
      rwa [shifted_dist] at this
  subst hlo
  rw [max_eq_right (by exact hV1)] at hcf
  have hc : c = s.distSet.getD 1 / lo := by simpa [vDflt] using hcf.symm
  intro d hd
  rw [hsc d hd, hc]

theorem takeIdx_range {v : Arr1} {n : ℕ} (h : n ≤ v.n) :
    takeIdx v (List.range n) = .ok ⟨n, fun k => if k < n then v.get k else 0⟩ := by
  unfold takeIdx
  rw [if_pos (by intro i hi; exact lt_of_lt_of_le (List.mem_range.mp hi) h)]
  simp only [List.length_range]
  refine congrArg Except.ok ?_
  simp only [Arr1.mk.injEq, true_and]
  funext k
  split_ifs with hk
  · simp [hk]
  · rfl

theorem putIdx_range {v w : Arr1} {n : ℕ} (h : n ≤ v.n) (hw : w.n = n) :
    ∃ r, putIdx v (List.range n) w = .ok r ∧ r.n = v.n ∧ (∀ d < n, r.get d = w.get d) ∧ ∀ i, n ≤ i → r.get i = v.get i := by
  unfold putIdx
  rw [if_pos (by intro i hi; exact lt_of_lt_of_le (List.mem_range.mp hi) h), if_pos (by rw [hw, List.length_range])]
  refine ⟨_, rfl, rfl, fun d hd => ?_, fun i hi => ?_⟩
  · dsimp only
    rw [if_pos (List.mem_range.mpr hd)]
    congr 1
    have := List.Nodup.idxOf_getElem (List.nodup_range (n := n)) d (by rw [List.length_range]; exact hd)
    rwa [List.getElem_range] at this
  · dsimp only
    rw [if_neg (by rw [List.mem_range]; omega)]

/-- The conditions under which the rescaling is called: two or more points, consistent scaled data, the minimum-distance
method, no constraints (the library never gives any), `theta` first among the optimised hyperparameters, and points that
stay separated when the length scales are moved into the data. -/
structure RescaleReady (o : RescaleOpts) (s : Scl) (best : Arr1) : Prop where
  images : Images s
  two : 2 ≤ s.xInit.r
  dim : s.xInit.c = o.dim
  dim_pos : 0 < o.dim
  idx : o.idxTheta = List.range o.dim
  mtd : s.xMtd = .vmin
  best_n : o.dim ≤ best.n
  theta_pos : ∀ d < o.dim, 0 < thetaOf o.log best d
  index : ∃ i, pyIdx s.idxBest s.xInit.r = .ok i
  dist : 0 < s.distSet.getD 1
  scale : ∀ d < o.dim, 0 < s.xScale.get d
  obj : ∀ d, s.obj = some d → Obj6Ok s.xInit.c d.args
  box : s.box = none
  lin : s.lin = none
  nlc : s.nlc = none
  sep : ∀ p < s.xInit.r, ∀ q < s.xInit.r, p ≠ q → (10 : ℝ) ^ (-15 : ℤ) ≤ ptDist (stretched s.xScl fun d =>
    Real.sqrt (thetaOf o.log best d / geoMean o.dim (thetaOf o.log best))) p q
  sep0 : ∀ p < s.xInit.r, ∀ q < s.xInit.r, p ≠ q → (10 : ℝ) ^ (-15 : ℤ) ≤ ptDist s.xScl p q

theorem ptDist_congr {X : Arr2} {w w' : ℕ → ℝ} (h : ∀ d < X.c, w d = w' d) (a b : ℕ) :
    ptDist (stretched X w) a b = ptDist (stretched X w') a b := by
  unfold ptDist stretched
  refine congrArg Real.sqrt (Finset.sum_congr rfl fun d hd => ?_)
  dsimp only
  rw [h d (Finset.mem_range.mp hd)]

theorem geoMean_congr {n : ℕ} {θ θ' : ℕ → ℝ} (h : ∀ d < n, θ d = θ' d) : geoMean n θ = geoMean n θ' := by
  unfold geoMean
  rw [Finset.prod_congr rfl fun d hd => h d (Finset.mem_range.mp hd)]

theorem logSpread_congr {n : ℕ} {θ θ' : ℕ → ℝ} (h : ∀ d < n, θ d = θ' d) : logSpread n θ = logSpread n θ' := by
  unfold logSpread
  have h' : ∀ d ∈ Finset.range n, Real.logb 10 (θ d) = Real.logb 10 (θ' d) := fun d hd => by rw [h d (Finset.mem_range.mp hd)]
  rw [Finset.sum_congr rfl h', Finset.sum_congr rfl fun d hd => by rw [h' d hd]]

theorem logSpread_const {n : ℕ} (hn : 0 < n) {θ : ℕ → ℝ} {t : ℝ} (h : ∀ d < n, θ d = t) : logSpread n θ = 0 := by
  rw [logSpread_congr h]
  unfold logSpread
  simp only [Finset.sum_const, Finset.card_range, nsmul_eq_mul]
  have : (n : ℝ) ≠ 0 := by exact_mod_cast hn.ne'
  field_simp
  ring

/-- One call of `rescaling_data_w_theta_sol` on the current scaled data. -/
theorem iter_ok {o : RescaleOpts} {s : Scl} (hI : Images s) (h2 : 2 ≤ s.xInit.r) (hdim : s.xInit.c = o.dim) (hd : 0 < o.dim)
    {theta : Arr1} {θ : ℕ → ℝ} (hn : theta.n = o.dim) (hθ : ∀ d < o.dim, thetaLin o.log (theta.get d) = θ d)
    (hpos : ∀ d < o.dim, 0 < θ d)
    (hsep : ∀ p < s.xInit.r, ∀ q < s.xInit.r, p ≠ q → (10 : ℝ) ^ (-15 : ℤ) ≤ ptDist (stretched s.xScl fun d =>
      Real.sqrt (θ d / geoMean o.dim θ)) p q) :
    ∃ r w t, rescaleTheta o.log o.dim s.xScl s.xScale theta = .ok r ∧ 0 < t ∧ r.theta.n = o.dim ∧ r.scale.n = o.dim ∧
      (∀ d < o.dim, thetaLin o.log (r.theta.get d) = t) ∧
      (∀ d < o.dim, 0 < w d ∧ r.scale.get d = s.xScale.get d * w d ∧ t * w d ^ 2 = θ d) ∧
      IsMinDist (stretched s.xScl w) (calcVreq s.xInit.r o.dim) ∧ r.dist = logSpread o.dim θ := by
  have hxr : s.xScl.r = s.xInit.r := hI.x.1
  have hxc : s.xScl.c = o.dim := by rw [hI.x.2.1, hdim]
  have hsn : s.xScale.n = o.dim := by rw [hI.scale_n, hdim]
  have hpos' : ∀ d < o.dim, 0 < thetaLin o.log (theta.get d) := fun d hd => by rw [hθ d hd]; exact hpos d hd
  obtain ⟨r, w, h1, h3, h4, h5, h6, h7, h8, -⟩ := C52_rescaling_keeps_kernel (log := o.log) (X := s.xScl) (by rw [hxr]; exact h2) hd hxc hn hsn
    hpos' (by
      intro p hp q hq hpq
      rw [hxr] at hp hq
      refine (hsep p hp q hq hpq).trans_eq (ptDist_congr (fun d hd => ?_) p q)
      rw [hxc] at hd
      rw [hθ d hd, geoMean_congr hθ])
  obtain ⟨r', D, e1, -, -, -, -, e2⟩ := rescaleTheta_ok (log := o.log) (X := s.xScl) (scale1 := s.xScale) (by rw [hxr]; exact h2) hxc hn hsn hpos'
  rw [h1] at e1
  cases e1
  refine ⟨r, w, thetaLin o.log (r.theta.get 0), h1, (h5 0 hd).1, h3, h4, fun d hd => by rw [(h5 d hd).2], fun d hd => ⟨(h6 d hd).1, (h6 d hd).2, ?_⟩,
    by rw [← hxr]; exact h7, by rw [e2, logSpread_congr hθ]⟩
  rw [← hθ d hd, ← h8 d hd, (h5 d hd).2]

/-- Installing the new scale. -/
theorem install_ok {o : RescaleOpts} {s : Scl} {best : Arr1} (hR : RescaleReady o s best) {v : Arr1} {w : ℕ → ℝ} (hn : v.n = o.dim)
    (hw : ∀ d < o.dim, 0 < w d ∧ v.get d = s.xScale.get d * w d)
    (hD : IsMinDist (stretched s.xScl w) (calcVreq s.xInit.r o.dim)) :
    ∃ s', setXscale none (some v) s = (s', .ok ()) ∧ Images s' ∧ s'.xInit = s.xInit ∧
      ∀ d < o.dim, s'.xScale.get d = s.xScale.get d * w d * (s.distSet.getD 1 / calcVreq s.xInit.r o.dim) := by
  obtain ⟨i, hi⟩ := hR.index
  obtain ⟨s', hs'⟩ := setXscale_total (s := s) (v := v) (by rw [hn, hR.dim]) (fun d hd => by
    rw [hn] at hd
    rw [(hw d hd).2]; exact mul_pos (hR.scale d hd) (hw d hd).1) hi (by rw [hR.mtd]; decide) (by have := hR.two; omega) hR.obj hR.box hR.lin hR.nlc
  have hv1 := vreq_pos hR.two hR.dim_pos
  obtain ⟨k1, k2, k3⟩ := setXscale_factor hs' hR.mtd hR.two (images_minDist hR.images (v := v.get) (fun d hd => by
    rw [hR.dim] at hd; exact (hw d hd).2) hD) (by
      refine le_trans ?_ hv1.le
      norm_num)
  refine ⟨s', hs', k1, k2, fun d hd => ?_⟩
  rw [k3 d (by rw [hR.dim]; exact hd), (hw d hd).2]

theorem thetaOf_eq {log : Bool} {v : Arr1} {d : ℕ} : thetaLin log (v.get d) = thetaOf log v d := rfl

/-- The first iteration of the loop. -/
theorem firstIter {o : RescaleOpts} {s : Scl} {best : Arr1} (hR : RescaleReady o s best) :
    ∃ th r w t, takeIdx best o.idxTheta = .ok th ∧ rescaleTheta o.log o.dim s.xScl s.xScale th = .ok r ∧ 0 < t ∧
      r.theta.n = o.dim ∧ r.scale.n = o.dim ∧ (∀ d < o.dim, thetaLin o.log (r.theta.get d) = t) ∧
      (∀ d < o.dim, 0 < w d ∧ r.scale.get d = s.xScale.get d * w d ∧ t * w d ^ 2 = thetaOf o.log best d) ∧
      IsMinDist (stretched s.xScl w) (calcVreq s.xInit.r o.dim) ∧ r.dist = logSpread o.dim (thetaOf o.log best) := by
  have ht := takeIdx_range hR.best_n
  rw [← hR.idx] at ht
  obtain ⟨r, w, t, h⟩ := iter_ok hR.images hR.two hR.dim hR.dim_pos (theta := ⟨o.dim, fun k => if k < o.dim then best.get k else 0⟩)
    (θ := thetaOf o.log best) rfl (fun d hd => by dsimp only; rw [if_pos hd]; rfl) hR.theta_pos hR.sep
  exact ⟨_, r, w, t, ht, h⟩

/-- **C53**, what holds: if the spread of the optimised length scales is below the tolerance (in particular in one dimension), or
the iteration limit is one, and the scaling object was created for the required distance (the method `rescale_origin`), then
the call succeeds; the stored scaling with the returned parameters stands for the same kernel, in original coordinates, as the
scaling before with the parameters found by the optimiser; the other hyperparameters are those found; and the scaled points
have the required minimum distance. Missing: the other cases, where the statement is false (next theorems). -/
theorem C53_kernel_preserved_partial {o : RescaleOpts} {s : Scl} {best : Arr1} (hR : RescaleReady o s best)
    {opt : ℕ → Arr1 → Py Arr1} {x0 : Arr1} (hopt : opt 0 x0 = .ok best) (hit : 0 < o.maxIter)
    (hstop : o.maxIter = 1 ∨ logSpread o.dim (thetaOf o.log best) < o.tol)
    (hD : s.distSet = some (calcVreq s.xInit.r o.dim)) :
    ∃ s' hp', optzRescale o opt x0 s = (s', .ok hp') ∧ SameKernel o.dim s (thetaOf o.log best) s' (thetaOf o.log hp') ∧
      hp'.n = best.n ∧ (∀ i, o.dim ≤ i → hp'.get i = best.get i) ∧
      Images s' ∧ s'.xInit = s.xInit ∧ IsMinDist s'.xScl (calcVreq s.xInit.r o.dim) := by
  obtain ⟨th, r, w, t, h1, h2, ht, h3, h4, h5, h6, h7, h8⟩ := firstIter hR
  obtain ⟨m, hm⟩ : ∃ m, o.maxIter = m + 1 := ⟨o.maxIter - 1, by omega⟩
  have hloop : rescaleLoop o opt s o.maxIter th best [] = .ok (best, [r]) := by
    rw [hm]
    unfold rescaleLoop
    rw [h2]
    simp only [ok_bind, List.nil_append]
    rw [if_pos (by
      rcases hstop with h | h
      · left; omega
      · right; rw [h8]; exact h)]
    rfl
  obtain ⟨hp', k1, k2, k3, k4⟩ := putIdx_range hR.best_n h3
  rw [← hR.idx] at k1
  have hhp : rescaleHp o opt s best = .ok (r.scale, hp') := by
    unfold rescaleHp
    rw [h1]
    simp only [ok_bind]
    rw [hloop]
    simp only [ok_bind, List.argmin_singleton]
    rw [k1]
    rfl
  obtain ⟨s', e1, e2, e3, e4⟩ := install_ok hR h4 (fun d hd => ⟨(h6 d hd).1, (h6 d hd).2.1⟩) h7
  have hv1 := vreq_pos hR.two hR.dim_pos
  have e5 : ∀ d < o.dim, s'.xScale.get d = s.xScale.get d * w d := by
    intro d hd
    rw [e4 d hd, hD, Option.getD_some, div_self (by linarith), mul_one]
  refine ⟨s', hp', ?_, sameKernel_of fun d hd => ?_, k2, k4, e2, e3, ?_⟩
  · unfold optzRescale
    rw [hopt]
    simp only
    rw [if_pos (by have := hR.two; omega), hhp]
    simp only
    rw [e1]
  · have : thetaOf o.log hp' d = t := by
      rw [← h5 d hd, ← k3 d hd]; rfl
    rw [this, e5 d hd, mul_pow, ← (h6 d hd).2.2]
    ring
  · have hmd := images_minDist hR.images (v := fun d => s.xScale.get d * w d) (fun d _ => rfl) h7
    have key : ∀ a < s.xInit.r, ∀ b < s.xInit.r, ptDist s'.xScl a b = ptDist (stretched s.xInit fun d => s.xScale.get d * w d) a b := by
      intro a ha b hb
      have := images_dist e2 (w := fun d => s.xScale.get d * w d) (c := 1) (by norm_num) (fun d hd => by
        rw [e3, hR.dim] at hd; rw [e5 d hd, mul_one]) (a := a) (b := b) (by rw [e3]; exact ha) (by rw [e3]; exact hb)
      rw [this, one_mul, e3]
    have hr : s'.xScl.r = s.xInit.r := by rw [e2.x.1, e3]
    obtain ⟨⟨a, ha, b, hb, hab, he⟩, hl⟩ := hmd
    exact ⟨⟨a, by rw [hr]; exact ha, b, by rw [hr]; exact hb, hab, by rw [key a ha b hb, he]⟩, fun a ha b hb hab => by
      rw [hr] at ha hb
      rw [key a ha b hb]; exact hl a ha b hb hab⟩

/-- **C53**, one point: nothing is rescaled. -/
theorem C53_one_point {o : RescaleOpts} {s : Scl} {best : Arr1} {opt : ℕ → Arr1 → Py Arr1} {x0 : Arr1} (hopt : opt 0 x0 = .ok best)
    (h : s.xInit.r = 1) : optzRescale o opt x0 s = (s, .ok best) := by
  unfold optzRescale
  rw [hopt]
  simp only
  rw [if_neg (by omega)]

/-- **C53 does not hold** for the method `rescale_eta_vary`, which creates the scaling object for the distance 1: where the
loop stops at once, every weight of the kernel is divided by the square of the required distance, which is more than one, so
the stored kernel is never the optimised one. -/
theorem C53_eta_vary_changes_kernel {o : RescaleOpts} {s : Scl} {best : Arr1} (hR : RescaleReady o s best)
    {opt : ℕ → Arr1 → Py Arr1} {x0 : Arr1} (hopt : opt 0 x0 = .ok best) (hit : 0 < o.maxIter)
    (hstop : o.maxIter = 1 ∨ logSpread o.dim (thetaOf o.log best) < o.tol) (hD : s.distSet = some 1) :
    ∃ s' hp', optzRescale o opt x0 s = (s', .ok hp') ∧
      (∀ d < o.dim, thetaOf o.log hp' d * s'.xScale.get d ^ 2 =
        thetaOf o.log best d * s.xScale.get d ^ 2 / calcVreq s.xInit.r o.dim ^ 2) ∧
      ¬ SameKernel o.dim s (thetaOf o.log best) s' (thetaOf o.log hp') := by
  obtain ⟨th, r, w, t, h1, h2, ht, h3, h4, h5, h6, h7, h8⟩ := firstIter hR
  obtain ⟨m, hm⟩ : ∃ m, o.maxIter = m + 1 := ⟨o.maxIter - 1, by omega⟩
  have hloop : rescaleLoop o opt s o.maxIter th best [] = .ok (best, [r]) := by
    rw [hm]
    unfold rescaleLoop
    rw [h2]
    simp only [ok_bind, List.nil_append]
    rw [if_pos (by
      rcases hstop with h | h
      · left; omega
      · right; rw [h8]; exact h)]
    rfl
  obtain ⟨hp', k1, k2, k3, k4⟩ := putIdx_range hR.best_n h3
  rw [← hR.idx] at k1
  have hhp : rescaleHp o opt s best = .ok (r.scale, hp') := by
    unfold rescaleHp
    rw [h1]
    simp only [ok_bind]
    rw [hloop]
    simp only [ok_bind, List.argmin_singleton]
    rw [k1]
    rfl
  obtain ⟨s', e1, e2, e3, e4⟩ := install_ok hR h4 (fun d hd => ⟨(h6 d hd).1, (h6 d hd).2.1⟩) h7
  have hv1 := vreq_pos hR.two hR.dim_pos
  have key : ∀ d < o.dim, thetaOf o.log hp' d * s'.xScale.get d ^ 2 =
      thetaOf o.log best d * s.xScale.get d ^ 2 / calcVreq s.xInit.r o.dim ^ 2 := by
    intro d hd
    have : thetaOf o.log hp' d = t := by
      rw [← h5 d hd, ← k3 d hd]; rfl
    rw [this, e4 d hd, hD, Option.getD_some, ← (h6 d hd).2.2]
    ring
  refine ⟨s', hp', ?_, key, fun hS => ?_⟩
  · unfold optzRescale
    rw [hopt]
    simp only
    rw [if_pos (by have := hR.two; omega), hhp]
    simp only
    rw [e1]
  · have e := sameKernel_weights hS hR.dim_pos
    rw [key 0 hR.dim_pos] at e
    have hp0 : 0 < thetaOf o.log best 0 * s.xScale.get 0 ^ 2 :=
      mul_pos (hR.theta_pos 0 hR.dim_pos) (pow_pos (hR.scale 0 hR.dim_pos) 2)
    have hv2 : 1 < calcVreq s.xInit.r o.dim ^ 2 := by nlinarith
    rw [div_eq_iff (by positivity)] at e
    nlinarith

/-- **C53 does not hold** when the spread of the optimised length scales reaches the tolerance and two or more iterations are
allowed: whatever the optimiser does in the second run (if it does not fail), the call succeeds, and the stored kernel has
weights proportional to the squares of the *previous* scales - the optimised length scales are forgotten -, so that it is not
the kernel found in the first run, nor the kernel of any parameters that are not all equal. -/
theorem C53_anisotropy_lost {o : RescaleOpts} {s : Scl} {best : Arr1} (hR : RescaleReady o s best)
    {opt : ℕ → Arr1 → Py Arr1} {x0 : Arr1} (hopt : opt 0 x0 = .ok best) (hit : 2 ≤ o.maxIter) (htol : 0 < o.tol)
    (hspread : o.tol ≤ logSpread o.dim (thetaOf o.log best))
    (hopt2 : ∀ x, ∃ b, opt 1 x = .ok b ∧ o.dim ≤ b.n) :
    ∃ s' hp' c, optzRescale o opt x0 s = (s', .ok hp') ∧
      (∀ d < o.dim, thetaOf o.log hp' d * s'.xScale.get d ^ 2 = c * s.xScale.get d ^ 2) ∧
      (¬ SameKernel o.dim s (thetaOf o.log best) s' (thetaOf o.log hp')) ∧
      ∀ θ : ℕ → ℝ, SameKernel o.dim s θ s' (thetaOf o.log hp') → ∀ d < o.dim, ∀ e < o.dim, θ d = θ e := by
  obtain ⟨th, r, w, t, h1, h2, ht, h3, h4, h5, h6, h7, h8⟩ := firstIter hR
  have hgm := geoMean_const hR.dim_pos (θ := fun _ => t) ht (fun _ _ => rfl)
  obtain ⟨r2, w2, t2, g1, gt, g2, g3, g4, g5, g6, g7⟩ := iter_ok hR.images hR.two hR.dim hR.dim_pos (theta := r.theta) (θ := fun _ => t)
    h3 h5 (fun _ _ => ht) (by
      intro p hp q hq hpq
      refine (hR.sep0 p hp q hq hpq).trans_eq ?_
      unfold ptDist stretched
      refine congrArg Real.sqrt (Finset.sum_congr rfl fun d _ => ?_)
      dsimp only
      rw [hgm, div_self ht.ne', Real.sqrt_one, mul_one, mul_one])
  rw [logSpread_const hR.dim_pos (t := t) (fun _ _ => rfl)] at g7
  obtain ⟨m, hm⟩ : ∃ m, o.maxIter = m + 2 := ⟨o.maxIter - 2, by omega⟩
  obtain ⟨x1, q1, -⟩ := putIdx_range hR.best_n h3
  rw [← hR.idx] at q1
  obtain ⟨b2, hb2, hb2n⟩ := hopt2 x1
  have hloop : rescaleLoop o opt s o.maxIter th best [] = .ok (b2, [r, r2]) := by
    rw [hm]
    unfold rescaleLoop
    rw [h2]
    simp only [ok_bind, List.nil_append]
    rw [if_neg (by push Not; exact ⟨by omega, by rw [h8]; exact hspread⟩), q1]
    simp only [ok_bind, List.length_singleton]
    rw [hb2]
    simp only [ok_bind]
    unfold rescaleLoop
    rw [g1]
    simp only [ok_bind]
    rw [if_pos (by right; rw [g7]; exact htol)]
    rfl
  obtain ⟨hp', k1, k2, k3, k4⟩ := putIdx_range hb2n g2
  rw [← hR.idx] at k1
  have hamin : List.argmin (fun i : RescaleOut => i.dist) [r, r2] = some r2 := by
    show List.argmin _ ([r] ++ [r2]) = _
    rw [List.argmin_concat, List.argmin_singleton]
    simp only [Option.elim_some]
    rw [if_pos (by rw [g7, h8]; linarith)]
  have hhp : rescaleHp o opt s best = .ok (r2.scale, hp') := by
    unfold rescaleHp
    rw [h1]
    simp only [ok_bind]
    rw [hloop]
    simp only [ok_bind]
    rw [hamin]
    simp only
    rw [k1]
    rfl
  obtain ⟨s', e1, e2, e3, e4⟩ := install_ok hR g3 (fun d hd => ⟨(g5 d hd).1, (g5 d hd).2.1⟩) g6
  have hv1 := vreq_pos hR.two hR.dim_pos
  set f := s.distSet.getD 1 / calcVreq s.xInit.r o.dim with hf
  have key : ∀ d < o.dim, thetaOf o.log hp' d * s'.xScale.get d ^ 2 = t * f ^ 2 * s.xScale.get d ^ 2 := by
    intro d hd
    have : thetaOf o.log hp' d = t2 := by
      rw [← g4 d hd, ← k3 d hd]; rfl
    rw [this, e4 d hd]
    linear_combination (s.xScale.get d ^ 2 * f ^ 2) * (g5 d hd).2.2
  have hiso : ∀ θ : ℕ → ℝ, SameKernel o.dim s θ s' (thetaOf o.log hp') → ∀ d < o.dim, ∀ e < o.dim, θ d = θ e := by
    intro θ hS d hd e he
    have : ∀ d < o.dim, θ d = t * f ^ 2 := by
      intro d hd
      have h := sameKernel_weights hS hd
      rw [key d hd] at h
      exact (mul_right_cancel₀ (pow_pos (hR.scale d hd) 2).ne' h).symm
    rw [this d hd, this e he]
  refine ⟨s', hp', t * f ^ 2, ?_, key, fun hS => ?_, hiso⟩
  · unfold optzRescale
    rw [hopt]
    simp only
    rw [if_pos (by have := hR.two; omega), hhp]
    simp only
    rw [e1]
  · have := logSpread_const hR.dim_pos (θ := thetaOf o.log best) (t := thetaOf o.log best 0) fun d hd => hiso _ hS d hd 0 hR.dim_pos
    linarith

/-! ### Concrete cases -/

/-- Two points of the plane at distance 5. -/
def exPlane : Arr2 := ⟨2, 2, fun i d => if i = 0 then 0 else if d = 0 then 3 else 4⟩

theorem exPlane_dist {w : ℕ → ℝ} {m : ℝ} (hm : 0 ≤ m) (h : ∀ d < 2, m ≤ w d) {p q : ℕ} (hp : p < 2) (hq : q < 2) (hpq : p ≠ q) :
    m * 5 ≤ ptDist (stretched exPlane w) p q := by
  unfold ptDist
  refine Real.le_sqrt_of_sq_le ?_
  have hc : (stretched exPlane w).c = 2 := rfl
  have h0 := h 0 (by omega)
  have h1 := h 1 (by omega)
  rw [hc, Finset.sum_range_succ, Finset.sum_range_one]
  have hp2 : p = 0 ∨ p = 1 := by omega
  have hq2 : q = 0 ∨ q = 1 := by omega
  rcases hp2 with rfl | rfl <;> rcases hq2 with rfl | rfl <;> first | exact absurd rfl hpq | skip
  all_goals
    simp only [stretched, exPlane]
    norm_num
    nlinarith [mul_self_le_mul_self hm h0, mul_self_le_mul_self hm h1]

/-- The scaling object created for them by either rescaling method: its scaled points have the distance it is created for. -/
theorem exPlane_new {D : ℝ} (hD : 0 < D) : ∃ s, newScl exPlane none true .vmin (some D) = (s, .ok ()) ∧ Images s ∧ s.xInit = exPlane ∧
    s.xMtd = .vmin ∧ s.distSet = some D ∧ s.idxBest = 1 ∧ s.obj = none ∧ s.box = none ∧ s.lin = none ∧ s.nlc = none ∧
    IsMinDist s.xScl D ∧ ∃ c, 0 < c ∧ ∀ d < 2, s.xScale.get d = 1 * c := by
  obtain ⟨s, hs⟩ := newScl_total (x := exPlane) (idx := none) (u := true) (m := .vmin) (dist := some D) (by decide) (by decide) (i := 1)
    (by decide)
  obtain ⟨h1, -, h2, h3, h4, h5, -⟩ := newScl_ok hs
  refine ⟨s, hs, h1, h2, h3, h4, by rw [h5]; rfl, ?_⟩
  unfold newScl at hs
  dsimp only at hs
  rw [if_neg (by decide)] at hs
  obtain ⟨r, -, -, -, -, -, -, k1, -, -, -, -, -, -, k2, k3, k4⟩ := setXscale_ok hs
  obtain ⟨l1, l2⟩ := C47_min_distance hs rfl (le_refl 2) hD (by
    intro p hp q hq hpq
    refine le_trans ?_ (exPlane_dist (m := 1) zero_le_one (fun d _ => le_refl _) hp hq hpq)
    norm_num)
  obtain ⟨c, sin, j1, -, -, -, -, j2, -⟩ := xscale_factor hs
  obtain ⟨-, -, rfl⟩ := calcScaleIn_n j1
  have j3 : ∀ d < 2, s.xScale.get d = 1 * c := j2
  have l3 := l2 0 (show 0 < 2 by decide)
  rw [j3 0 (by omega), one_mul] at l3
  exact ⟨k1, k2, k3, k4, l1, c, l3, j3⟩

theorem ptDist_lower {X : Arr2} {w : ℕ → ℝ} {m : ℝ} (hm : 0 ≤ m) (h : ∀ d < X.c, m ≤ w d) (p q : ℕ) :
    m * ptDist X p q ≤ ptDist (stretched X w) p q := by
  unfold ptDist
  refine Real.le_sqrt_of_sq_le ?_
  rw [mul_pow, Real.sq_sqrt (Finset.sum_nonneg fun _ _ => sq_nonneg _), Finset.mul_sum]
  refine Finset.sum_le_sum fun d hd => ?_
  have := h d (Finset.mem_range.mp hd)
  show _ ≤ (X.get p d * w d - X.get q d * w d) ^ 2
  rw [← sub_mul, mul_pow, mul_comm]
  exact mul_le_mul_of_nonneg_left (pow_le_pow_left₀ hm this 2) (sq_nonneg _)

/-- The optimised logarithms of `theta` and of one more hyperparameter. -/
def exBest (b : ℝ) : Arr1 := ⟨3, fun i => if i = 1 then b else if i = 0 then 0 else 7⟩

def exRescaleOpts : RescaleOpts := { log := true, dim := 2, idxTheta := [0, 1], maxIter := 3, tol := 1 / 10 }

theorem exBest_ready {s : Scl} {D b : ℝ} (hD : 1 ≤ D) (hb : b = 0 ∨ b = 1) (h1 : Images s) (h2 : s.xInit = exPlane)
    (h3 : s.xMtd = .vmin) (h4 : s.distSet = some D) (h5 : s.idxBest = 1) (h6 : s.obj = none) (h7 : s.box = none) (h8 : s.lin = none)
    (h9 : s.nlc = none) (h10 : IsMinDist s.xScl D) {c : ℝ} (hc : 0 < c) (h11 : ∀ d < 2, s.xScale.get d = 1 * c) :
    RescaleReady exRescaleOpts s (exBest b) := by
  have hr : s.xInit.r = 2 := by rw [h2]; rfl
  have hc2 : s.xInit.c = 2 := by rw [h2]; rfl
  have hxr : s.xScl.r = 2 := by rw [h1.x.1, hr]
  have hxc : s.xScl.c = 2 := by rw [h1.x.2.1, hc2]
  have hb0 : 0 ≤ b := by rcases hb with rfl | rfl <;> norm_num
  have t0 : thetaOf exRescaleOpts.log (exBest b) 0 = 1 := by simp [thetaOf, exRescaleOpts, exBest]
  have t1 : thetaOf exRescaleOpts.log (exBest b) 1 = (10 : ℝ) ^ b := by simp [thetaOf, exRescaleOpts, exBest]
  have hb1 : (1 : ℝ) ≤ (10 : ℝ) ^ b := Real.one_le_rpow (by norm_num) hb0
  have hb2 : (10 : ℝ) ^ b ≤ 10 := by rcases hb with rfl | rfl <;> norm_num
  have hone : ∀ d < 2, 1 ≤ thetaOf exRescaleOpts.log (exBest b) d := by
    intro d hd
    have : d = 0 ∨ d = 1 := by omega
    rcases this with rfl | rfl
    · rw [t0]
    · rw [t1]; exact hb1
  have hG : geoMean exRescaleOpts.dim (thetaOf exRescaleOpts.log (exBest b)) ≤ 4 := by
    have : exRescaleOpts.dim = 2 := rfl
    rw [this, geoMean, Finset.prod_range_succ, Finset.prod_range_one, t0, t1, one_mul]
    push_cast
    rw [← Real.sqrt_eq_rpow]
    refine Real.sqrt_le_iff.mpr ⟨by norm_num, by linarith⟩
  have hGp : 0 < geoMean exRescaleOpts.dim (thetaOf exRescaleOpts.log (exBest b)) :=
    geoMean_pos fun d hd => lt_of_lt_of_le one_pos (hone d hd)
  have hsep : ∀ p < s.xInit.r, ∀ q < s.xInit.r, p ≠ q → 1 ≤ ptDist s.xScl p q := by
    intro p hp q hq hpq
    exact hD.trans (h10.2 p (by omega) q (by omega) hpq)
  exact {
    images := h1
    two := by omega
    dim := hc2
    dim_pos := by decide
    idx := by decide
    mtd := h3
    best_n := show 2 ≤ 3 by decide
    theta_pos := fun d hd => lt_of_lt_of_le one_pos (hone d hd)
    index := ⟨1, by rw [h5, hr]; decide⟩
    dist := by rw [h4]; exact lt_of_lt_of_le one_pos hD
    scale := fun d hd => by rw [h11 d hd, one_mul]; exact hc
    obj := fun d hd => by rw [h6] at hd; cases hd
    box := h7
    lin := h8
    nlc := h9
    sep := fun p hp q hq hpq => by
      refine le_trans ?_ (ptDist_lower (m := 1 / 2) (by norm_num) (fun d hd => ?_) p q)
      · have := hsep p hp q hq hpq
        refine le_trans (by norm_num : (10 : ℝ) ^ (-15 : ℤ) ≤ 1 / 2 * 1) ?_
        linarith
      · refine Real.le_sqrt_of_sq_le ?_
        rw [le_div_iff₀ hGp]
        have := hone d (by omega)
        linarith
    sep0 := fun p hp q hq hpq => le_trans (by norm_num) (hsep p hp q hq hpq) }

theorem exSpread {b : ℝ} : logSpread exRescaleOpts.dim (thetaOf exRescaleOpts.log (exBest b)) = b ^ 2 / 2 := by
  have t0 : thetaOf exRescaleOpts.log (exBest b) 0 = 1 := by simp [thetaOf, exRescaleOpts, exBest]
  have t1 : thetaOf exRescaleOpts.log (exBest b) 1 = (10 : ℝ) ^ b := by simp [thetaOf, exRescaleOpts, exBest]
  have : exRescaleOpts.dim = 2 := rfl
  rw [this, logSpread, Finset.sum_range_succ, Finset.sum_range_one, Finset.sum_range_succ, Finset.sum_range_one, t0, t1,
    Real.logb_one, Real.logb_rpow (by norm_num) (by norm_num)]
  push_cast
  ring

/-- The hypotheses of `C53_kernel_preserved_partial` and `C53_eta_vary_changes_kernel` are met: equal length scales. -/
example {D : ℝ} (hD : D = calcVreq 2 2 ∨ D = 1) : ∃ (s : Scl) (opt : ℕ → Arr1 → Py Arr1) (x0 : Arr1),
    newScl exPlane none true .vmin (some D) = (s, .ok ()) ∧ RescaleReady exRescaleOpts s (exBest 0) ∧ opt 0 x0 = .ok (exBest 0) ∧
    0 < exRescaleOpts.maxIter ∧ logSpread exRescaleOpts.dim (thetaOf exRescaleOpts.log (exBest 0)) < exRescaleOpts.tol ∧
    s.distSet = some D ∧ s.xInit.r = 2 ∧ exRescaleOpts.dim = 2 := by
  have h1 : 1 ≤ D := by
    rcases hD with rfl | rfl
    · exact (vreq_pos (le_refl 2) two_pos).le
    · exact le_refl 1
  obtain ⟨s, h0, i1, i2, i3, i4, i5, i6, i7, i8, i9, i10, c, i11, i12⟩ := exPlane_new (D := D) (by linarith)
  exact ⟨s, fun _ _ => .ok (exBest 0), exBest 0, h0, exBest_ready h1 (Or.inl rfl) i1 i2 i3 i4 i5 i6 i7 i8 i9 i10 i11 i12, rfl, by decide,
    by rw [exSpread]; norm_num [exRescaleOpts], i4, by rw [i2]; rfl, rfl⟩

/-- The hypotheses of `C53_anisotropy_lost` are met with the library's defaults: tolerance 1/10, three iterations, length scales
differing by a factor of ten. -/
example : ∃ (s : Scl) (opt : ℕ → Arr1 → Py Arr1) (x0 : Arr1), newScl exPlane none true .vmin (some (calcVreq 2 2)) = (s, .ok ()) ∧
    RescaleReady exRescaleOpts s (exBest 1) ∧ opt 0 x0 = .ok (exBest 1) ∧ 2 ≤ exRescaleOpts.maxIter ∧ 0 < exRescaleOpts.tol ∧
    exRescaleOpts.tol ≤ logSpread exRescaleOpts.dim (thetaOf exRescaleOpts.log (exBest 1)) ∧
    ∀ x, ∃ b, opt 1 x = .ok b ∧ exRescaleOpts.dim ≤ b.n := by
  have h1 : 1 ≤ calcVreq 2 2 := (vreq_pos (le_refl 2) two_pos).le
  obtain ⟨s, h0, i1, i2, i3, i4, i5, i6, i7, i8, i9, i10, c, i11, i12⟩ := exPlane_new (D := calcVreq 2 2) (by linarith)
  exact ⟨s, fun _ _ => .ok (exBest 1), exBest 1, h0, exBest_ready h1 (Or.inr rfl) i1 i2 i3 i4 i5 i6 i7 i8 i9 i10 i11 i12, rfl, by decide,
    by norm_num [exRescaleOpts], by rw [exSpread]; norm_num [exRescaleOpts], fun x => ⟨_, rfl, by decide⟩⟩

/-- The hypotheses of `C52_rescaling_keeps_kernel` are met, with length scales differing by a factor of ten. -/
example : ∃ (X : Arr2) (scale1 theta : Arr1), 2 ≤ X.r ∧ X.c = 2 ∧ theta.n = 2 ∧ scale1.n = 2 ∧
    (∀ d < 2, 0 < thetaLin true (theta.get d)) ∧ theta.get 0 ≠ theta.get 1 ∧
    ∀ p < X.r, ∀ q < X.r, p ≠ q → (10 : ℝ) ^ (-15 : ℤ) ≤ ptDist (stretched X fun d =>
      Real.sqrt (thetaLin true (theta.get d) / geoMean 2 fun e => thetaLin true (theta.get e))) p q := by
  obtain ⟨s, h0, i1, i2, i3, i4, i5, i6, i7, i8, i9, i10, c, i11, i12⟩ := exPlane_new (D := 1) one_pos
  have hR := exBest_ready (le_refl 1) (Or.inr rfl) i1 i2 i3 i4 i5 i6 i7 i8 i9 i10 i11 i12
  have e : s.xScl.r = s.xInit.r := i1.x.1
  refine ⟨s.xScl, s.xScale, ⟨2, (exBest 1).get⟩, by rw [e]; exact hR.two, by rw [i1.x.2.1, i2]; rfl, rfl, by rw [i1.scale_n, i2]; rfl,
    fun d _ => by simp only [thetaLin, if_true]; positivity, by simp [exBest], ?_⟩
  intro p hp q hq hpq
  exact hR.sep p (by omega) q (by omega) hpq

end Props
