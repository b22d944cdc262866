import Verif.Proofs.SclInv

/-! C46-C51: scaling of points, objective and constraints (`base/Rescaling.py`). -/

open Np GP Spec

noncomputable section

namespace Props

/-! ### C46 -/

/-- **C46**, points: `x_init_2_scl` and `x_scl_2_init` succeed on arrays of points of the right dimension and invert each
other, for every shift and every nonzero scale, for one point (1-d) and for several points (2-d). -/
theorem C46_points_inverse {s : Scl} (hs : s.xShift.n = s.xInit.c) (hn : s.xScale.n = s.xInit.c)
    (h0 : ∀ d < s.xInit.c, s.xScale.get d ≠ 0) :
    (∀ X : Arr2, X.c = s.xInit.c →
      (∃ Y Z, xInit2Scl s X = .ok Y ∧ xScl2Init s Y = .ok Z ∧ Eq2 Z X) ∧
      (∃ Y Z, xScl2Init s X = .ok Y ∧ xInit2Scl s Y = .ok Z ∧ Eq2 Z X)) ∧
    (∀ x : Arr1, x.n = s.xInit.c →
      (∃ y z, xInit2Scl1 s x = .ok y ∧ xScl2Init1 s y = .ok z ∧ Eq1 z x) ∧
      (∃ y z, xScl2Init1 s x = .ok y ∧ xInit2Scl1 s y = .ok z ∧ Eq1 z x)) := by
  have e1 : ∀ X : Arr2, X.c = s.xInit.c →
      xScl2Init s X = .ok ⟨X.r, X.c, fun p d => X.get p d / s.xScale.get d + s.xShift.get d⟩ := by
    intro X hX
    unfold xScl2Init
    rw [bop_row (by rw [hX, hn])]
    simp only [ok_bind]
    rw [bop_row (by show X.c = _; rw [hX, hs])]
  have e2 : ∀ x : Arr1, x.n = s.xInit.c → xInit2Scl1 s x = .ok ⟨x.n, fun d => (x.get d - s.xShift.get d) * s.xScale.get d⟩ := by
    intro x hx
    unfold xInit2Scl1
    rw [bop1_ok (by rw [hx, hs])]
    simp only [ok_bind]
    rw [bop1_ok (by show x.n = _; rw [hx, hn])]
  have e3 : ∀ x : Arr1, x.n = s.xInit.c → xScl2Init1 s x = .ok ⟨x.n, fun d => x.get d / s.xScale.get d + s.xShift.get d⟩ := by
    intro x hx
    unfold xScl2Init1
    rw [bop1_ok (by rw [hx, hn])]
    simp only [ok_bind]
    rw [bop1_ok (by show x.n = _; rw [hx, hs])]
  refine ⟨fun X hX => ⟨⟨_, _, xInit2Scl_ok hs hn hX, e1 _ (by exact hX), rfl, rfl, ?_⟩, ⟨_, _, e1 X hX, xInit2Scl_ok hs hn (by exact hX), rfl, rfl, ?_⟩⟩,
    fun x hx => ⟨⟨_, _, e2 x hx, e3 _ (by exact hx), rfl, ?_⟩, ⟨_, _, e3 x hx, e2 _ (by exact hx), rfl, ?_⟩⟩⟩
  · intro i _ j hj
    have := h0 j (by rw [← hX]; exact hj)
    show (X.get i j - s.xShift.get j) * s.xScale.get j / s.xScale.get j + s.xShift.get j = X.get i j
    field_simp; ring
  · intro i _ j hj
    have := h0 j (by rw [← hX]; exact hj)
    show (X.get i j / s.xScale.get j + s.xShift.get j - s.xShift.get j) * s.xScale.get j = X.get i j
    field_simp; ring
  · intro i hi
    have := h0 i (by rw [← hx]; exact hi)
    show (x.get i - s.xShift.get i) * s.xScale.get i / s.xScale.get i + s.xShift.get i = x.get i
    field_simp; ring
  · intro i hi
    have := h0 i (by rw [← hx]; exact hi)
    show (x.get i / s.xScale.get i + s.xShift.get i - s.xShift.get i) * s.xScale.get i = x.get i
    field_simp; ring

/-- The value `obj_init_2_scl` computes. -/
theorem objInit2Scl_val {s : Scl} (ho : s.obj.isSome = true) (hn : s.xScale.n = s.xInit.c) {a : Obj6} (ha : Obj6Ok s.xInit.c a) :
    objInit2Scl s a = .ok
      { mu := a.mu.map fun v => v.map fun y => (y - s.objShift) * s.objScale
        sig := a.sig.map fun v => v.map fun y => y * s.objScale
        dmu := a.dmu.map fun A => ⟨A.r, A.c, fun p i => A.get p i * ((1 / s.xScale.get i) ^ 1 * s.objScale)⟩
        dsig := a.dsig.map fun A => ⟨A.r, A.c, fun p i => A.get p i * ((1 / s.xScale.get i) ^ 1 * s.objScale)⟩
        d2mu := a.d2mu.map fun A => ⟨A.d, A.r, A.c, fun p i j => A.get p i j * ((1 / s.xScale.get j) ^ 2 * s.objScale)⟩
        d2sig := a.d2sig.map fun A => ⟨A.d, A.r, A.c, fun p i j => A.get p i j * ((1 / s.xScale.get j) ^ 2 * s.objScale)⟩ } := by
  obtain ⟨m, t, g, u, H, K⟩ := a
  have hg : ∀ o : Option Arr2, (∀ A, o = some A → A.c = s.xInit.c) →
      optPy (fun (A : Arr2) => A.bop (· * ·) (invScale s.xScale s.objScale 1).row) o = .ok (o.map fun A =>
        ⟨A.r, A.c, fun p i => A.get p i * ((1 / s.xScale.get i) ^ 1 * s.objScale)⟩) := by
    intro o h
    cases o with
    | none => rfl
    | some A => simp only [optPy]; rw [bop_row (by rw [h A rfl]; exact hn.symm)]; rfl
  have hh : ∀ o : Option Arr3, (∀ A, o = some A → A.c = s.xInit.c) →
      optPy (fun (A : Arr3) => A.bopRow (· * ·) (invScale s.xScale s.objScale 2)) o = .ok (o.map fun A =>
        ⟨A.d, A.r, A.c, fun p i j => A.get p i j * ((1 / s.xScale.get j) ^ 2 * s.objScale)⟩) := by
    intro o h
    cases o with
    | none => rfl
    | some A => simp only [optPy]; rw [bopRow_ok (by rw [h A rfl]; exact hn.symm)]; rfl
  unfold objInit2Scl
  dsimp only
  rw [pyAssert_true ho, hg _ ha.dmu, hg _ ha.dsig, hh _ ha.d2mu, hh _ ha.d2sig]
  rfl

/-- The value `obj_scl_2_init` computes. -/
theorem objScl2Init_val {s : Scl} (ho : s.obj.isSome = true) (hn : s.xScale.n = s.xInit.c) {a : Obj6} (ha : Obj6Ok s.xInit.c a) :
    objScl2Init s a = .ok
      { mu := a.mu.map fun v => v.map fun y => y / s.objScale + s.objShift
        sig := a.sig.map fun v => v.map fun y => y / s.objScale
        dmu := a.dmu.map fun A => ⟨A.r, A.c, fun p i => A.get p i * (s.xScale.get i ^ 1 / s.objScale)⟩
        dsig := a.dsig.map fun A => ⟨A.r, A.c, fun p i => A.get p i * (s.xScale.get i ^ 1 / s.objScale)⟩
        d2mu := a.d2mu.map fun A => ⟨A.d, A.r, A.c, fun p i j => A.get p i j * (s.xScale.get j ^ 2 / s.objScale)⟩
        d2sig := a.d2sig.map fun A => ⟨A.d, A.r, A.c, fun p i j => A.get p i j * (s.xScale.get j ^ 2 / s.objScale)⟩ } := by
  obtain ⟨m, t, g, u, H, K⟩ := a
  have hg : ∀ o : Option Arr2, (∀ A, o = some A → A.c = s.xInit.c) →
      optPy (fun (A : Arr2) => A.bop (· * ·) (fwdScale s.xScale s.objScale 1).row) o = .ok (o.map fun A =>
        ⟨A.r, A.c, fun p i => A.get p i * (s.xScale.get i ^ 1 / s.objScale)⟩) := by
    intro o h
    cases o with
    | none => rfl
    | some A => simp only [optPy]; rw [bop_row (by rw [h A rfl]; exact hn.symm)]; rfl
  have hh : ∀ o : Option Arr3, (∀ A, o = some A → A.c = s.xInit.c) →
      optPy (fun (A : Arr3) => A.bopRow (· * ·) (fwdScale s.xScale s.objScale 2)) o = .ok (o.map fun A =>
        ⟨A.d, A.r, A.c, fun p i j => A.get p i j * (s.xScale.get j ^ 2 / s.objScale)⟩) := by
    intro o h
    cases o with
    | none => rfl
    | some A => simp only [optPy]; rw [bopRow_ok (by rw [h A rfl]; exact hn.symm)]; rfl
  unfold objScl2Init
  dsimp only
  rw [pyAssert_true ho, hg _ ha.dmu, hg _ ha.dsig, hh _ ha.d2mu, hh _ ha.d2sig]
  rfl

/-- `OptRel` after two maps. -/
theorem optRel_map_map {α β : Type} {r : α → α → Prop} {f : α → β} {g : β → α} {p : α → Prop} (h : ∀ a, p a → r (g (f a)) a) :
    ∀ {o : Option α}, (∀ a, o = some a → p a) → OptRel r ((o.map f).map g) o
  | none, _ => trivial
  | some a, hp => h a (hp a rfl)

/-- **C46**, objective: `obj_init_2_scl` and `obj_scl_2_init` invert each other on values, standard deviations, gradients and
Hessians, each of which may be absent, for every shift and all nonzero scales. -/
theorem C46_objective_inverse {s : Scl} (ho : s.obj.isSome = true) (hn : s.xScale.n = s.xInit.c)
    (h0 : ∀ d < s.xInit.c, s.xScale.get d ≠ 0) (hc : s.objScale ≠ 0) {a : Obj6} (ha : Obj6Ok s.xInit.c a) :
    (∃ b c, objInit2Scl s a = .ok b ∧ objScl2Init s b = .ok c ∧ Obj6Eq c a) ∧
    (∃ b c, objScl2Init s a = .ok b ∧ objInit2Scl s b = .ok c ∧ Obj6Eq c a) := by
  have H : ∀ {b : Obj6} {f1 f2 : Arr2 → Arr2} {f3 f4 : Arr3 → Arr3}, (∀ A, (f1 A).c = A.c) → (∀ A, (f2 A).c = A.c) →
      (∀ A, (f3 A).c = A.c) → (∀ A, (f4 A).c = A.c) → b.dmu = a.dmu.map f1 → b.dsig = a.dsig.map f2 → b.d2mu = a.d2mu.map f3 →
      b.d2sig = a.d2sig.map f4 → Obj6Ok s.xInit.c b := by
    intro b f1 f2 f3 f4 k1 k2 k3 k4 h1 h2 h3 h4
    refine ⟨fun A hA => ?_, fun A hA => ?_, fun A hA => ?_, fun A hA => ?_⟩
    · rw [h1] at hA
      obtain ⟨B, hB, rfl⟩ := Option.map_eq_some_iff.mp hA
      rw [k1, ha.dmu B hB]
    · rw [h2] at hA
      obtain ⟨B, hB, rfl⟩ := Option.map_eq_some_iff.mp hA
      rw [k2, ha.dsig B hB]
    · rw [h3] at hA
      obtain ⟨B, hB, rfl⟩ := Option.map_eq_some_iff.mp hA
      rw [k3, ha.d2mu B hB]
    · rw [h4] at hA
      obtain ⟨B, hB, rfl⟩ := Option.map_eq_some_iff.mp hA
      rw [k4, ha.d2sig B hB]
  constructor
  · refine ⟨_, _, objInit2Scl_val ho hn ha, objScl2Init_val ho hn (H ?_ ?_ ?_ ?_ rfl rfl rfl rfl), ?_⟩
    · exact fun _ => rfl
    · exact fun _ => rfl
    · exact fun _ => rfl
    · exact fun _ => rfl
    refine ⟨optRel_map_map (p := fun _ => True) (fun v _ => ⟨rfl, fun i _ => ?_⟩) (fun _ _ => trivial),
      optRel_map_map (p := fun _ => True) (fun v _ => ⟨rfl, fun i _ => ?_⟩) (fun _ _ => trivial),
      optRel_map_map (fun A hA => ⟨rfl, rfl, fun p _ i hi => ?_⟩) ha.dmu,
      optRel_map_map (fun A hA => ⟨rfl, rfl, fun p _ i hi => ?_⟩) ha.dsig,
      optRel_map_map (fun A hA => ⟨rfl, rfl, rfl, fun p _ q _ i hi => ?_⟩) ha.d2mu,
      optRel_map_map (fun A hA => ⟨rfl, rfl, rfl, fun p _ q _ i hi => ?_⟩) ha.d2sig⟩
    · show (v.get i - s.objShift) * s.objScale / s.objScale + s.objShift = v.get i
      field_simp; ring
    · show v.get i * s.objScale / s.objScale = v.get i
      field_simp
    · have := h0 i (by rw [← hA]; exact hi)
      show A.get p i * ((1 / s.xScale.get i) ^ 1 * s.objScale) * (s.xScale.get i ^ 1 / s.objScale) = A.get p i
      field_simp
    · have := h0 i (by rw [← hA]; exact hi)
      show A.get p i * ((1 / s.xScale.get i) ^ 1 * s.objScale) * (s.xScale.get i ^ 1 / s.objScale) = A.get p i
      field_simp
    · have := h0 i (by rw [← hA]; exact hi)
      show A.get p q i * ((1 / s.xScale.get i) ^ 2 * s.objScale) * (s.xScale.get i ^ 2 / s.objScale) = A.get p q i
      field_simp
    · have := h0 i (by rw [← hA]; exact hi)
      show A.get p q i * ((1 / s.xScale.get i) ^ 2 * s.objScale) * (s.xScale.get i ^ 2 / s.objScale) = A.get p q i
      field_simp
  · refine ⟨_, _, objScl2Init_val ho hn ha, objInit2Scl_val ho hn (H ?_ ?_ ?_ ?_ rfl rfl rfl rfl), ?_⟩
    · exact fun _ => rfl
    · exact fun _ => rfl
    · exact fun _ => rfl
    · exact fun _ => rfl
    refine ⟨optRel_map_map (p := fun _ => True) (fun v _ => ⟨rfl, fun i _ => ?_⟩) (fun _ _ => trivial),
      optRel_map_map (p := fun _ => True) (fun v _ => ⟨rfl, fun i _ => ?_⟩) (fun _ _ => trivial),
      optRel_map_map (fun A hA => ⟨rfl, rfl, fun p _ i hi => ?_⟩) ha.dmu,
      optRel_map_map (fun A hA => ⟨rfl, rfl, fun p _ i hi => ?_⟩) ha.dsig,
      optRel_map_map (fun A hA => ⟨rfl, rfl, rfl, fun p _ q _ i hi => ?_⟩) ha.d2mu,
      optRel_map_map (fun A hA => ⟨rfl, rfl, rfl, fun p _ q _ i hi => ?_⟩) ha.d2sig⟩
    · show (v.get i / s.objScale + s.objShift - s.objShift) * s.objScale = v.get i
      field_simp; ring
    · show v.get i / s.objScale * s.objScale = v.get i
      field_simp
    · have := h0 i (by rw [← hA]; exact hi)
      show A.get p i * (s.xScale.get i ^ 1 / s.objScale) * ((1 / s.xScale.get i) ^ 1 * s.objScale) = A.get p i
      field_simp
    · have := h0 i (by rw [← hA]; exact hi)
      show A.get p i * (s.xScale.get i ^ 1 / s.objScale) * ((1 / s.xScale.get i) ^ 1 * s.objScale) = A.get p i
      field_simp
    · have := h0 i (by rw [← hA]; exact hi)
      show A.get p q i * (s.xScale.get i ^ 2 / s.objScale) * ((1 / s.xScale.get i) ^ 2 * s.objScale) = A.get p q i
      field_simp
    · have := h0 i (by rw [← hA]; exact hi)
      show A.get p q i * (s.xScale.get i ^ 2 / s.objScale) * ((1 / s.xScale.get i) ^ 2 * s.objScale) = A.get p q i
      field_simp

/-- **C46**, distances: the two conversions of distances invert each other when the mean scale is not zero. -/
theorem C46_distance_inverse {s : Scl} (h0 : ∑ d ∈ Finset.range s.xScale.n, s.xScale.get d ≠ 0) (hn : s.xScale.n ≠ 0) (r : ℝ) :
    distScl2Init s (distInit2Scl s r) = r ∧ distInit2Scl s (distScl2Init s r) = r := by
  have : meanScale s ≠ 0 := by
    unfold meanScale
    exact div_ne_zero h0 (by exact_mod_cast hn)
  unfold distScl2Init distInit2Scl
  constructor <;> field_simp

/-! ### C47 -/

theorem ptDist_eq (X : Arr2) (a b : ℕ) : ptDist X a b = euclid X a b := rfl

/-- Scaling all coordinates by the same nonnegative factor scales the distances. -/
theorem ptDist_scale {X Y : Arr2} {c : ℝ} (hc : 0 ≤ c) (hY : Y.c = X.c) {a b : ℕ}
    (h : ∀ d < X.c, Y.get a d - Y.get b d = c * (X.get a d - X.get b d)) : ptDist Y a b = c * ptDist X a b := by
  unfold ptDist
  rw [hY]
  have : ∑ d ∈ Finset.range X.c, (Y.get a d - Y.get b d) ^ 2 = c ^ 2 * ∑ d ∈ Finset.range X.c, (X.get a d - X.get b d) ^ 2 := by
    rw [Finset.mul_sum]
    refine Finset.sum_congr rfl fun d hd => ?_
    rw [h d (Finset.mem_range.mp hd)]; ring
  rw [this, Real.sqrt_mul (sq_nonneg c), Real.sqrt_sq hc]

/-- What `set_xscale_data` does to the points, relative to the requested relative scale `w`: with a distance method the
points are scaled by a common positive factor, with `None` the factor is 1. -/
theorem xscale_factor {s s' : Scl} {b : Option Arr1} (h : setXscale none b s = (s', .ok ())) :
    ∃ c sin, calcScaleIn s b = .ok sin ∧ Images s' ∧ s'.xInit = s.xInit ∧ s'.xMtd = s.xMtd ∧ s'.distSet = s.distSet ∧
      (∀ d < s.xInit.c, s'.xScale.get d = sin.get d * c) ∧
      calcCoeff s ⟨s.xInit.r, s.xInit.c, fun p d => (s.xInit.get p d - s'.xShift.get d) * sin.get d⟩ = .ok c := by
  obtain ⟨r, hr, -, hI, h1, h2, h3, -, -, -, h4, h5, -⟩ := setXscale_ok h
  obtain ⟨X, c, sin, -, -, k1, -, -, rfl, k2, k3⟩ := calcXShiftScale_inv hr
  refine ⟨c, sin, k1, hI, h3, h4, h5, fun d _ => ?_, by rw [h1]; exact k2⟩
  rw [h2, k3]

/-- Distances of the scaled points of a consistent object. -/
theorem images_dist {s : Scl} (hI : Images s) {w : ℕ → ℝ} {c : ℝ} (hc : 0 ≤ c)
    (h : ∀ d < s.xInit.c, s.xScale.get d = w d * c) {a b : ℕ} (ha : a < s.xInit.r) (hb : b < s.xInit.r) :
    ptDist s.xScl a b = c * ptDist (stretched s.xInit w) a b := by
  obtain ⟨h1, h2, h3⟩ := hI.x
  refine ptDist_scale hc (by rw [h2]; rfl) fun d hd => ?_
  have hd' : d < s.xInit.c := hd
  rw [h3 a ha d hd', h3 b hb d hd', sclPt, sclPt, h d hd']
  show _ = c * (s.xInit.get a d * w d - s.xInit.get b d * w d)
  ring

/-- Distances do not depend on the shift. -/
theorem shifted_dist (X : Arr2) (v w : ℕ → ℝ) (a b : ℕ) :
    euclid ⟨X.r, X.c, fun p d => (X.get p d - v d) * w d⟩ a b = ptDist (stretched X w) a b := by
  unfold euclid ptDist stretched
  refine congrArg Real.sqrt (Finset.sum_congr rfl fun d _ => ?_)
  ring

/-- **C47**, minimum: after a successful `set_xscale_data` (as called by the constructor, with any relative scale `b`) with the
method `'set_vmin'`, the smallest distance between two scaled points is exactly the requested one, for two or more points whose
distances (measured with the relative scale) are at least the tolerance `1e-14`. -/
theorem C47_min_distance {s s' : Scl} {b : Option Arr1} (h : setXscale none b s = (s', .ok ())) (hm : s.xMtd = .vmin)
    (h2 : 2 ≤ s.xInit.r) (hD : 0 < s.distSet.getD 1)
    (hsep : ∀ p < s.xInit.r, ∀ q < s.xInit.r, p ≠ q →
      (10 : ℝ) ^ (-14 : ℤ) ≤ ptDist (stretched s.xInit (fun d => (b.getD ⟨s.xInit.c, fun _ => 1⟩).get d)) p q) :
    IsMinDist s'.xScl (s.distSet.getD 1) ∧ ∀ d < s.xInit.c, 0 < s'.xScale.get d := by
  obtain ⟨c, sin, hsin, hI, e1, e2, e3, hsc, hcf⟩ := xscale_factor h
  obtain ⟨n1, n2, rfl⟩ := calcScaleIn_n hsin
  have hr1 : ¬ s.xInit.r = 1 := by omega
  unfold calcCoeff at hcf
  rw [if_neg (by rintro (h | h); exact hr1 h; rw [hm] at h; cases h), hm] at hcf
  simp only [isoScaling, if_true] at hcf
  obtain ⟨lo, hi, k1, -, k2, -, k3⟩ := (C16_distances ⟨s.xInit.r, s.xInit.c, fun p d =>
    (s.xInit.get p d - s'.xShift.get d) * (b.getD ⟨s.xInit.c, fun _ => 1⟩).get d⟩).2 h2
  rw [k1] at hcf
  simp only [needDist, ok_bind, pure_eq_ok] at hcf
  obtain ⟨p, hp, q, hq, hpq, hlo⟩ := k2
  rw [shifted_dist] at hlo
  have htol : tolMinDistX ≤ lo := by rw [hlo]; exact hsep p hp q hq hpq
  have htp : 0 < tolMinDistX := by unfold tolMinDistX; positivity
  have hlop : 0 < lo := lt_of_lt_of_le htp htol
  rw [max_eq_right htol] at hcf
  have hc : c = s.distSet.getD 1 / lo := by simpa [vDflt] using hcf.symm
  have hcp : 0 < c := by rw [hc]; exact div_pos hD hlop
  have hsc' : ∀ d < s'.xInit.c, s'.xScale.get d = (b.getD ⟨s.xInit.c, fun _ => 1⟩).get d * c := by rw [e1]; exact hsc
  have hdist : ∀ a < s.xInit.r, ∀ e < s.xInit.r, ptDist s'.xScl a e =
      c * ptDist (stretched s.xInit fun d => (b.getD ⟨s.xInit.c, fun _ => 1⟩).get d) a e := by
    intro a ha e he
    have := images_dist hI hcp.le hsc' (a := a) (b := e) (by rw [e1]; exact ha) (by rw [e1]; exact he)
    rw [this, e1]
  have hxr : s'.xScl.r = s.xInit.r := by rw [hI.x.1, e1]
  have hcl : c * lo = s.distSet.getD 1 := by rw [hc]; field_simp
  refine ⟨⟨⟨p, by rw [hxr]; exact hp, q, by rw [hxr]; exact hq, hpq, ?_⟩, fun a ha e he hae => ?_⟩, fun d hd => ?_⟩
  · rw [hdist p hp q hq, ← hlo, hcl]
  · rw [hxr] at ha he
    rw [hdist a ha e he, ← hcl]
    refine mul_le_mul_of_nonneg_left ?_ hcp.le
    have := (k3 a ha e he hae).1
    rwa [shifted_dist] at this
  · rw [hsc d hd]
    exact mul_pos (n2 d (by rw [n1]; exact hd)) hcp

/-- **C47**, maximum: as above for `'set_vmax'` and the largest distance, for two or more points that are not all equal. -/
theorem C47_max_distance {s s' : Scl} {b : Option Arr1} (h : setXscale none b s = (s', .ok ())) (hm : s.xMtd = .vmax)
    (h2 : 2 ≤ s.xInit.r) (hD : 0 < s.distSet.getD 1)
    (hne : ∃ p < s.xInit.r, ∃ q < s.xInit.r, ∃ d < s.xInit.c, s.xInit.get p d ≠ s.xInit.get q d) :
    IsMaxDist s'.xScl (s.distSet.getD 1) ∧ ∀ d < s.xInit.c, 0 < s'.xScale.get d := by
  obtain ⟨c, sin, hsin, hI, e1, e2, e3, hsc, hcf⟩ := xscale_factor h
  obtain ⟨n1, n2, rfl⟩ := calcScaleIn_n hsin
  have hr1 : ¬ s.xInit.r = 1 := by omega
  unfold calcCoeff at hcf
  rw [if_neg (by rintro (h | h); exact hr1 h; rw [hm] at h; cases h), hm] at hcf
  simp only [isoScaling, Bool.false_eq_true, if_false] at hcf
  obtain ⟨lo, hi, -, k1, -, k2, k3⟩ := (C16_distances ⟨s.xInit.r, s.xInit.c, fun p d =>
    (s.xInit.get p d - s'.xShift.get d) * (b.getD ⟨s.xInit.c, fun _ => 1⟩).get d⟩).2 h2
  rw [k1] at hcf
  simp only [needDist, ok_bind, pure_eq_ok] at hcf
  obtain ⟨p, hp, q, hq, hpq, hhi⟩ := k2
  rw [shifted_dist] at hhi
  have hpos : 0 < hi := by
    obtain ⟨a, ha, e, he, d, hd, hde⟩ := hne
    have hae : a ≠ e := by rintro rfl; exact hde rfl
    refine lt_of_lt_of_le ?_ (k3 a ha e he hae).2
    rw [shifted_dist]
    refine Real.sqrt_pos.mpr (lt_of_lt_of_le ?_ (Finset.single_le_sum (f := fun d =>
      ((stretched s.xInit fun d => (b.getD ⟨s.xInit.c, fun _ => 1⟩).get d).get a d -
        (stretched s.xInit fun d => (b.getD ⟨s.xInit.c, fun _ => 1⟩).get d).get e d) ^ 2) (fun _ _ => sq_nonneg _)
        (Finset.mem_range.mpr hd)))
    have hw := n2 d (by rw [n1]; exact hd)
    have : (stretched s.xInit fun d => (b.getD ⟨s.xInit.c, fun _ => 1⟩).get d).get a d -
        (stretched s.xInit fun d => (b.getD ⟨s.xInit.c, fun _ => 1⟩).get d).get e d =
        (s.xInit.get a d - s.xInit.get e d) * (b.getD ⟨s.xInit.c, fun _ => 1⟩).get d := by
      show s.xInit.get a d * _ - s.xInit.get e d * _ = _
      ring
    rw [this]
    exact sq_pos_of_ne_zero (mul_ne_zero (sub_ne_zero.mpr hde) hw.ne')
  have hc : c = s.distSet.getD 1 / hi := by simpa [vDflt] using hcf.symm
  have hcp : 0 < c := by rw [hc]; exact div_pos hD hpos
  have hsc' : ∀ d < s'.xInit.c, s'.xScale.get d = (b.getD ⟨s.xInit.c, fun _ => 1⟩).get d * c := by rw [e1]; exact hsc
  have hdist : ∀ a < s.xInit.r, ∀ e < s.xInit.r, ptDist s'.xScl a e =
      c * ptDist (stretched s.xInit fun d => (b.getD ⟨s.xInit.c, fun _ => 1⟩).get d) a e := by
    intro a ha e he
    have := images_dist hI hcp.le hsc' (a := a) (b := e) (by rw [e1]; exact ha) (by rw [e1]; exact he)
    rw [this, e1]
  have hxr : s'.xScl.r = s.xInit.r := by rw [hI.x.1, e1]
  have hcl : c * hi = s.distSet.getD 1 := by rw [hc]; field_simp
  refine ⟨⟨⟨p, by rw [hxr]; exact hp, q, by rw [hxr]; exact hq, hpq, ?_⟩, fun a ha e he hae => ?_⟩, fun d hd => ?_⟩
  · rw [hdist p hp q hq, ← hhi, hcl]
  · rw [hxr] at ha he
    rw [hdist a ha e he, ← hcl]
    refine mul_le_mul_of_nonneg_left ?_ hcp.le
    have := (k3 a ha e he hae).2
    rwa [shifted_dist] at this
  · rw [hsc d hd]
    exact mul_pos (n2 d (by rw [n1]; exact hd)) hcp

/-- The constructor succeeds for one or more points, an existing index of the best point and an available method. -/
theorem newScl_total {x : Arr2} {idx : Option ℤ} {u : Bool} {m : XMtd} {dist : Option ℝ} (hm : m ≠ .other) (h1 : 1 ≤ x.r)
    {i : ℕ} (hi : pyIdx (idx.getD ((x.r : ℤ) - 1)) x.r = .ok i) :
    ∃ s, newScl x idx u m dist = (s, .ok ()) := by
  unfold newScl
  dsimp only
  rw [if_neg hm]
  set s0 : Scl := { xInit := x, idxBest := idx.getD ((x.r : ℤ) - 1), useShift := u, xMtd := m, distSet := dist
                    xShift := ⟨0, fun _ => 0⟩, xScale := ⟨0, fun _ => 0⟩, xScl := ⟨0, 0, fun _ _ => 0⟩
                    R := ⟨0, 0, 0, fun _ _ _ => 0⟩ } with hs0
  have hsh : ∃ sh, calcShift s0 none = .ok sh ∧ sh.n = x.c := by
    unfold calcShift
    cases u with
    | true =>
      have hi' : pyIdx s0.idxBest s0.xInit.r = .ok i := hi
      have hu : s0.useShift = true := rfl
      simp only [hu, if_true, hi']
      exact ⟨_, rfl, rfl⟩
    | false => exact ⟨_, rfl, rfl⟩
  obtain ⟨sh, hsh, hshn⟩ := hsh
  have hcf : ∃ c, calcCoeff s0 ⟨x.r, x.c, fun p d => (x.get p d - sh.get d) * 1⟩ = .ok c := by
    unfold calcCoeff
    by_cases hr : s0.xInit.r = 1 ∨ s0.xMtd = .none
    · rw [if_pos hr]; exact ⟨_, rfl⟩
    · rw [if_neg hr]
      push Not at hr
      have h2 : 2 ≤ x.r := by have : x.r ≠ 1 := hr.1; omega
      obtain ⟨lo, hi', k1, k2, -⟩ := (C16_distances ⟨x.r, x.c, fun p d => (x.get p d - sh.get d) * 1⟩).2 h2
      have hmm : s0.xMtd = m := rfl
      have hr2 := hr.2
      rw [hmm] at hr2 ⊢
      cases m with
      | vmin => simp only [isoScaling, if_true, k1, needDist]; exact ⟨_, rfl⟩
      | vmax => simp only [isoScaling, Bool.false_eq_true, if_false, k2, needDist]; exact ⟨_, rfl⟩
      | none => exact absurd rfl hr2
      | other => exact absurd rfl hm
  obtain ⟨c, hcf⟩ := hcf
  have hcx : calcXShiftScale s0 none none = .ok (sh, ⟨x.c, fun d => 1 * c⟩) := by
    unfold calcXShiftScale
    rw [hsh]
    simp only [ok_bind, calcScaleIn, pure_eq_ok]
    rw [bop_row (by exact hshn.symm)]
    simp only [ok_bind]
    rw [bop_row (by rfl)]
    simp only [ok_bind]
    rw [hcf]
    rfl
  unfold setXscale
  rw [andThen_of_ok (compute_of_ok hcx)]
  obtain ⟨R, hR, -⟩ := setSclX_ok (s := { s0 with xShift := sh, xScale := ⟨x.c, fun d => 1 * c⟩ }) hshn rfl
  rw [andThen_of_ok hR]
  exact ⟨_, rfl⟩

/-- A concrete object: the points 0 and 2 on a line, minimum distance 1. -/
def exPts : Arr2 := ⟨2, 1, fun i _ => if i = 0 then 0 else 2⟩

theorem exPts_new : ∃ s, newScl exPts none true .vmin (some 3) = (s, .ok ()) :=
  newScl_total (by decide) (by decide) (i := 1) (by decide)

example : ∃ s b s', setXscale none b s = (s', .ok ()) ∧ s.xMtd = .vmin ∧ 2 ≤ s.xInit.r ∧ 0 < s.distSet.getD 1 ∧
    ∀ p < s.xInit.r, ∀ q < s.xInit.r, p ≠ q →
      (10 : ℝ) ^ (-14 : ℤ) ≤ ptDist (stretched s.xInit (fun d => (b.getD ⟨s.xInit.c, fun _ => 1⟩).get d)) p q := by
  obtain ⟨s', hs⟩ := exPts_new
  unfold newScl at hs
  dsimp only at hs
  rw [if_neg (by decide)] at hs
  refine ⟨_, none, s', hs, rfl, le_refl 2, by norm_num, fun p hp q hq hpq => ?_⟩
  have hp' : p < 2 := hp
  have hq' : q < 2 := hq
  have h4 : Real.sqrt 4 = 2 := by rw [show (4 : ℝ) = 2 ^ 2 by norm_num, Real.sqrt_sq (by norm_num)]
  have : ptDist (stretched exPts (fun d => ((none : Option Arr1).getD ⟨exPts.c, fun _ => 1⟩).get d)) p q = 2 := by
    rw [← h4]
    unfold ptDist stretched
    refine congrArg Real.sqrt ?_
    have hc : exPts.c = 1 := rfl
    rw [hc, Finset.sum_range_one]
    simp only [exPts]
    have hp2 : p = 0 ∨ p = 1 := by omega
    have hq2 : q = 0 ∨ q = 1 := by omega
    rcases hp2 with rfl | rfl <;> rcases hq2 with rfl | rfl <;> first | exact absurd rfl hpq | norm_num
  exact le_trans (by norm_num) (ge_of_eq this)

/-! ### C48 -/

/-- **C48.** A successful `set_obj_data` with its default options (shift on, method `'dflt_max'`): the scaled objective at the
best point (`idx_xbest`) is 0, scaling preserves the order of the values, and for two or more values whose range is at least
the floor `1e-20` the range of the scaled values is exactly the configured 100. A single value is only shifted. -/
theorem C48_objective_scaling {s s' : Scl} {o : ObjData} (h : setObjData o true .dfltMax s = (s', .ok ())) :
    ∃ o' i, s'.objScl = some o' ∧ pyIdx s.idxBest o.val.n = .ok i ∧ o'.val.n = o.val.n ∧ o'.val.get i = 0 ∧ 0 < s'.objScale ∧
      (∀ a < o.val.n, ∀ b < o.val.n, o'.val.get a ≤ o'.val.get b ↔ o.val.get a ≤ o.val.get b) ∧
      (o.val.n = 1 → s'.objScale = 1) ∧
      (2 ≤ o.val.n → (∃ a < o.val.n, ∃ b < o.val.n, (10 : ℝ) ^ (-20 : ℤ) ≤ o.val.get a - o.val.get b) →
        (∃ a < o.val.n, ∃ b < o.val.n, o'.val.get a - o'.val.get b = 100) ∧
        ∀ a < o.val.n, ∀ b < o.val.n, o'.val.get a - o'.val.get b ≤ 100) := by
  unfold setObjData at h
  split at h
  · simp at h
  split at h
  · simp at h
  rename_i hn0
  dsimp only at h
  split at h
  · rename_i shift scale hcs
    unfold setObjScaling at h
    simp only [Option.isSome_some, if_true, Option.getD_some] at h
    obtain ⟨o', ho', rfl⟩ := compute_ok h
    -- the computed shift and scale
    unfold calcObjScaling at hcs
    obtain ⟨sh, hsh, hcs⟩ := bindOk hcs
    unfold objShiftOf at hsh
    simp only [if_true] at hsh
    obtain ⟨i, hi, hsh⟩ := bindOk hsh
    cases hsh
    obtain ⟨sc, hsc, hcs⟩ := bindOk hcs
    cases hcs
    unfold objScaleOf at hsc
    -- the scaled values
    have hval : o'.val = o.val.map fun y => (y - o.val.get i) * scale := by
      unfold sclObj at ho'
      dsimp only at ho'
      obtain ⟨r, hr, ho'⟩ := bindOk ho'
      obtain ⟨-, h1, -⟩ := objInit2Scl_inv hr
      rw [h1] at ho'
      simp only [ObjData.args, Option.map_some] at ho'
      cases ho'
      rfl
    have hrange : ¬ o.val.n = 1 → ∃ r hi lo, arrRange o.val = .ok r ∧ r = hi - lo ∧ scale = 100 / max tolMinRangeObj r ∧
        (∃ a < o.val.n, hi = o.val.get a) ∧ (∃ a < o.val.n, lo = o.val.get a) ∧
        ∀ a < o.val.n, o.val.get a ≤ hi ∧ lo ≤ o.val.get a := by
      intro hn1
      rw [if_neg (by rintro (h | h); exact hn1 h; cases h)] at hsc
      dsimp only at hsc
      obtain ⟨r, hr, hsc⟩ := bindOk hsc
      by_cases hne : ((List.range o.val.n).map o.val.get) = []
      · unfold arrRange at hr
        rw [hne] at hr
        simp [listMax] at hr
      · obtain ⟨hi, hhi, m1, m2⟩ := listMax_spec hne
        obtain ⟨lo, hlo, m3, m4⟩ := listMin_spec hne
        have hr2 := hr
        unfold arrRange at hr
        rw [hhi, hlo] at hr
        have hr' : r = hi - lo := by
          have : (Except.ok (hi - lo) : Py ℝ) = .ok r := hr
          cases this; rfl
        have hsc' : scale = rangeObjMaxDflt / max tolMinRangeObj r := by
          have : (Except.ok (rangeObjMaxDflt / max tolMinRangeObj r) : Py ℝ) = .ok scale := hsc
          cases this; rfl
        have mem : ∀ v, v ∈ (List.range o.val.n).map o.val.get ↔ ∃ a < o.val.n, v = o.val.get a := by
          intro v
          simp only [List.mem_map, List.mem_range]
          exact ⟨fun ⟨a, ha, e⟩ => ⟨a, ha, e.symm⟩, fun ⟨a, ha, e⟩ => ⟨a, ha, e.symm⟩⟩
        refine ⟨r, hi, lo, hr2, hr', by rw [hsc']; rfl, (mem _).mp m1, (mem _).mp m3,
          fun a ha => ⟨m2 _ ((mem _).mpr ⟨a, ha, rfl⟩), m4 _ ((mem _).mpr ⟨a, ha, rfl⟩)⟩⟩
    have htp : 0 < tolMinRangeObj := by unfold tolMinRangeObj; positivity
    have hscp : 0 < scale := by
      by_cases hn1 : o.val.n = 1
      · rw [if_pos (Or.inl hn1)] at hsc
        cases hsc; exact one_pos
      · obtain ⟨r, hi, lo, -, -, e, -⟩ := hrange hn1
        rw [e]
        exact div_pos (by norm_num) (lt_of_lt_of_le htp (le_max_left _ _))
    have hget : ∀ a, o'.val.get a = (o.val.get a - o.val.get i) * scale := by intro a; rw [hval]; rfl
    refine ⟨o', i, rfl, hi, by rw [hval]; rfl, by rw [hget]; ring, hscp, ?_, ?_, ?_⟩
    · intro a _ b _
      rw [hget, hget]
      constructor
      · intro h; have := le_of_mul_le_mul_right h hscp; linarith
      · intro h; exact mul_le_mul_of_nonneg_right (by linarith) hscp.le
    · intro hn1
      rw [if_pos (Or.inl hn1)] at hsc
      cases hsc; rfl
    · rintro h2 ⟨a0, ha0, b0, hb0, hab⟩
      obtain ⟨r, hi, lo, -, e1, e2, ⟨a, ha, ea⟩, ⟨b, hb, eb⟩, hb2⟩ := hrange (by omega)
      have hr : tolMinRangeObj ≤ r := by
        rw [e1]
        have h3 := (hb2 a0 ha0).1
        have h4 := (hb2 b0 hb0).2
        unfold tolMinRangeObj
        linarith
      have hrp : 0 < r := lt_of_lt_of_le htp hr
      rw [max_eq_right hr] at e2
      have e3 : r * scale = 100 := by rw [e2]; field_simp
      have key : ∀ a b, o'.val.get a - o'.val.get b = (o.val.get a - o.val.get b) * scale := by intro a b; rw [hget, hget]; ring
      refine ⟨⟨a, ha, b, hb, ?_⟩, fun c hc d hd => ?_⟩
      · rw [key, ← ea, ← eb, ← e1, e3]
      · rw [key, ← e3, e1]
        refine mul_le_mul_of_nonneg_right ?_ hscp.le
        have h3 := (hb2 c hc).1
        have h4 := (hb2 d hd).2
        linarith
  · simp at h

/-- `set_obj_data` succeeds for values of the right number, an existing best index and gradients with `dim` columns. -/
theorem setObjData_total {s : Scl} (hI : Images s) {o : ObjData} (hn : o.val.n = s.xInit.r) (h1 : 1 ≤ o.val.n)
    (hg : ∀ G, o.grad = some G ∨ o.stdGrad = some G → G.c = s.xInit.c) {i : ℕ} (hi : pyIdx s.idxBest o.val.n = .ok i) (u : Bool)
    {m : ObjMtd} (hm : m ≠ .other) :
    ∃ s', setObjData o u m s = (s', .ok ()) ∧ s'.obj = some o ∧ s'.xInit = s.xInit ∧ s'.xScale = s.xScale ∧ s'.xShift = s.xShift ∧
      s'.xScl = s.xScl ∧ s'.box = s.box ∧ s'.lin = s.lin ∧ s'.idxBest = s.idxBest := by
  have hsh : ∃ sh, objShiftOf { s with obj := some o, objMtd := m, useObjShift := u } o.val = .ok sh := by
    unfold objShiftOf
    cases u with
    | true => simp only [if_true, hi]; exact ⟨_, rfl⟩
    | false => exact ⟨_, rfl⟩
  obtain ⟨sh, hsh⟩ := hsh
  have hsc : ∃ sc, objScaleOf { s with obj := some o, objMtd := m, useObjShift := u } o.val = .ok sc := by
    unfold objScaleOf
    dsimp only
    by_cases h : o.val.n = 1 ∨ m = .none
    · rw [if_pos h]; exact ⟨_, rfl⟩
    · rw [if_neg h]
      push Not at h
      cases m with
      | dfltMax =>
        have hne : ((List.range o.val.n).map o.val.get) ≠ [] := by simp; omega
        obtain ⟨hi', hhi, -⟩ := listMax_spec hne
        obtain ⟨lo, hlo, -⟩ := listMin_spec hne
        simp only [arrRange, hhi, hlo]
        exact ⟨_, rfl⟩
      | none => exact absurd rfl h.2
      | other => exact absurd rfl hm
  obtain ⟨sc, hsc⟩ := hsc
  unfold setObjData
  rw [if_neg hm, if_neg (by simpa using hn.symm)]
  dsimp only
  have : calcObjScaling { s with obj := some o, objMtd := m, useObjShift := u } o.val = .ok (sh, sc) := by
    unfold calcObjScaling
    rw [hsh, hsc]; rfl
  rw [this]
  dsimp only
  unfold setObjScaling
  simp only [Option.isSome_some, if_true, Option.getD_some]
  have hval := objInit2Scl_val (s := { s with obj := some o, objMtd := m, useObjShift := u, objShift := sh, objScale := sc })
    rfl hI.scale_n (a := o.args) ⟨fun G hG => hg G (Or.inl hG), fun G hG => hg G (Or.inr hG), fun G hG => (by cases hG),
      fun G hG => (by cases hG)⟩
  have hscl : ∃ x, sclObj { s with obj := some o, objMtd := m, useObjShift := u, objShift := sh, objScale := sc } = .ok x := by
    unfold sclObj
    simp only []
    rw [hval]
    exact ⟨_, rfl⟩
  obtain ⟨x, hx⟩ := hscl
  unfold setSclObj
  rw [compute_of_ok hx]
  exact ⟨_, rfl, rfl, rfl, rfl, rfl, rfl, rfl, rfl, rfl⟩

/-- Objective data for the two points: values 5 and 7, derivatives 1 and -1. -/
def exObjData : ObjData := ⟨⟨2, fun i => if i = 0 then 5 else 7⟩, none, some ⟨2, 1, fun i _ => if i = 0 then 1 else -1⟩, none⟩

/-- A concrete reachable object with objective data. -/
theorem exScl_obj : ∃ s s', SclReach s ∧ s.xInit = exPts ∧ setObjData exObjData true .dfltMax s = (s', .ok ()) ∧ SclReach s' ∧
    s'.obj = some exObjData ∧ s'.xInit = exPts ∧ s'.idxBest = 1 ∧ (∀ d < s'.xInit.c, 0 < s'.xScale.get d) := by
  obtain ⟨s, hs⟩ := exPts_new
  obtain ⟨hI, -, hx, -, -, hidx, -⟩ := newScl_ok hs
  have hidx' : s.idxBest = 1 := by rw [hidx]; rfl
  obtain ⟨s', h1, h2, h3, h4, -, -, -, -, h5⟩ := setObjData_total hI (o := exObjData) (by rw [hx]; rfl) (by decide)
    (by rintro G (hG | hG)
        · have : G = ⟨2, 1, fun i _ => if i = 0 then 1 else -1⟩ := by simpa [exObjData] using hG.symm
          rw [this, hx]; rfl
        · simp [exObjData] at hG) (i := 1) (by rw [hidx']; rfl) true (m := .dfltMax) (by decide)
  refine ⟨s, s', .new hs, hx, h1, .call (.objData exObjData true .dfltMax) (.new hs) h1, h2, by rw [h3, hx], by rw [h5, hidx'], ?_⟩
  rw [h3, h4]
  unfold newScl at hs
  dsimp only at hs
  rw [if_neg (by decide)] at hs
  refine fun d hd => (C47_min_distance hs rfl (le_refl 2) (by norm_num) ?_).2 d (by rw [hx] at hd; exact hd)
  intro p hp q hq hpq
  have hp' : p < 2 := hp
  have hq' : q < 2 := hq
  have h4 : Real.sqrt 4 = 2 := by rw [show (4 : ℝ) = 2 ^ 2 by norm_num, Real.sqrt_sq (by norm_num)]
  have : ptDist (stretched exPts (fun d => ((none : Option Arr1).getD ⟨exPts.c, fun _ => 1⟩).get d)) p q = 2 := by
    rw [← h4]
    unfold ptDist stretched
    refine congrArg Real.sqrt ?_
    have hc : exPts.c = 1 := rfl
    rw [hc, Finset.sum_range_one]
    simp only [exPts]
    have hp2 : p = 0 ∨ p = 1 := by omega
    have hq2 : q = 0 ∨ q = 1 := by omega
    rcases hp2 with rfl | rfl <;> rcases hq2 with rfl | rfl <;> first | exact absurd rfl hpq | norm_num
  exact le_trans (by norm_num) (ge_of_eq this)

example : ∃ s s', setObjData exObjData true .dfltMax s = (s', .ok ()) ∧ 2 ≤ exObjData.val.n ∧
    ∃ a < exObjData.val.n, ∃ b < exObjData.val.n, (10 : ℝ) ^ (-20 : ℤ) ≤ exObjData.val.get a - exObjData.val.get b := by
  obtain ⟨s, s', -, -, h, -⟩ := exScl_obj
  refine ⟨s, s', h, le_refl 2, 1, by decide, 0, by decide, ?_⟩
  simp only [exObjData]
  norm_num

/-! ### C49 -/

/-- **C49.** In every reachable state - any sequence of calls of the constructor and of the methods that set the scaling, the
objective, the constraints and the nonlinear-constraint data, none of which raised - the scaled points, distances, objective,
gradients and constraints held by the object are the images of the stored original data under the current scaling. -/
theorem C49_scaled_data_correspond {s : Scl} (h : SclReach s) : Images s := reach_images h

/-- Computations that raise only because of shapes or indices do not raise an AssertionError. -/
def NoAssert {α : Type} (a : Py α) : Prop := a ≠ .error .assertion

theorem noAssert_ok {α : Type} (a : α) : NoAssert (.ok a : Py α) := fun h => nomatch h

theorem noAssert_bind {α β : Type} {a : Py α} {f : α → Py β} (ha : NoAssert a) (hf : ∀ x, NoAssert (f x)) : NoAssert (a >>= f) := by
  cases a with
  | ok x => exact hf x
  | error e => intro h; apply ha; cases h; rfl

theorem noAssert_bop2 (f : ℝ → ℝ → ℝ) (A B : Arr2) : NoAssert (A.bop f B) := by
  unfold Arr2.bop
  split
  · exact noAssert_ok _
  · exact fun h => nomatch h

theorem noAssert_bop1 (f : ℝ → ℝ → ℝ) (A B : Arr1) : NoAssert (A.bop f B) := by
  unfold Arr1.bop
  split
  · exact noAssert_ok _
  · exact fun h => nomatch h

theorem noAssert_bop3 (f : ℝ → ℝ → ℝ) (A : Arr3) (B : Arr1) : NoAssert (A.bopRow f B) := by
  unfold Arr3.bopRow
  split
  · exact noAssert_ok _
  · exact fun h => nomatch h

theorem noAssert_dot (A : Arr2) (B : Arr1) : NoAssert (A.dot B) := by
  unfold Arr2.dot
  split
  · exact noAssert_ok _
  · exact fun h => nomatch h

theorem noAssert_opt {α β : Type} {f : α → Py β} (hf : ∀ x, NoAssert (f x)) (o : Option α) : NoAssert (optPy f o) := by
  cases o with
  | none => exact noAssert_ok _
  | some a => exact noAssert_bind (hf a) fun _ => noAssert_ok _

theorem noAssert_idx (i : ℤ) (n : ℕ) : NoAssert (pyIdx i n) := by
  unfold pyIdx
  split
  · exact noAssert_ok _
  split
  · exact noAssert_ok _
  · exact fun h => nomatch h

theorem noAssert_sclObj {s : Scl} (h : s.obj.isSome = true) : NoAssert (sclObj s) := by
  unfold sclObj
  cases ho : s.obj with
  | none => rw [ho] at h; cases h
  | some o =>
    dsimp only
    refine noAssert_bind ?_ fun r => ?_
    · unfold objInit2Scl
      rw [pyAssert_true h]
      refine noAssert_bind (noAssert_ok _) fun _ => ?_
      dsimp only
      exact noAssert_bind (noAssert_opt (fun _ => noAssert_bop2 _ _ _) _) fun _ =>
        noAssert_bind (noAssert_opt (fun _ => noAssert_bop2 _ _ _) _) fun _ =>
        noAssert_bind (noAssert_opt (fun _ => noAssert_bop3 _ _ _) _) fun _ =>
        noAssert_bind (noAssert_opt (fun _ => noAssert_bop3 _ _ _) _) fun _ => noAssert_ok _
    · split
      · exact noAssert_ok _
      · exact fun h => nomatch h

theorem noAssert_objScaling (s : Scl) (v : Arr1) : NoAssert (calcObjScaling s v) := by
  unfold calcObjScaling
  refine noAssert_bind ?_ fun _ => noAssert_bind ?_ fun _ => noAssert_ok _
  · unfold objShiftOf
    split
    · exact noAssert_bind (noAssert_idx _ _) fun _ => noAssert_ok _
    · exact noAssert_ok _
  · unfold objScaleOf
    split
    · exact noAssert_ok _
    · split
      · refine noAssert_bind ?_ fun _ => noAssert_ok _
        unfold arrRange
        split
        · exact noAssert_ok _
        · exact fun h => nomatch h
      · exact fun h => nomatch h

theorem compute_err {α : Type} {f : Scl → Py α} {p : Scl → α → Scl} {s s' : Scl} {e : Err}
    (h : compute f p s = (s', .error e)) : f s = .error e := by
  unfold compute at h
  cases hf : f s with
  | ok a => rw [hf] at h; simp at h
  | error e' => rw [hf] at h; simp at h; rw [h.2]

theorem andThen_err {a b : Call} {s s' : Scl} {e : Err} (h : a.andThen b s = (s', .error e)) :
    (a s = (s', .error e)) ∨ ∃ t, a s = (t, .ok ()) ∧ b t = (s', .error e) := by
  unfold Call.andThen at h
  rcases hh : a s with ⟨t, r⟩
  rw [hh] at h
  cases r with
  | ok u => exact Or.inr ⟨t, by cases u; rfl, h⟩
  | error e' => exact Or.inl h

theorem when_err {c : Scl → Bool} {a : Call} {s s' : Scl} {e : Err} (h : Call.when c a s = (s', .error e)) :
    c s = true ∧ a s = (s', .error e) := by
  unfold Call.when at h
  cases hc : c s with
  | true => rw [hc] at h; exact ⟨rfl, by simpa using h⟩
  | false => rw [hc] at h; simp at h

theorem setSclObj_noAssert {s s' : Scl} (hs : s.obj.isSome = true) : setSclObj s ≠ (s', .error .assertion) :=
  fun h => noAssert_sclObj hs (compute_err h)

theorem setSclBox_noAssert {s s' : Scl} (hs : s.box.isSome = true) : setSclBox s ≠ (s', .error .assertion) := by
  intro h
  refine noAssert_bind ?_ (fun b => ?_) (compute_err h)
  · cases hb : s.box with
    | none => rw [hb] at hs; cases hs
    | some b => exact noAssert_ok _
  · exact noAssert_bind (noAssert_bop1 _ _ _) fun _ => noAssert_bind (noAssert_bop1 _ _ _) fun _ =>
      noAssert_bind (noAssert_bop1 _ _ _) fun _ => noAssert_bind (noAssert_bop1 _ _ _) fun _ => noAssert_ok _

theorem setSclLin_noAssert {s s' : Scl} (hs : s.lin.isSome = true) : setSclLin s ≠ (s', .error .assertion) := by
  intro h
  refine noAssert_bind ?_ (fun b => ?_) (compute_err h)
  · cases hb : s.lin with
    | none => rw [hb] at hs; cases hs
    | some b => exact noAssert_ok _
  · exact noAssert_bind (noAssert_bop2 _ _ _) fun _ => noAssert_bind (noAssert_dot _ _) fun _ =>
      noAssert_bind (noAssert_bop1 _ _ _) fun _ => noAssert_bind (noAssert_bop1 _ _ _) fun _ => noAssert_ok _

/-- **C49**, rejected calls: a call of `set_obj_data` or `set_xscale_data` that raises an AssertionError leaves the object
unchanged. -/
theorem C49_rejected_unchanged {s s' : Scl} :
    (∀ o u m, setObjData o u m s = (s', .error .assertion) → s' = s) ∧
    (∀ a b, setXscale a b s = (s', .error .assertion) → s' = s) := by
  constructor
  · intro o u m h
    unfold setObjData at h
    split at h
    · exact (Prod.mk.inj h).1.symm
    split at h
    · exact (Prod.mk.inj h).1.symm
    dsimp only at h
    split at h
    · unfold setObjScaling at h
      simp only [Option.isSome_some, if_true] at h
      exact absurd h (setSclObj_noAssert rfl)
    · rename_i e he
      obtain ⟨-, h⟩ := Prod.mk.inj h
      cases h
      exact absurd he (noAssert_objScaling _ _)
  · intro a b h
    unfold setXscale at h
    rcases andThen_err h with h1 | ⟨t1, h1, h⟩
    · unfold compute at h1
      dsimp only at h1
      cases hf : calcXShiftScale s a b with
      | ok r => rw [hf] at h1; simp at h1
      | error e => rw [hf] at h1; exact (Prod.mk.inj h1).1.symm
    · exfalso
      obtain ⟨r, hr, rfl⟩ := compute_ok h1
      obtain ⟨X, c, sin, -, -, -, hs, hn, -, -, hr2⟩ := calcXShiftScale_inv hr
      obtain ⟨R, hX, -⟩ := setSclX_ok (s := { s with xShift := r.1, xScale := r.2 }) hs (by show r.2.n = _; rw [hr2])
      rcases andThen_err h with h2 | ⟨t2, h2, h⟩
      · rw [hX] at h2; simp at h2
      rcases andThen_err h with h3 | ⟨t3, h3, h⟩
      · obtain ⟨hc, h3⟩ := when_err h3
        exact setSclObj_noAssert hc h3
      rcases andThen_err h with h4 | ⟨t4, h4, h⟩
      · obtain ⟨hc, h4⟩ := when_err h4
        simp [noSuchMethod] at h4
      rcases andThen_err h with h5 | ⟨t5, h5, h⟩
      · obtain ⟨hc, h5⟩ := when_err h5
        exact setSclBox_noAssert hc h5
      rcases andThen_err h with h6 | ⟨t6, h6, h⟩
      · obtain ⟨hc, h6⟩ := when_err h6
        exact setSclLin_noAssert hc h6
      · obtain ⟨hc, h⟩ := when_err h
        simp [noSuchMethod] at h

/-! ### C50 -/

/-- **C50**, box: in every reachable state with box constraints of the right size and positive scales, a point satisfies the
original bounds iff its image satisfies the scaled bounds. -/
theorem C50_box_feasible {s : Scl} (h : SclReach s) {lb ub : Arr1} (hb : s.box = some (lb, ub)) (hl : lb.n = s.xInit.c)
    (hu : ub.n = s.xInit.c) (hp : ∀ d < s.xInit.c, 0 < s.xScale.get d) :
    ∃ lb' ub', s.boxScl = some (lb', ub') ∧ ∀ x : ℕ → ℝ,
      (∀ d < s.xInit.c, lb.get d ≤ x d ∧ x d ≤ ub.get d) ↔
      (∀ d < s.xInit.c, lb'.get d ≤ sclPt s x d ∧ sclPt s x d ≤ ub'.get d) := by
  obtain ⟨⟨lb', ub'⟩, h1, h2, h3⟩ := (reach_images h).box _ hb
  obtain ⟨-, h2⟩ := h2 hl
  obtain ⟨-, h3⟩ := h3 hu
  refine ⟨lb', ub', h1, fun x => ?_⟩
  have key : ∀ d < s.xInit.c, (lb.get d ≤ x d ∧ x d ≤ ub.get d) ↔ (lb'.get d ≤ sclPt s x d ∧ sclPt s x d ≤ ub'.get d) := by
    intro d hd
    have e2 := h2 d (by rw [hl]; exact hd)
    have e3 := h3 d (by rw [hu]; exact hd)
    dsimp only at e2 e3
    rw [e2, e3]
    unfold sclPt
    rw [mul_le_mul_iff_left₀ (hp d hd), mul_le_mul_iff_left₀ (hp d hd), sub_le_sub_iff_right, sub_le_sub_iff_right]
  exact ⟨fun hx d hd => (key d hd).mp (hx d hd), fun hx d hd => (key d hd).mpr (hx d hd)⟩

/-- **C50**, linear: in every reachable state with linear constraints `lb ≤ A x ≤ ub` and nonzero scales, a point satisfies
them iff its image satisfies the scaled constraints. -/
theorem C50_linear_feasible {s : Scl} (h : SclReach s) {A : Arr2} {lb ub : Arr1} (hb : s.lin = some (A, lb, ub))
    (hl : lb.n = A.r) (hu : ub.n = A.r) (hp : ∀ d < s.xInit.c, s.xScale.get d ≠ 0) :
    ∃ A' lb' ub', s.linScl = some (A', lb', ub') ∧ A'.r = A.r ∧ A'.c = s.xInit.c ∧ A.c = s.xInit.c ∧ ∀ x : ℕ → ℝ,
      (∀ a < A.r, lb.get a ≤ ∑ d ∈ Finset.range A.c, A.get a d * x d ∧ ∑ d ∈ Finset.range A.c, A.get a d * x d ≤ ub.get a) ↔
      (∀ a < A.r, lb'.get a ≤ ∑ d ∈ Finset.range A.c, A'.get a d * sclPt s x d ∧
        ∑ d ∈ Finset.range A.c, A'.get a d * sclPt s x d ≤ ub'.get a) := by
  obtain ⟨⟨A', lb', ub'⟩, h1, h2, h3, h4, h5, h6, h7⟩ := (reach_images h).lin _ hb
  obtain ⟨-, h6⟩ := h6 hl
  obtain ⟨-, h7⟩ := h7 hu
  dsimp only at h2 h3 h4 h5 h6 h7
  refine ⟨A', lb', ub', h1, h3, by rw [h4, h2], h2, fun x => ?_⟩
  have hsum : ∀ a < A.r, ∑ d ∈ Finset.range A.c, A'.get a d * sclPt s x d =
      ∑ d ∈ Finset.range A.c, A.get a d * x d - ∑ d ∈ Finset.range A.c, A.get a d * s.xShift.get d := by
    intro a ha
    rw [← Finset.sum_sub_distrib]
    refine Finset.sum_congr rfl fun d hd => ?_
    have hd' : d < A.c := Finset.mem_range.mp hd
    have := hp d (by rw [← h2]; exact hd')
    rw [h5 a ha d hd', sclPt]
    field_simp
  have key : ∀ a < A.r, (lb.get a ≤ ∑ d ∈ Finset.range A.c, A.get a d * x d ∧ ∑ d ∈ Finset.range A.c, A.get a d * x d ≤ ub.get a) ↔
      (lb'.get a ≤ ∑ d ∈ Finset.range A.c, A'.get a d * sclPt s x d ∧
        ∑ d ∈ Finset.range A.c, A'.get a d * sclPt s x d ≤ ub'.get a) := by
    intro a ha
    rw [hsum a ha, h6 a ha, h7 a ha, sub_le_sub_iff_right, sub_le_sub_iff_right]
  exact ⟨fun hx d hd => (key d hd).mp (hx d hd), fun hx d hd => (key d hd).mpr (hx d hd)⟩

/-- A reachable object with box and linear constraints to which C50 applies. -/
example : ∃ s lb ub A, SclReach s ∧ s.box = some (lb, ub) ∧ lb.n = s.xInit.c ∧ ub.n = s.xInit.c ∧ s.lin = some (A, lb, ub) ∧
    lb.n = A.r ∧ ub.n = A.r ∧ (∀ d < s.xInit.c, 0 < s.xScale.get d) := by
  obtain ⟨-, s, -, -, -, hR, -, hx, -, hp⟩ := exScl_obj
  have hI := reach_images hR
  let v : Arr1 := ⟨1, fun _ => 0⟩
  let w : Arr1 := ⟨1, fun _ => 4⟩
  let A : Arr2 := ⟨1, 1, fun _ _ => 2⟩
  have hc : s.xInit.c = 1 := by rw [hx]; rfl
  have hs1 : s.xShift.n = 1 := by rw [hI.shift_n, hc]
  have hs2 : s.xScale.n = 1 := by rw [hI.scale_n, hc]
  have b1 : ∃ r, setBoxcon v w s = (r, .ok ()) ∧ r.box = some (v, w) ∧ r.xInit = s.xInit ∧ r.xScale = s.xScale ∧ r.xShift = s.xShift := by
    unfold setBoxcon setSclBox
    have : ∃ x, (do let b ← needSet (some (v, w)); boxInit2Scl { s with box := some (v, w) } b) = .ok x := by
      simp only [needSet, ok_bind, boxInit2Scl]
      rw [bop1_ok (by exact hs1.symm)]
      simp only [ok_bind]
      rw [bop1_ok (by exact hs2)]
      simp only [ok_bind]
      rw [bop1_ok (by exact hs1.symm)]
      simp only [ok_bind]
      rw [bop1_ok (by exact hs2)]
      exact ⟨_, rfl⟩
    obtain ⟨x, hx⟩ := this
    rw [compute_of_ok hx]
    exact ⟨_, rfl, rfl, rfl, rfl, rfl⟩
  obtain ⟨r, hr, e1, e2, e3, e4⟩ := b1
  have b2 : ∃ t, setLincon A v w r = (t, .ok ()) ∧ t.lin = some (A, v, w) ∧ t.box = r.box ∧ t.xInit = r.xInit ∧ t.xScale = r.xScale := by
    unfold setLincon setSclLin
    have : ∃ x, (do let b ← needSet (some (A, v, w)); linInit2Scl { r with lin := some (A, v, w) } b) = .ok x := by
      simp only [needSet, ok_bind, linInit2Scl]
      rw [bop_row (by show (1 : ℕ) = r.xScale.n; rw [e3, hs2])]
      simp only [ok_bind]
      have hd : (A.dot r.xShift) = .ok ⟨A.r, fun i => ∑ d ∈ Finset.range A.c, A.get i d * r.xShift.get d⟩ := by
        unfold Arr2.dot
        rw [if_pos (by rw [e4, hs1])]
      rw [hd]
      simp only [ok_bind]
      rw [bop1_ok (by rfl), bop1_ok (by rfl)]
      exact ⟨_, rfl⟩
    obtain ⟨x, hx⟩ := this
    rw [compute_of_ok hx]
    exact ⟨_, rfl, rfl, rfl, rfl, rfl⟩
  obtain ⟨t, ht, f1, f2, f3, f4⟩ := b2
  refine ⟨t, v, w, A, .call (.lincon A v w) (.call (.boxcon v w) hR hr) ht, by rw [f2, e1], by rw [f3, e2, hc], by rw [f3, e2, hc], f1,
    rfl, rfl, ?_⟩
  rw [f3, e2, f4, e3]
  exact hp

/-! ### C51 -/

/-- **C51 does not hold (1).** `set_nlc_data` with its default options always raises: the default method `'dflt_max'` is not an
available method. -/
theorem C51_default_options_raise (s : Scl) (d : NlcData) (u : Bool) :
    ∃ s', setNlcData d u .dfltMax s = (s', .error .assertion) := by
  unfold setNlcData
  dsimp only
  split
  · exact ⟨_, rfl⟩
  · rw [if_pos (by decide)]; exact ⟨_, rfl⟩

/-- **C51 does not hold (2).** Once nonlinear-constraint data are stored, every `set_xscale_data` raises (it calls methods that
do not exist), after it has already changed the scaling of the points: if shift and scale can be computed and the gradients of
the objective have `dim` columns, the exception is an AttributeError, the object has the new scale, and the scaled
nonlinear-constraint data and box and linear constraints are still those of the old scale. -/
theorem C51_rescaling_raises {s : Scl} {d : NlcData} (hd : s.nlc = some d) (a b : Option Arr1) :
    (∀ s', setXscale a b s ≠ (s', .ok ())) ∧
    ∀ r, calcXShiftScale s a b = .ok r →
      (∀ o G, s.obj = some o → o.grad = some G ∨ o.stdGrad = some G → G.c = s.xInit.c) →
      ∃ s', setXscale a b s = (s', .error .attribute) ∧ s'.xScale = r.2 ∧ s'.nlcScl = s.nlcScl ∧ s'.boxScl = s.boxScl ∧
        s'.linScl = s.linScl := by
  constructor
  · intro s' h
    obtain ⟨r, -, hn, -⟩ := setXscale_ok h
    rw [hd] at hn; cases hn
  · intro r hr ho
    obtain ⟨X, c, sin, -, -, -, hs, hn, -, -, hr2⟩ := calcXShiftScale_inv hr
    have hrn : r.2.n = s.xInit.c := by rw [hr2]
    unfold setXscale
    rw [andThen_of_ok (compute_of_ok hr)]
    obtain ⟨R, hR, -⟩ := setSclX_ok (s := { s with xShift := r.1, xScale := r.2 }) hs hrn
    rw [andThen_of_ok hR]
    have hobj : ∃ oS, Call.when (fun s => s.obj.isSome) setSclObj { ({ s with xShift := r.1, xScale := r.2 } : Scl) with
        xScl := ⟨s.xInit.r, s.xInit.c, fun p d => sclPt { s with xShift := r.1, xScale := r.2 } (s.xInit.get p) d⟩, R := R } =
        ({ ({ s with xShift := r.1, xScale := r.2 } : Scl) with
        xScl := ⟨s.xInit.r, s.xInit.c, fun p d => sclPt { s with xShift := r.1, xScale := r.2 } (s.xInit.get p) d⟩, R := R,
        objScl := oS }, .ok ()) := by
      cases hso : s.obj with
      | none => exact ⟨s.objScl, by simp [Call.when]⟩
      | some o =>
        have hval := objInit2Scl_val (s := { ({ s with xShift := r.1, xScale := r.2 } : Scl) with
          xScl := ⟨s.xInit.r, s.xInit.c, fun p d => sclPt { s with xShift := r.1, xScale := r.2 } (s.xInit.get p) d⟩, R := R })
          (by show s.obj.isSome = true; rw [hso]; rfl) hrn (a := o.args)
          ⟨fun G hG => ho o G hso (Or.inl hG), fun G hG => ho o G hso (Or.inr hG), fun G hG => (by cases hG), fun G hG => (by cases hG)⟩
        have hscl : ∃ x, sclObj { ({ s with xShift := r.1, xScale := r.2 } : Scl) with
          xScl := ⟨s.xInit.r, s.xInit.c, fun p d => sclPt { s with xShift := r.1, xScale := r.2 } (s.xInit.get p) d⟩, R := R } =
            .ok x := by
          unfold sclObj
          simp only [hso]
          rw [hso] at hval
          rw [hval]
          exact ⟨_, rfl⟩
        obtain ⟨x, hx⟩ := hscl
        rw [hso] at hx
        refine ⟨some x, ?_⟩
        simp only [Call.when, Option.isSome_some, if_true, setSclObj]
        rw [compute_of_ok hx]
    obtain ⟨oS, hobj⟩ := hobj
    rw [andThen_of_ok hobj]
    rw [andThen_of_err (a := Call.when _ noSuchMethod) (t := { ({ s with xShift := r.1, xScale := r.2 } : Scl) with
      xScl := ⟨s.xInit.r, s.xInit.c, fun p d => sclPt { s with xShift := r.1, xScale := r.2 } (s.xInit.get p) d⟩, R := R,
      objScl := oS }) (e := .attribute) (by simp [Call.when, hd, noSuchMethod])]
    exact ⟨_, rfl, rfl, rfl, rfl, rfl⟩

/-- **C51, what holds.** With the methods `None` (any state) or `'obj_scl'` (objective data stored), constraint values with one
row per point, standard deviations given and gradients with `dim` entries per constraint, `set_nlc_data` succeeds in a
consistent object and the object stays consistent; the constraints are shifted by their values at the best point if a shift is
requested and not at all otherwise, and scaled by the scale of the objective if that is requested (for two or more points). The full property would also need the default options and a later change of
the scaling of the points to succeed, and both are proved above to raise. -/
theorem C51_nlc_data_partial {s : Scl} (hI : Images s) {d : NlcData} (hr : d.val.r = s.xInit.r) {t : Arr2} (ht : d.std = some t)
    (hg : ∀ G, d.grad = some G → G.c = s.xInit.c) (hg' : ∀ G, d.stdGrad = some G → G.c = s.xInit.c)
    {u : Bool} {i : ℕ} (hi : u = true → pyIdx s.idxBest s.xInit.r = .ok i) (m : NlcMtd) (hm : m = .none ∨ m = .objScl ∧ s.obj.isSome = true) :
    ∃ s', setNlcData d u m s = (s', .ok ()) ∧ Images s' ∧ s'.nlc = some d ∧ s'.xScale = s.xScale ∧ s'.xShift = s.xShift ∧
      s'.xInit = s.xInit ∧ s'.nlcShift.n = d.val.c ∧ (∀ j, s'.nlcShift.get j = if u then d.val.get i j else 0) ∧
      s'.nlcScale = if s.xInit.r = 1 ∨ m = .none then 1 else s.objScale := by
  have H : ∀ sc : ℝ, ∃ s', setNlcScaling (some ⟨d.val.c, fun j => if u then d.val.get i j else 0⟩) (some sc)
      { s with nlcN := d.val.c, nlc := some d, nlcMtd := m, useNlcShift := u } = (s', .ok ()) ∧ s'.nlc = some d ∧
      s'.xScale = s.xScale ∧ s'.xShift = s.xShift ∧ s'.xInit = s.xInit ∧ s'.nlcShift.n = d.val.c ∧ (∀ j, s'.nlcShift.get j = if u then d.val.get i j else 0) ∧
      s'.nlcScale = sc := by
    intro sc
    unfold setNlcScaling
    simp only [Option.isSome_some, if_true, Option.getD_some]
    have key : ∀ o : Option Arr3, (∀ G, o = some G → G.c = s.xInit.c) →
        ∃ r, optPy (fun (A : Arr3) => A.bopRow (· * ·) (invScale s.xScale sc 1)) o = .ok r := by
      intro o ho
      cases o with
      | none => exact ⟨_, rfl⟩
      | some G => simp only [optPy]; rw [bopRow_ok (by rw [ho G rfl]; exact hI.scale_n.symm)]; exact ⟨_, rfl⟩
    obtain ⟨r1, h1⟩ := key d.grad hg
    obtain ⟨r2, h2⟩ := key d.stdGrad hg'
    have : ∃ x, nlcInit2Scl { s with
        nlcN := d.val.c, nlc := some d, nlcMtd := m, useNlcShift := u
        nlcShift := ⟨d.val.c, fun j => if u then d.val.get i j else 0⟩, nlcScale := sc } d = .ok x := by
      unfold nlcInit2Scl
      dsimp only
      rw [pyAssert_true (by rfl)]
      simp only [ok_bind]
      rw [bop_row (by rfl)]
      simp only [ok_bind, ht, h1, h2, pure_eq_ok]
      exact ⟨_, rfl⟩
    obtain ⟨x, hx⟩ := this
    unfold setSclNlc
    rw [compute_of_ok (a := x) (by simp only [needSet, ok_bind]; exact hx)]
    exact ⟨_, rfl, rfl, rfl, rfl, rfl, rfl, fun _ => rfl, rfl⟩
  have : ∃ s', setNlcData d u m s = (s', .ok ()) ∧ s'.nlc = some d ∧ s'.xScale = s.xScale ∧ s'.xShift = s.xShift ∧
      s'.xInit = s.xInit ∧ s'.nlcShift.n = d.val.c ∧ (∀ j, s'.nlcShift.get j = if u then d.val.get i j else 0) ∧
      s'.nlcScale = if s.xInit.r = 1 ∨ m = .none then 1 else s.objScale := by
    unfold setNlcData
    dsimp only
    rw [if_neg (by simpa using hr), if_neg (by rcases hm with rfl | ⟨rfl, -⟩ <;> decide)]
    have : calcNlcScaling { s with nlcN := d.val.c, nlc := some d, nlcMtd := m, useNlcShift := u } d.val =
        .ok (⟨d.val.c, fun j => if u then d.val.get i j else 0⟩, if s.xInit.r = 1 ∨ m = .none then 1 else s.objScale) := by
      unfold calcNlcScaling nlcShiftOf nlcScaleOf
      have hsh : (if u = true then (do let i ← pyIdx s.idxBest d.val.r; pure ⟨d.val.c, d.val.get i⟩) else
          pure ⟨d.val.c, fun _ => 0⟩ : Py Arr1) = .ok ⟨d.val.c, fun j => if u then d.val.get i j else 0⟩ := by
        cases u with
        | true => simp only [if_true]; rw [hr, hi rfl]; rfl
        | false => simp
      dsimp only
      rw [hsh]
      simp only [pure_eq_ok, ok_bind]
      by_cases h1 : s.xInit.r = 1 ∨ m = .none
      · rw [if_pos h1, if_pos h1]; rfl
      · rw [if_neg h1, if_neg h1]
        push Not at h1
        rcases hm with rfl | ⟨rfl, ho⟩
        · exact absurd rfl h1.2
        · dsimp only
          rw [pyAssert_true ho]; rfl
    rw [this]
    exact H _
  obtain ⟨s', h1, h2, h3⟩ := this
  exact ⟨s', h1, op_images (.nlcData d u m) hI h1, h2, h3⟩

/-- The hypotheses of the C51 theorems are met: constraint data for the two points. -/
example : ∃ (s : Scl) (d : NlcData) (t : Arr2), Images s ∧ d.val.r = s.xInit.r ∧ d.std = some t ∧
    (∀ G, d.grad = some G → G.c = s.xInit.c) ∧ (∀ G, d.stdGrad = some G → G.c = s.xInit.c) ∧ s.obj.isSome = true := by
  obtain ⟨-, s, -, -, -, hR, ho, hx, -, hp⟩ := exScl_obj
  refine ⟨s, ⟨⟨2, 1, fun i _ => i⟩, some ⟨2, 1, fun _ _ => 0⟩, none, none⟩, _, reach_images hR, by rw [hx]; rfl, rfl,
    fun G hG => (by cases hG), fun G hG => (by cases hG), by rw [ho]; rfl⟩

end Props
