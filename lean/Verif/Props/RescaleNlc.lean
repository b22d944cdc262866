import Verif.Spec.NlcSpec
import Verif.Props.RescaleHp
import Mathlib.Analysis.Calculus.Deriv.Comp
import Mathlib.Analysis.Calculus.Deriv.Mul
import Mathlib.Analysis.Calculus.Deriv.Add

/-! C87: the conversions of nonlinear constraints. C88: what the getters return after any history. -/

open Np GP Spec

noncomputable section

namespace Props

theorem bopRow4_ok {f : ℝ → ℝ → ℝ} {A : Arr4} {v : Arr1} (h : A.c = v.n) :
    A.bopRow f v = .ok ⟨A.n, A.d, A.r, A.c, fun e i j k => f (A.get e i j k) (v.get k)⟩ := by
  simp [Arr4.bopRow, ← h]

theorem opt3_ok {v : Arr1} {o : Option Arr3} (h : ∀ A, o = some A → A.c = v.n) :
    optPy (fun (A : Arr3) => A.bopRow (· * ·) v) o = .ok (o.map fun A => ⟨A.d, A.r, A.c, fun p i j => A.get p i j * v.get j⟩) := by
  cases o with
  | none => rfl
  | some A => simp only [optPy]; rw [bopRow_ok (h A rfl)]; rfl

theorem opt4_ok {v : Arr1} {o : Option Arr4} (h : ∀ A, o = some A → A.c = v.n) :
    optPy (fun (A : Arr4) => A.bopRow (· * ·) v) o =
      .ok (o.map fun A => ⟨A.n, A.d, A.r, A.c, fun p i j k => A.get p i j k * v.get k⟩) := by
  cases o with
  | none => rfl
  | some A => simp only [optPy]; rw [bopRow4_ok (h A rfl)]; rfl

/-- The value `nlc_init_2_scl` computes. -/
theorem nlcInit_val {s : Scl} (ho : s.nlc.isSome = true) (hn : s.xScale.n = s.xInit.c) {a : Nlc6} {v t : Arr2}
    (hv : a.mu = some v) (ht : a.sig = some t) (hc : v.c = s.nlcShift.n) (ha : Nlc6Ok s.xInit.c a) :
    nlcInit2Scl6 s a = .ok
      { mu := some ⟨v.r, v.c, fun p j => (v.get p j - s.nlcShift.get j) * s.nlcScale⟩
        sig := some ⟨t.r, t.c, fun p j => t.get p j * s.nlcScale⟩
        dmu := a.dmu.map fun A => ⟨A.d, A.r, A.c, fun p i j => A.get p i j * ((1 / s.xScale.get j) ^ 1 * s.nlcScale)⟩
        dsig := a.dsig.map fun A => ⟨A.d, A.r, A.c, fun p i j => A.get p i j * ((1 / s.xScale.get j) ^ 1 * s.nlcScale)⟩
        d2mu := a.d2mu.map fun A => ⟨A.n, A.d, A.r, A.c, fun p i j k => A.get p i j k * ((1 / s.xScale.get k) ^ 2 * s.nlcScale)⟩
        d2sig := a.d2sig.map fun A => ⟨A.n, A.d, A.r, A.c, fun p i j k => A.get p i j k * ((1 / s.xScale.get k) ^ 2 * s.nlcScale)⟩ } := by
  obtain ⟨m, u, g, h, H, K⟩ := a
  cases hv; cases ht
  unfold nlcInit2Scl6
  dsimp only
  rw [pyAssert_true ho]
  simp only [ok_bind]
  rw [bop_row hc]
  simp only [ok_bind]
  rw [opt3_ok (v := invScale s.xScale s.nlcScale 1) fun A hA => (ha.dmu A hA).trans hn.symm,
    opt3_ok (v := invScale s.xScale s.nlcScale 1) fun A hA => (ha.dsig A hA).trans hn.symm,
    opt4_ok (v := invScale s.xScale s.nlcScale 2) fun A hA => (ha.d2mu A hA).trans hn.symm,
    opt4_ok (v := invScale s.xScale s.nlcScale 2) fun A hA => (ha.d2sig A hA).trans hn.symm]
  rfl

/-- The value `nlc_scl_2_init` computes. -/
theorem nlcScl_val {s : Scl} (ho : s.nlc.isSome = true) (hn : s.xScale.n = s.xInit.c) {a : Nlc6} {v : Arr2}
    (hv : a.mu = some v) (hc : v.c = s.nlcShift.n) (ha : Nlc6Ok s.xInit.c a) :
    nlcScl2Init6 s a = .ok
      { mu := some ⟨v.r, v.c, fun p j => v.get p j / s.nlcScale + s.nlcShift.get j⟩
        sig := a.sig.map fun t => ⟨t.r, t.c, fun p j => t.get p j / s.nlcScale⟩
        dmu := a.dmu.map fun A => ⟨A.d, A.r, A.c, fun p i j => A.get p i j * (s.xScale.get j ^ 1 / s.nlcScale)⟩
        dsig := a.dsig.map fun A => ⟨A.d, A.r, A.c, fun p i j => A.get p i j * (s.xScale.get j ^ 1 / s.nlcScale)⟩
        d2mu := a.d2mu.map fun A => ⟨A.n, A.d, A.r, A.c, fun p i j k => A.get p i j k * (s.xScale.get k ^ 2 / s.nlcScale)⟩
        d2sig := a.d2sig.map fun A => ⟨A.n, A.d, A.r, A.c, fun p i j k => A.get p i j k * (s.xScale.get k ^ 2 / s.nlcScale)⟩ } := by
  obtain ⟨m, u, g, h, H, K⟩ := a
  cases hv
  unfold nlcScl2Init6
  dsimp only
  rw [pyAssert_true ho]
  simp only [ok_bind]
  rw [bop_row (A := v.map fun u => u / s.nlcScale) hc]
  simp only [ok_bind]
  rw [opt3_ok (v := fwdScale s.xScale s.nlcScale 1) fun A hA => (ha.dmu A hA).trans hn.symm,
    opt3_ok (v := fwdScale s.xScale s.nlcScale 1) fun A hA => (ha.dsig A hA).trans hn.symm,
    opt4_ok (v := fwdScale s.xScale s.nlcScale 2) fun A hA => (ha.d2mu A hA).trans hn.symm,
    opt4_ok (v := fwdScale s.xScale s.nlcScale 2) fun A hA => (ha.d2sig A hA).trans hn.symm]
  rfl

theorem nlc6Ok_map {n : ℕ} {a b : Nlc6} (ha : Nlc6Ok n a) {f1 f2 : Arr3 → Arr3} {f3 f4 : Arr4 → Arr4} (k1 : ∀ A, (f1 A).c = A.c)
    (k2 : ∀ A, (f2 A).c = A.c) (k3 : ∀ A, (f3 A).c = A.c) (k4 : ∀ A, (f4 A).c = A.c) (h1 : b.dmu = a.dmu.map f1)
    (h2 : b.dsig = a.dsig.map f2) (h3 : b.d2mu = a.d2mu.map f3) (h4 : b.d2sig = a.d2sig.map f4) : Nlc6Ok n b := by
  refine ⟨fun A hA => ?_, fun A hA => ?_, fun A hA => ?_, fun A hA => ?_⟩
  · rw [h1] at hA
    obtain ⟨B, hB, rfl⟩ := Option.map_eq_some_iff.mp hA
    rw [k1, ha.dmu B hB]
  · rw [h2] at hA
    obtain ⟨B, hB, rfl⟩ := Option.map_eq_some_iff.mp hA
    rw [k2, ha.dsig B hB]
  · rw [h3] at hA
    obtain ⟨B, hB, rfl⟩ := Option.map_eq_some_iff.mp hA
    rw [k3, ha.d2mu B hB]
  · rw [h4] at hA
    obtain ⟨B, hB, rfl⟩ := Option.map_eq_some_iff.mp hA
    rw [k4, ha.d2sig B hB]

/-- **C87**, inverses: `nlc_init_2_scl` and `nlc_scl_2_init` invert each other on values, standard deviations, gradients and
Hessians of any number of constraints at any number of points, for every shift and all nonzero scales. The derivatives may be
absent; the values and the standard deviations may not (see `C87_absent_values_raise`). -/
theorem C87_inverse {s : Scl} (ho : s.nlc.isSome = true) (hn : s.xScale.n = s.xInit.c)
    (h0 : ∀ d < s.xInit.c, s.xScale.get d ≠ 0) (hk : s.nlcScale ≠ 0) {a : Nlc6} {v t : Arr2}
    (hv : a.mu = some v) (ht : a.sig = some t) (hc : v.c = s.nlcShift.n) (ha : Nlc6Ok s.xInit.c a) :
    (∃ b c, nlcInit2Scl6 s a = .ok b ∧ nlcScl2Init6 s b = .ok c ∧ Nlc6Eq c a) ∧
    (∃ b c, nlcScl2Init6 s a = .ok b ∧ nlcInit2Scl6 s b = .ok c ∧ Nlc6Eq c a) := by
  constructor
  · refine ⟨_, _, nlcInit_val ho hn hv ht hc ha,
      nlcScl_val ho hn rfl (by exact hc) (nlc6Ok_map ha ?_ ?_ ?_ ?_ rfl rfl rfl rfl), ?_⟩
    · exact fun _ => rfl
    · exact fun _ => rfl
    · exact fun _ => rfl
    · exact fun _ => rfl
    refine ⟨?_, ?_,
      optRel_map_map (fun A hA => ⟨rfl, rfl, rfl, fun p _ q _ i hi => ?_⟩) ha.dmu,
      optRel_map_map (fun A hA => ⟨rfl, rfl, rfl, fun p _ q _ i hi => ?_⟩) ha.dsig,
      optRel_map_map (fun A hA => ⟨rfl, rfl, rfl, rfl, fun p _ q _ r _ i hi => ?_⟩) ha.d2mu,
      optRel_map_map (fun A hA => ⟨rfl, rfl, rfl, rfl, fun p _ q _ r _ i hi => ?_⟩) ha.d2sig⟩
    · rw [hv]
      refine ⟨rfl, rfl, fun p _ j _ => ?_⟩
      show (v.get p j - s.nlcShift.get j) * s.nlcScale / s.nlcScale + s.nlcShift.get j = v.get p j
      field_simp; ring
    · rw [ht]
      refine ⟨rfl, rfl, fun p _ j _ => ?_⟩
      show t.get p j * s.nlcScale / s.nlcScale = t.get p j
      field_simp
    · have := h0 i (by rw [← hA]; exact hi)
      show A.get p q i * ((1 / s.xScale.get i) ^ 1 * s.nlcScale) * (s.xScale.get i ^ 1 / s.nlcScale) = A.get p q i
      field_simp
    · have := h0 i (by rw [← hA]; exact hi)
      show A.get p q i * ((1 / s.xScale.get i) ^ 1 * s.nlcScale) * (s.xScale.get i ^ 1 / s.nlcScale) = A.get p q i
      field_simp
    · have := h0 i (by rw [← hA]; exact hi)
      show A.get p q r i * ((1 / s.xScale.get i) ^ 2 * s.nlcScale) * (s.xScale.get i ^ 2 / s.nlcScale) = A.get p q r i
      field_simp
    · have := h0 i (by rw [← hA]; exact hi)
      show A.get p q r i * ((1 / s.xScale.get i) ^ 2 * s.nlcScale) * (s.xScale.get i ^ 2 / s.nlcScale) = A.get p q r i
      field_simp
  · refine ⟨_, _, nlcScl_val ho hn hv hc ha,
      nlcInit_val ho hn rfl (t := ⟨t.r, t.c, fun p j => t.get p j / s.nlcScale⟩) (by simp only [ht]; rfl) (by exact hc)
        (nlc6Ok_map ha ?_ ?_ ?_ ?_ rfl rfl rfl rfl), ?_⟩
    · exact fun _ => rfl
    · exact fun _ => rfl
    · exact fun _ => rfl
    · exact fun _ => rfl
    refine ⟨?_, ?_,
      optRel_map_map (fun A hA => ⟨rfl, rfl, rfl, fun p _ q _ i hi => ?_⟩) ha.dmu,
      optRel_map_map (fun A hA => ⟨rfl, rfl, rfl, fun p _ q _ i hi => ?_⟩) ha.dsig,
      optRel_map_map (fun A hA => ⟨rfl, rfl, rfl, rfl, fun p _ q _ r _ i hi => ?_⟩) ha.d2mu,
      optRel_map_map (fun A hA => ⟨rfl, rfl, rfl, rfl, fun p _ q _ r _ i hi => ?_⟩) ha.d2sig⟩
    · rw [hv]
      refine ⟨rfl, rfl, fun p _ j _ => ?_⟩
      show (v.get p j / s.nlcScale + s.nlcShift.get j - s.nlcShift.get j) * s.nlcScale = v.get p j
      field_simp; ring
    · rw [ht]
      refine ⟨rfl, rfl, fun p _ j _ => ?_⟩
      show t.get p j / s.nlcScale * s.nlcScale = t.get p j
      field_simp
    · have := h0 i (by rw [← hA]; exact hi)
      show A.get p q i * (s.xScale.get i ^ 1 / s.nlcScale) * ((1 / s.xScale.get i) ^ 1 * s.nlcScale) = A.get p q i
      field_simp
    · have := h0 i (by rw [← hA]; exact hi)
      show A.get p q i * (s.xScale.get i ^ 1 / s.nlcScale) * ((1 / s.xScale.get i) ^ 1 * s.nlcScale) = A.get p q i
      field_simp
    · have := h0 i (by rw [← hA]; exact hi)
      show A.get p q r i * (s.xScale.get i ^ 2 / s.nlcScale) * ((1 / s.xScale.get i) ^ 2 * s.nlcScale) = A.get p q r i
      field_simp
    · have := h0 i (by rw [← hA]; exact hi)
      show A.get p q r i * (s.xScale.get i ^ 2 / s.nlcScale) * ((1 / s.xScale.get i) ^ 2 * s.nlcScale) = A.get p q r i
      field_simp

theorem origPt_scaledPt {s : Scl} {m : ℕ} (h0 : ∀ d < m, s.xScale.get d ≠ 0) (x : Fin m → ℝ) : origPt s (scaledPt s x) = x := by
  funext d
  have := h0 d d.2
  unfold origPt scaledPt
  field_simp; ring

theorem scaledPt_origPt {s : Scl} {m : ℕ} (h0 : ∀ d < m, s.xScale.get d ≠ 0) (x : Fin m → ℝ) : scaledPt s (origPt s x) = x := by
  funext d
  have := h0 d d.2
  unfold origPt scaledPt
  field_simp; ring

theorem origPt_update (s : Scl) {m : ℕ} (z : Fin m → ℝ) (i : Fin m) (t : ℝ) :
    origPt s (Function.update z i t) = Function.update (origPt s z) i (t / s.xScale.get i + s.xShift.get i) := by
  funext d
  unfold origPt
  by_cases h : d = i
  · subst h; simp
  · simp [Function.update_of_ne h]

theorem scaledPt_update (s : Scl) {m : ℕ} (z : Fin m → ℝ) (i : Fin m) (t : ℝ) :
    scaledPt s (Function.update z i t) = Function.update (scaledPt s z) i ((t - s.xShift.get i) * s.xScale.get i) := by
  funext d
  unfold scaledPt
  by_cases h : d = i
  · subst h; simp
  · simp [Function.update_of_ne h]

/-- A partial derivative in original coordinates gives one in scaled coordinates. -/
theorem deriv_toScl {s : Scl} {m : ℕ} {f : (Fin m → ℝ) → ℝ} {z : Fin m → ℝ} {i : Fin m} {g : ℝ}
    (h : HasDerivAt (fun t => f (Function.update (origPt s z) i t)) g (origPt s z i)) :
    HasDerivAt (fun t => f (origPt s (Function.update z i t))) (g / s.xScale.get i) (z i) := by
  have h1 : HasDerivAt (fun t : ℝ => t / s.xScale.get i + s.xShift.get i) (1 / s.xScale.get i) (z i) :=
    ((hasDerivAt_id (z i)).div_const _).add_const _
  have h2 := HasDerivAt.comp (z i) (h₂ := fun t => f (Function.update (origPt s z) i t))
    (h := fun t : ℝ => t / s.xScale.get i + s.xShift.get i) h h1
  have e : (fun t => f (origPt s (Function.update z i t))) =
      (fun t => f (Function.update (origPt s z) i t)) ∘ fun t : ℝ => t / s.xScale.get i + s.xShift.get i := by
    funext t
    rw [origPt_update]; rfl
  rw [e]
  exact h2.congr_deriv (by ring)

/-- A partial derivative in scaled coordinates gives one in original coordinates. -/
theorem deriv_toInit {s : Scl} {m : ℕ} {f : (Fin m → ℝ) → ℝ} {x : Fin m → ℝ} {i : Fin m} {g : ℝ}
    (h : HasDerivAt (fun t => f (Function.update (scaledPt s x) i t)) g (scaledPt s x i)) :
    HasDerivAt (fun t => f (scaledPt s (Function.update x i t))) (g * s.xScale.get i) (x i) := by
  have h1 : HasDerivAt (fun t : ℝ => (t - s.xShift.get i) * s.xScale.get i) (1 * s.xScale.get i) (x i) :=
    ((hasDerivAt_id (x i)).sub_const _).mul_const _
  have h2 := HasDerivAt.comp (x i) (h₂ := fun t => f (Function.update (scaledPt s x) i t))
    (h := fun t : ℝ => (t - s.xShift.get i) * s.xScale.get i) h h1
  have e : (fun t => f (scaledPt s (Function.update x i t))) =
      (fun t => f (Function.update (scaledPt s x) i t)) ∘ fun t : ℝ => (t - s.xShift.get i) * s.xScale.get i := by
    funext t
    rw [scaledPt_update]; rfl
  rw [e]
  exact h2.congr_deriv (by ring)

/-- The partial derivatives of a scaled constraint. -/
theorem scaledCon_partial {s : Scl} {m : ℕ} (f : ℕ → (Fin m → ℝ) → ℝ) {j : ℕ} {z : Fin m → ℝ} {i : Fin m} {g : ℝ}
    (h : HasDerivAt (fun t => f j (Function.update (origPt s z) i t)) g (origPt s z i)) :
    HasDerivAt (fun t => scaledCon s f j (Function.update z i t)) (s.nlcScale * (g / s.xScale.get i)) (z i) :=
  ((deriv_toScl h).sub_const _).const_mul _

/-- **C87**, meaning: if the values and gradients passed to `nlc_init_2_scl` are those of the constraints `f j` at the points
`x p`, those returned are the values and gradients, with respect to the scaled point, of the scaled constraints at the scaled
points. Conversely, if the values and gradients passed to `nlc_scl_2_init` are those of the scaled constraints at scaled
points, those returned are the values and gradients of the constraints at the original points. -/
theorem C87_values_and_gradients {s : Scl} (ho : s.nlc.isSome = true) (hn : s.xScale.n = s.xInit.c)
    (h0 : ∀ d < s.xInit.c, s.xScale.get d ≠ 0) (hk : s.nlcScale ≠ 0) {a : Nlc6} {v t : Arr2} {G : Arr3}
    (hv : a.mu = some v) (ht : a.sig = some t) (hG : a.dmu = some G) (hc : v.c = s.nlcShift.n) (ha : Nlc6Ok s.xInit.c a)
    (f : ℕ → (Fin s.xInit.c → ℝ) → ℝ) (x : ℕ → Fin s.xInit.c → ℝ) :
    (Describes f x v G → ∃ b v' G', nlcInit2Scl6 s a = .ok b ∧ b.mu = some v' ∧ b.dmu = some G' ∧
      v'.r = v.r ∧ v'.c = v.c ∧ Describes (scaledCon s f) (fun p => scaledPt s (x p)) v' G') ∧
    (Describes (scaledCon s f) (fun p => scaledPt s (x p)) v G → ∃ b v' G', nlcScl2Init6 s a = .ok b ∧ b.mu = some v' ∧
      b.dmu = some G' ∧ v'.r = v.r ∧ v'.c = v.c ∧ Describes f x v' G') := by
  obtain ⟨m, u, g, h, H, K⟩ := a
  cases hv; cases ht; cases hG
  constructor
  · intro hD
    refine ⟨_, _, _, nlcInit_val ho hn rfl rfl hc ha, rfl, rfl, rfl, rfl, hD.shape, fun p hp j hj => ?_,
      fun p hp j hj i => ?_⟩
    · show (v.get p j - s.nlcShift.get j) * s.nlcScale = scaledCon s f j (scaledPt s (x p))
      unfold scaledCon
      rw [hD.val p hp j hj, origPt_scaledPt h0, mul_comm]
    · refine (scaledCon_partial f (g := G.get p j i) (by rw [origPt_scaledPt h0]; exact hD.grad p hp j hj i)).congr_deriv ?_
      show _ = G.get p j i * ((1 / s.xScale.get i) ^ 1 * s.nlcScale)
      ring
  · intro hD
    refine ⟨_, _, _, nlcScl_val ho hn rfl hc ha, rfl, rfl, rfl, rfl, hD.shape, fun p hp j hj => ?_,
      fun p hp j hj i => ?_⟩
    · show v.get p j / s.nlcScale + s.nlcShift.get j = f j (x p)
      rw [hD.val p hp j hj]
      unfold scaledCon
      rw [origPt_scaledPt h0]
      field_simp; ring
    · have h1 := deriv_toInit (hD.grad p hp j hj i)
      have h2 := (h1.div_const s.nlcScale).add_const (s.nlcShift.get j)
      have e : (fun t => f j (Function.update (x p) i t)) =
          fun t => scaledCon s f j (scaledPt s (Function.update (x p) i t)) / s.nlcScale + s.nlcShift.get j := by
        funext t
        unfold scaledCon
        rw [origPt_scaledPt h0]
        field_simp; ring
      rw [e]
      refine h2.congr_deriv ?_
      show _ = G.get p j i * (s.xScale.get i ^ 1 / s.nlcScale)
      ring

/-- **C87**, Hessians: the entry `[p, j, i, k]` that `nlc_init_2_scl` returns for a constraint whose second derivative is
passed to it is the second derivative of the scaled constraint if and only if coordinates `i` and `k` have the same scale or
the entry is zero. Hence the conversion of Hessians is right for equal scales (and on the diagonal) and **wrong** for the
mixed derivatives when the scales differ: the code divides by the square of one scale instead of the product. -/
theorem C87_hessian_iff {s : Scl} (ho : s.nlc.isSome = true) (hn : s.xScale.n = s.xInit.c)
    (h0 : ∀ d < s.xInit.c, s.xScale.get d ≠ 0) (hk : s.nlcScale ≠ 0) {a : Nlc6} {v t : Arr2} {H : Arr4}
    (hv : a.mu = some v) (ht : a.sig = some t) (hH : a.d2mu = some H) (hc : v.c = s.nlcShift.n) (ha : Nlc6Ok s.xInit.c a)
    (f : ℕ → (Fin s.xInit.c → ℝ) → ℝ) (x : ℕ → Fin s.xInit.c → ℝ) {p j : ℕ} {i k : Fin s.xInit.c}
    (hf : IsSecond (f j) i k (x p) (H.get p j i k)) :
    ∃ b H', nlcInit2Scl6 s a = .ok b ∧ b.d2mu = some H' ∧
      (IsSecond (scaledCon s f j) i k (scaledPt s (x p)) (H'.get p j i k) ↔
        s.xScale.get i = s.xScale.get k ∨ H.get p j i k = 0) := by
  obtain ⟨m, u, g, h, H', K⟩ := a
  cases hv; cases ht; cases hH
  refine ⟨_, _, nlcInit_val ho hn rfl rfl hc ha, rfl, ?_⟩
  obtain ⟨g, hg1, hg2⟩ := hf
  have hi := h0 i i.2
  have hk' := h0 k k.2
  have P1 : ∀ z, HasDerivAt (fun t => scaledCon s f j (Function.update z i t)) (s.nlcScale * (g (origPt s z) / s.xScale.get i)) (z i) :=
    fun z => scaledCon_partial f (hg1 (origPt s z))
  have P2 : HasDerivAt (fun t => s.nlcScale * (g (origPt s (Function.update (scaledPt s (x p)) k t)) / s.xScale.get i))
      (s.nlcScale * (H.get p j i k / s.xScale.get k / s.xScale.get i)) (scaledPt s (x p) k) :=
    ((deriv_toScl (f := g) (by rw [origPt_scaledPt h0]; exact hg2)).div_const _).const_mul _
  have key : IsSecond (scaledCon s f j) i k (scaledPt s (x p)) (H.get p j i k * ((1 / s.xScale.get k) ^ 2 * s.nlcScale)) ↔
      H.get p j i k * ((1 / s.xScale.get k) ^ 2 * s.nlcScale) = s.nlcScale * (H.get p j i k / s.xScale.get k / s.xScale.get i) := by
    constructor
    · rintro ⟨g', h1, h2⟩
      have : g' = fun z => s.nlcScale * (g (origPt s z) / s.xScale.get i) := funext fun z => (h1 z).unique (P1 z)
      rw [this] at h2
      exact h2.unique P2
    · intro e
      exact ⟨_, P1, by rw [e]; exact P2⟩
  refine key.trans ?_
  constructor
  · intro e
    by_cases hz : H.get p j i k = 0
    · exact .inr hz
    · left
      field_simp at e
      exact e
  · rintro (e | e)
    · rw [e]; field_simp
    · rw [e]; simp

/-- **C87 does not hold** when values are absent: although `nlc_scl_2_init` declares the values optional, it raises
AttributeError without them; and `nlc_init_2_scl` raises TypeError without standard deviations. -/
theorem C87_absent_values_raise {s : Scl} (ho : s.nlc.isSome = true) (a : Nlc6) :
    (a.mu = none → nlcScl2Init6 s a = .error .attribute) ∧
    (∀ v, a.mu = some v → v.c = s.nlcShift.n → a.sig = none → nlcInit2Scl6 s a = .error .typeError) := by
  obtain ⟨m, u, g, h, H, K⟩ := a
  constructor
  · intro hm
    cases hm
    unfold nlcScl2Init6
    dsimp only
    rw [pyAssert_true ho]
    rfl
  · intro v hm hc hs
    cases hm; cases hs
    unfold nlcInit2Scl6
    dsimp only
    rw [pyAssert_true ho]
    simp only [ok_bind]
    rw [bop_row hc]
    rfl

/-- The arrays that `set_nlc_data` stores are what `nlc_init_2_scl` returns. -/
theorem nlcInit2Scl_eq (s : Scl) (d : NlcData) : nlcInit2Scl s d = (do
    let r ← nlcInit2Scl6 s d.args
    match r.mu with
    | some v => pure ⟨v, r.sig, r.dmu, r.dsig⟩
    | none => .error .typeError) := by
  unfold nlcInit2Scl nlcInit2Scl6
  by_cases h : s.nlc.isSome = true
  · rw [pyAssert_true h]
    simp only [ok_bind, NlcData.args]
    cases d.val.bop (· - ·) s.nlcShift.row with
    | error e => rfl
    | ok y =>
      simp only [ok_bind]
      cases d.std with
      | none => rfl
      | some t =>
        dsimp only
        cases optPy (fun (A : Arr3) => A.bopRow (· * ·) (invScale s.xScale s.nlcScale 1)) d.grad with
        | error e => rfl
        | ok g =>
          simp only [ok_bind]
          cases optPy (fun (A : Arr3) => A.bopRow (· * ·) (invScale s.xScale s.nlcScale 1)) d.stdGrad with
          | error e => rfl
          | ok k => rfl
  · rw [pyAssert_false h]; rfl

/-- One point of the plane. -/
def exSpot : Arr2 := ⟨1, 2, fun _ d => if d = 0 then 3 else 4⟩
/-- The constraint `x_0 x_1`. -/
def exProd {n : ℕ} (_ : ℕ) (x : Fin n → ℝ) : ℝ := ∏ i, x i
/-- Its value and gradient at the point. -/
def exConData : NlcData := ⟨⟨1, 1, fun _ _ => 12⟩, some ⟨1, 1, fun _ _ => 0⟩, some ⟨1, 1, 2, fun _ _ i => if i = 0 then 4 else 3⟩, none⟩
/-- Its value, gradient and Hessian at the point. -/
def exCon6 : Nlc6 := { exConData.args with d2mu := some ⟨1, 1, 2, 2, fun _ _ i k => if i = k then 0 else 1⟩ }

/-- A reachable object for that point with scales 1 and 2 that holds the constraint. -/
theorem exCon_reach : ∃ s, SclReach s ∧ s.xInit = exSpot ∧ s.xScale.get 0 = 1 ∧ s.xScale.get 1 = 2 ∧ s.nlc = some exConData ∧
    s.nlcScale = 1 ∧ s.nlcShift.n = 1 := by
  obtain ⟨s, hs⟩ := newScl_total (x := exSpot) (idx := none) (u := true) (m := .none) (dist := none) (by decide) (by decide) (i := 0)
    (by decide)
  obtain ⟨hI, -, hx, hm, -, hidx, -⟩ := newScl_ok hs
  have hs' := hs
  unfold newScl at hs'
  dsimp only at hs'
  rw [if_neg (by decide)] at hs'
  obtain ⟨r, -, -, -, -, -, -, k1, -, -, -, -, -, -, k2, k3, k4⟩ := setXscale_ok hs'
  have hr : s.xInit.r = 1 := by rw [hx]; rfl
  have hc : s.xInit.c = 2 := by rw [hx]; rfl
  obtain ⟨t, ht⟩ := setXscale_total (s := s) (v := ⟨2, fun d => if d = 0 then 1 else 2⟩) (i := 0) (by rw [hx]; rfl)
    (by intro d _; dsimp only; split <;> norm_num) (by rw [hidx, hx]; rfl) (by rw [hm]; decide) (by omega)
    (by intro o ho; rw [k1] at ho; cases ho) k2 k3 k4
  have hRt : SclReach t := .call (.xscale none _) (.new hs) ht
  obtain ⟨c, sin, j1, j2, j3, -, -, j4, j5⟩ := xscale_factor ht
  obtain ⟨-, -, rfl⟩ := calcScaleIn_n j1
  have hc1 : c = 1 := by
    unfold calcCoeff at j5
    rw [if_pos (Or.inl hr)] at j5
    cases j5; rfl
  obtain ⟨u, hu, l1, l2, l3, -, l4, l5, -, l6⟩ := C51_nlc_data_partial j2 (u := false) (i := 0) (d := exConData) (t := ⟨1, 1, fun _ _ => 0⟩) (by rw [j3, hr]; rfl) rfl
    (by intro G hG; rw [j3, hc]; cases hG; rfl) (by intro G hG; cases hG) (by intro h; cases h) .none (Or.inl rfl)
  refine ⟨u, .call (.nlcData exConData false .none) hRt hu, by rw [l4, j3, hx], ?_, ?_, l2, by rw [l6]; simp, l5⟩
  · rw [l3, j4 0 (by omega), hc1]; simp
  · rw [l3, j4 1 (by omega), hc1]; simp

theorem exProd_describes : Describes (m := 2) exProd (fun _ d => exSpot.get 0 d) exConData.val ⟨1, 1, 2, fun _ _ i => if i = 0 then 4 else 3⟩ := by
  refine ⟨⟨rfl, rfl, rfl⟩, fun p _ j _ => by norm_num [exConData, exProd, exSpot, Fin.prod_univ_two], fun p _ j _ i => ?_⟩
  fin_cases i
  · have : (fun t : ℝ => exProd j (Function.update (fun d : Fin 2 => exSpot.get 0 d) 0 t)) = fun t => t * 4 := by
      funext t; simp [exProd, exSpot, Fin.prod_univ_two]
    show HasDerivAt (fun t : ℝ => exProd j (Function.update (fun d : Fin 2 => exSpot.get 0 d) 0 t)) _ _
    rw [this]
    simpa using (hasDerivAt_id (exSpot.get 0 0)).mul_const (4 : ℝ)
  · have : (fun t : ℝ => exProd j (Function.update (fun d : Fin 2 => exSpot.get 0 d) 1 t)) = fun t => 3 * t := by
      funext t; simp [exProd, exSpot, Fin.prod_univ_two]
    show HasDerivAt (fun t : ℝ => exProd j (Function.update (fun d : Fin 2 => exSpot.get 0 d) 1 t)) _ _
    rw [this]
    simpa using (hasDerivAt_id (exSpot.get 0 1)).const_mul (3 : ℝ)

theorem exProd_second (j : ℕ) : IsSecond (m := 2) (exProd j) 0 1 (fun d => exSpot.get 0 d) 1 := by
  refine ⟨fun z => z 1, fun z => ?_, ?_⟩
  · have : (fun t : ℝ => exProd j (Function.update z 0 t)) = fun t => t * z 1 := by
      funext t; simp [exProd, Fin.prod_univ_two]
    rw [this]
    simpa using (hasDerivAt_id (z 0)).mul_const (z 1)
  · have : (fun t : ℝ => Function.update (fun d : Fin 2 => exSpot.get 0 d) 1 t 1) = fun t => t := by
      funext t; simp
    show HasDerivAt (fun t : ℝ => Function.update (fun d : Fin 2 => exSpot.get 0 d) 1 t 1) _ _
    rw [this]
    exact hasDerivAt_id _

theorem exCon6_ok : Nlc6Ok 2 exCon6 :=
  ⟨fun A hA => (by cases hA; rfl), fun A hA => (by cases hA), fun A hA => (by cases hA; rfl), fun A hA => (by cases hA)⟩

/-- The C87 theorems applied to a reachable object: the round trip. -/
example : ∃ s b c, SclReach s ∧ nlcInit2Scl6 s exCon6 = .ok b ∧ nlcScl2Init6 s b = .ok c ∧ Nlc6Eq c exCon6 := by
  obtain ⟨s, hR, hx, e0, e1, hn, hk, hsh⟩ := exCon_reach
  have hc : s.xInit.c = 2 := by rw [hx]; rfl
  obtain ⟨⟨b, c, h⟩, -⟩ := C87_inverse (s := s) (a := exCon6) (by rw [hn]; rfl) (reach_images hR).scale_n
    (by intro d hd
        have : d = 0 ∨ d = 1 := by omega
        rcases this with rfl | rfl
        · rw [e0]; norm_num
        · rw [e1]; norm_num) (by rw [hk]; norm_num) rfl rfl hsh.symm (by rw [hc]; exact exCon6_ok)
  exact ⟨s, b, c, hR, h⟩

/-- The C87 theorems applied to a reachable object: with scales 1 and 2 the values and gradients are right, and the mixed
second derivative of `x_0 x_1` that `nlc_init_2_scl` returns is wrong. -/
example : ∃ s, SclReach s ∧ ∃ (hc : s.xInit.c = 2) (b : Nlc6) (v' : Arr2) (G' : Arr3) (H' : Arr4), nlcInit2Scl6 s exCon6 = .ok b ∧
    b.mu = some v' ∧ b.dmu = some G' ∧ b.d2mu = some H' ∧
    Describes (m := s.xInit.c) (scaledCon s exProd) (fun _ => scaledPt s fun d => exSpot.get 0 d) v' G' ∧
    ¬ IsSecond (m := s.xInit.c) (scaledCon s exProd 0) ⟨0, by omega⟩ ⟨1, by omega⟩
      (scaledPt s fun d => exSpot.get 0 d) (H'.get 0 0 0 1) := by
  obtain ⟨s, hR, hx, e0, e1, hn, hk, hsh⟩ := exCon_reach
  have hc : s.xInit.c = 2 := by rw [hx]; rfl
  have h0 : ∀ d < s.xInit.c, s.xScale.get d ≠ 0 := by
    intro d hd
    have : d = 0 ∨ d = 1 := by omega
    rcases this with rfl | rfl
    · rw [e0]; norm_num
    · rw [e1]; norm_num
  have D : ∀ (n : ℕ) (hn : n = 2), Describes (m := n) exProd (fun _ d => exSpot.get 0 d) exConData.val
      ⟨1, 1, 2, fun _ _ i => if i = 0 then 4 else 3⟩ ∧
      IsSecond (m := n) (exProd 0) ⟨0, by omega⟩ ⟨1, by omega⟩ (fun d => exSpot.get 0 d) 1 := by
    intro n hn
    subst hn
    exact ⟨exProd_describes, exProd_second 0⟩
  replace D := D _ hc
  obtain ⟨b, v', G', h1, h2, h3, -, -, h4⟩ := (C87_values_and_gradients (s := s) (a := exCon6) (by rw [hn]; rfl)
    (reach_images hR).scale_n h0 (by rw [hk]; norm_num) rfl rfl rfl hsh.symm (by rw [hc]; exact exCon6_ok) _ _).1 D.1
  obtain ⟨b', H', g1, g2, g3⟩ := C87_hessian_iff (s := s) (a := exCon6) (by rw [hn]; rfl) (reach_images hR).scale_n h0
    (by rw [hk]; norm_num) rfl rfl rfl hsh.symm (by rw [hc]; exact exCon6_ok) exProd (fun _ d => exSpot.get 0 d)
    (p := 0) (j := 0) D.2
  rw [h1] at g1
  cases g1
  refine ⟨s, hR, hc, b, v', G', H', h1, h2, h3, g2, h4, fun h => ?_⟩
  rcases g3.mp h with h | h
  · have h' : s.xScale.get 0 = s.xScale.get 1 := h
    rw [e0, e1] at h'
    norm_num at h'
  · norm_num at h

/-! ### C89 -/

theorem getIf_ok {α β : Type} {o : Option α} {r : Option β} {b : β} : getIf o r = .ok b ↔ o.isSome = true ∧ r = some b := by
  unfold getIf
  by_cases h : o.isSome = true
  · rw [pyAssert_true h]
    simp only [ok_bind, h, true_and]
    cases r with
    | none => exact ⟨fun h => (nomatch h), fun h => (nomatch h)⟩
    | some c => exact ⟨fun h => by cases h; rfl, fun h => by cases h; rfl⟩
  · rw [pyAssert_false h]
    exact ⟨fun h => (nomatch h), fun h' => absurd h'.1 h⟩

theorem getIf_none {α β : Type} {r : Option β} : getIf (none : Option α) r = .error .assertion := by
  unfold getIf
  rw [pyAssert_false (by simp)]
  rfl

/-- **C89.** `set_nlc_data` in any reachable state: without a shift the scaled constraint values have the sign of the original
ones, so a point that satisfies (violates) `c ≤ 0` or `c ≥ 0` does so after scaling; with a shift the scaled constraints at the
best point are all 0, and only the order of the values of each constraint is kept. The scale is 1, or that of the objective. -/
theorem C89_constraint_signs {s : Scl} (h : SclReach s) {d : NlcData} (hr : d.val.r = s.xInit.r) {t : Arr2} (ht : d.std = some t)
    (hg : ∀ G, d.grad = some G → G.c = s.xInit.c) (hg' : ∀ G, d.stdGrad = some G → G.c = s.xInit.c) {u : Bool} {i : ℕ}
    (hi : pyIdx s.idxBest s.xInit.r = .ok i) {m : NlcMtd} (hm : m = .none ∨ m = .objScl ∧ s.obj.isSome = true)
    (hk : m = .objScl → 0 < s.objScale) :
    ∃ s' d', setNlcData d u m s = (s', .ok ()) ∧ SclReach s' ∧ getInitNlc s' = .ok d ∧ getSclNlc s' = .ok d' ∧
      d'.val.r = d.val.r ∧ d'.val.c = d.val.c ∧ (m = .none → s'.nlcScale = 1) ∧
      (m = .objScl → 2 ≤ s.xInit.r → s'.nlcScale = s.objScale) ∧
      (∀ a < d.val.r, ∀ b < d.val.r, ∀ j < d.val.c, d'.val.get a j ≤ d'.val.get b j ↔ d.val.get a j ≤ d.val.get b j) ∧
      (u = false → ∀ a < d.val.r, ∀ j < d.val.c, (d'.val.get a j ≤ 0 ↔ d.val.get a j ≤ 0) ∧ (0 ≤ d'.val.get a j ↔ 0 ≤ d.val.get a j)) ∧
      (u = true → i < d.val.r → ∀ j < d.val.c, d'.val.get i j = 0) := by
  obtain ⟨s', h1, h2, h3, -, -, h4, h5, h6, h7⟩ := C51_nlc_data_partial (reach_images h) hr ht hg hg' (u := u) (fun _ => hi) m hm
  obtain ⟨d', k1, k2⟩ := h2.nlc d h3
  obtain ⟨e1, e2, e3⟩ := k2.val h5.symm
  have hp : 0 < s'.nlcScale := by
    rw [h7]
    split
    · exact one_pos
    · rename_i hc
      push Not at hc
      rcases hm with rfl | ⟨rfl, -⟩
      · exact absurd rfl hc.2
      · exact hk rfl
  have hs : s'.nlc.isSome = true := by rw [h3]; rfl
  refine ⟨s', d', h1, .call (.nlcData d u m) h h1, getIf_ok.mpr ⟨hs, h3⟩, getIf_ok.mpr ⟨hs, k1⟩, e1, e2, fun hm' => ?_, fun hm' hr' => ?_,
    fun a ha b hb j hj => ?_, fun hu a ha j hj => ?_, fun hu hi' j hj => ?_⟩
  · rw [h7, if_pos (Or.inr hm')]
  · rw [h7, if_neg]
    rintro (h | h)
    · omega
    · rw [hm'] at h; cases h
  · rw [e3 a ha j hj, e3 b hb j hj, mul_le_mul_iff_right₀ hp, sub_le_sub_iff_right]
  · rw [e3 a ha j hj, h6, hu]
    simp only [Bool.false_eq_true, if_false, sub_zero]
    exact ⟨by rw [← not_lt, mul_pos_iff_of_pos_left hp, not_lt], mul_nonneg_iff_of_pos_left hp⟩
  · rw [e3 i hi' j hj, h6, hu]
    simp

/-! ### C88 -/

theorem optRel_some {α : Type} {r : α → α → Prop} {o o' : Option α} {b : α} (h : OptRel r o o') (hb : o' = some b) :
    ∃ a, o = some a ∧ r a b := by
  subst hb
  cases o with
  | none => exact h.elim
  | some a => exact ⟨a, rfl, h⟩

/-- Converting back related arrays. -/
theorem optRel_back {α : Type} {r q : α → α → Prop} {f : α → α} {o o' : Option α} (h : OptRel r o o')
    (k : ∀ a b, o = some a → r a b → q (f b) a) : OptRel q (o'.map f) o := by
  cases o with
  | none => cases o' with
    | none => trivial
    | some b => exact h.elim
  | some a => cases o' with
    | none => exact h.elim
    | some b => exact k a b rfl h

/-- **C88**, objective: after any sequence of calls none of which raised, `get_scl_obj_data` returns data whenever
`get_init_obj_data` does, and `obj_scl_2_init` turns them into what `get_init_obj_data` returns. -/
theorem C88_objective_round_trip {s : Scl} (h : SclReach s) (h0 : ∀ d < s.xInit.c, s.xScale.get d ≠ 0) (hk : s.objScale ≠ 0)
    {o : ObjData} (ho : getInitObj s = .ok o) (hG : ∀ G, o.grad = some G → G.c = s.xInit.c)
    (hS : ∀ G, o.stdGrad = some G → G.c = s.xInit.c) :
    ∃ o' b, getSclObj s = .ok o' ∧ objScl2Init s o'.args = .ok b ∧ Obj6Eq b o.args := by
  obtain ⟨hs, ho⟩ := getIf_ok.mp ho
  have hI := reach_images h
  obtain ⟨o', h1, h2⟩ := hI.obj o ho
  have hok : Obj6Ok s.xInit.c o'.args := by
    refine ⟨fun A hA => ?_, fun A hA => ?_, (by intro A hA; cases hA), (by intro A hA; cases hA)⟩
    · obtain ⟨B, hB, hr⟩ := optRel_some h2.grad hA
      rw [(hr (hG B hB)).2.1, hG B hB]
    · obtain ⟨B, hB, hr⟩ := optRel_some h2.stdGrad hA
      rw [(hr (hS B hB)).2.1, hS B hB]
  refine ⟨o', _, getIf_ok.mpr ⟨hs, h1⟩, objScl2Init_val hs hI.scale_n hok, ?_, ?_, ?_, ?_, trivial, trivial⟩
  · refine ⟨h2.val.1, fun i hi => ?_⟩
    show o'.val.get i / s.objScale + s.objShift = o.val.get i
    rw [h2.val.2 i (by rw [← h2.val.1]; exact hi)]
    field_simp; ring
  · refine optRel_back h2.std fun a b _ hr => ⟨hr.1, fun i hi => ?_⟩
    show b.get i / s.objScale = a.get i
    rw [hr.2 i (by rw [← hr.1]; exact hi)]
    field_simp
  · refine optRel_back h2.grad fun A B hA hr => ?_
    obtain ⟨e1, e2, e3⟩ := hr (hG A hA)
    refine ⟨e1, e2, fun p hp i hi => ?_⟩
    have := h0 i (by rw [← hG A hA, ← e2]; exact hi)
    show B.get p i * (s.xScale.get i ^ 1 / s.objScale) = A.get p i
    rw [e3 p (by rw [← e1]; exact hp) i (by rw [← e2]; exact hi)]
    field_simp
  · refine optRel_back h2.stdGrad fun A B hA hr => ?_
    obtain ⟨e1, e2, e3⟩ := hr (hS A hA)
    refine ⟨e1, e2, fun p hp i hi => ?_⟩
    have := h0 i (by rw [← hS A hA, ← e2]; exact hi)
    show B.get p i * (s.xScale.get i ^ 1 / s.objScale) = A.get p i
    rw [e3 p (by rw [← e1]; exact hp) i (by rw [← e2]; exact hi)]
    field_simp

/-- **C88**, nonlinear constraints: the same for `get_scl_nlc_data`, `nlc_scl_2_init` and `get_init_nlc_data`. -/
theorem C88_constraints_round_trip {s : Scl} (h : SclReach s) (h0 : ∀ d < s.xInit.c, s.xScale.get d ≠ 0) (hk : s.nlcScale ≠ 0)
    {o : NlcData} (ho : getInitNlc s = .ok o) (hc : o.val.c = s.nlcShift.n) (hG : ∀ G, o.grad = some G → G.c = s.xInit.c)
    (hS : ∀ G, o.stdGrad = some G → G.c = s.xInit.c) :
    ∃ o' b, getSclNlc s = .ok o' ∧ nlcScl2Init6 s o'.args = .ok b ∧ Nlc6Eq b o.args := by
  obtain ⟨hs, ho⟩ := getIf_ok.mp ho
  have hI := reach_images h
  obtain ⟨o', h1, h2⟩ := hI.nlc o ho
  have hok : Nlc6Ok s.xInit.c o'.args := by
    refine ⟨fun A hA => ?_, fun A hA => ?_, (by intro A hA; cases hA), (by intro A hA; cases hA)⟩
    · obtain ⟨B, hB, hr⟩ := optRel_some h2.grad hA
      rw [(hr (hG B hB)).2.2.1, hG B hB]
    · obtain ⟨B, hB, hr⟩ := optRel_some h2.stdGrad hA
      rw [(hr (hS B hB)).2.2.1, hS B hB]
  obtain ⟨e1, e2, e3⟩ := h2.val hc
  refine ⟨o', _, getIf_ok.mpr ⟨hs, h1⟩, nlcScl_val hs hI.scale_n rfl (by rw [e2, hc]) hok, ?_, ?_, ?_, ?_, trivial, trivial⟩
  · refine ⟨e1, e2, fun i hi j hj => ?_⟩
    show o'.val.get i j / s.nlcScale + s.nlcShift.get j = o.val.get i j
    rw [e3 i (by rw [← e1]; exact hi) j (by rw [← e2]; exact hj)]
    field_simp; ring
  · refine optRel_back h2.std fun a b _ hr => ⟨hr.1, hr.2.1, fun i hi j hj => ?_⟩
    show b.get i j / s.nlcScale = a.get i j
    rw [hr.2.2 i (by rw [← hr.1]; exact hi) j (by rw [← hr.2.1]; exact hj)]
    field_simp
  · refine optRel_back h2.grad fun A B hA hr => ?_
    obtain ⟨e1, e2, e3, e4⟩ := hr (hG A hA)
    refine ⟨e1, e2, e3, fun p hp q hq i hi => ?_⟩
    have := h0 i (by rw [← hG A hA, ← e3]; exact hi)
    show B.get p q i * (s.xScale.get i ^ 1 / s.nlcScale) = A.get p q i
    rw [e4 p (by rw [← e1]; exact hp) q (by rw [← e2]; exact hq) i (by rw [← e3]; exact hi)]
    field_simp
  · refine optRel_back h2.stdGrad fun A B hA hr => ?_
    obtain ⟨e1, e2, e3, e4⟩ := hr (hS A hA)
    refine ⟨e1, e2, e3, fun p hp q hq i hi => ?_⟩
    have := h0 i (by rw [← hS A hA, ← e3]; exact hi)
    show B.get p q i * (s.xScale.get i ^ 1 / s.nlcScale) = A.get p q i
    rw [e4 p (by rw [← e1]; exact hp) q (by rw [← e2]; exact hq) i (by rw [← e3]; exact hi)]
    field_simp

/-- **C88**, points: after any sequence of calls none of which raised, `x_scl_2_init` turns what `get_scl_x` returns into
what `get_init_x` returns, and `get_scl_x_w_dist` returns the same points with their coordinatewise differences. -/
theorem C88_points_round_trip {s : Scl} (h : SclReach s) (h0 : ∀ d < s.xInit.c, s.xScale.get d ≠ 0) :
    ∃ X Z Y R, getInitX s = .ok X ∧ getSclX s = .ok Z ∧ xScl2Init s Z = .ok Y ∧ Eq2 Y X ∧ getSclXDist s = .ok (Z, R) ∧
      R.d = X.c ∧ R.r = X.r ∧ R.c = X.r ∧ ∀ d < X.c, ∀ a < X.r, ∀ b < X.r, R.get d a b = Z.get a d - Z.get b d := by
  have hI := reach_images h
  obtain ⟨e1, e2, e3⟩ := hI.x
  have e : xScl2Init s s.xScl = .ok ⟨s.xScl.r, s.xScl.c, fun p d => s.xScl.get p d / s.xScale.get d + s.xShift.get d⟩ := by
    unfold xScl2Init
    rw [bop_row (by rw [e2, hI.scale_n])]
    simp only [ok_bind]
    rw [bop_row (by show s.xScl.c = _; rw [e2, hI.shift_n])]
  refine ⟨_, _, _, _, rfl, rfl, e, ⟨e1, e2, fun p hp d hd => ?_⟩, rfl, hI.R⟩
  have hd' : d < s.xInit.c := by rw [← e2]; exact hd
  have := h0 d hd'
  show s.xScl.get p d / s.xScale.get d + s.xShift.get d = s.xInit.get p d
  rw [e3 p (by rw [← e1]; exact hp) d hd']
  unfold sclPt
  field_simp; ring

/-- **C88**, availability: after any sequence of calls none of which raised, a getter of scaled data raises exactly when the
getter of the original data does, and then both raise AssertionError. -/
theorem C88_available {s : Scl} (h : SclReach s) :
    ((∃ o, getInitObj s = .ok o ∧ ∃ o', getSclObj s = .ok o') ∨
      getInitObj s = .error .assertion ∧ getSclObj s = .error .assertion) ∧
    ((∃ o, getInitNlc s = .ok o ∧ ∃ o', getSclNlc s = .ok o') ∨
      getInitNlc s = .error .assertion ∧ getSclNlc s = .error .assertion) ∧
    ((∃ o, getInitBox s = .ok o ∧ ∃ o', getSclBox s = .ok o') ∨
      getInitBox s = .error .assertion ∧ getSclBox s = .error .assertion) ∧
    ((∃ o, getInitLin s = .ok o ∧ ∃ o', getSclLin s = .ok o') ∨
      getInitLin s = .error .assertion ∧ getSclLin s = .error .assertion) := by
  have hI := reach_images h
  have H : ∀ {α : Type} (o o' : Option α), (∀ a, o = some a → ∃ b, o' = some b) →
      (∃ a, getIf o o = .ok a ∧ ∃ b, getIf o o' = .ok b) ∨ getIf o o = .error .assertion ∧ getIf o o' = .error .assertion := by
    intro α o o' k
    cases o with
    | none => exact .inr ⟨getIf_none, getIf_none⟩
    | some a =>
      obtain ⟨b, hb⟩ := k a rfl
      exact .inl ⟨a, getIf_ok.mpr ⟨rfl, rfl⟩, b, getIf_ok.mpr ⟨rfl, hb⟩⟩
  exact ⟨H _ _ fun a ha => (hI.obj a ha).imp fun _ h => h.1, H _ _ fun a ha => (hI.nlc a ha).imp fun _ h => h.1,
    H _ _ fun a ha => (hI.box a ha).imp fun _ h => h.1, H _ _ fun a ha => (hI.lin a ha).imp fun _ h => h.1⟩

/-- The C88 theorems applied to reachable objects: one with an objective at two points, one with a constraint and two
different scales. -/
example : (∃ s o' b, SclReach s ∧ getInitObj s = .ok exObjData ∧ getSclObj s = .ok o' ∧ objScl2Init s o'.args = .ok b ∧
      Obj6Eq b exObjData.args) ∧
    (∃ s o' b, SclReach s ∧ s.xScale.get 0 ≠ s.xScale.get 1 ∧ getInitNlc s = .ok exConData ∧ getSclNlc s = .ok o' ∧
      nlcScl2Init6 s o'.args = .ok b ∧ Nlc6Eq b exConData.args) ∧
    ∃ s Z Y, SclReach s ∧ getInitX s = .ok exSpot ∧ getSclX s = .ok Z ∧ xScl2Init s Z = .ok Y ∧ Eq2 Y exSpot := by
  refine ⟨?_, ?_⟩
  · obtain ⟨s₀, s, -, -, hset, hR, ho, hx, -, hp⟩ := exScl_obj
    have hI : getInitObj s = .ok exObjData := getIf_ok.mpr ⟨by rw [ho]; rfl, ho⟩
    have hk : s.objScale ≠ 0 := by
      obtain ⟨-, -, -, -, -, -, hk, -⟩ := C48_objective_scaling hset
      exact hk.ne'
    obtain ⟨o', b, h⟩ := C88_objective_round_trip hR (fun d hd => (hp d hd).ne') hk hI
      (by intro G hG; rw [hx]; cases hG; rfl) (by intro G hG; cases hG)
    exact ⟨s, o', b, hR, hI, h⟩
  · obtain ⟨s, hR, hx, e0, e1, hn, hk, hsh⟩ := exCon_reach
    have hc : s.xInit.c = 2 := by rw [hx]; rfl
    have h0 : ∀ d < s.xInit.c, s.xScale.get d ≠ 0 := by
      intro d hd
      have : d = 0 ∨ d = 1 := by omega
      rcases this with rfl | rfl
      · rw [e0]; norm_num
      · rw [e1]; norm_num
    constructor
    · have hI : getInitNlc s = .ok exConData := getIf_ok.mpr ⟨by rw [hn]; rfl, hn⟩
      obtain ⟨o', b, h⟩ := C88_constraints_round_trip hR h0 (by rw [hk]; norm_num) hI hsh.symm
        (by intro G hG; rw [hc]; cases hG; rfl) (by intro G hG; cases hG)
      exact ⟨s, o', b, hR, by rw [e0, e1]; norm_num, hI, h⟩
    · obtain ⟨X, Z, Y, R, h1, h2, h3, h4, -⟩ := C88_points_round_trip hR h0
      cases h1
      rw [hx] at h4
      exact ⟨s, Z, Y, hR, by show Except.ok s.xInit = _; rw [hx], h2, h3, h4⟩

/-- C89 applied to the object with an objective at two points: two values of opposite sign of one constraint, on the scale of
the objective, with and without a shift. -/
example (u : Bool) : ∃ s s' d', SclReach s ∧
    setNlcData ⟨⟨2, 1, fun i _ => if i = 0 then -1 else 1⟩, some ⟨2, 1, fun _ _ => 0⟩, none, none⟩ u .objScl s = (s', .ok ()) ∧
    getSclNlc s' = .ok d' ∧ d'.val.get 0 0 ≤ d'.val.get 1 0 ∧ (u = false → d'.val.get 0 0 ≤ 0 ∧ ¬ d'.val.get 1 0 ≤ 0) ∧
    (u = true → d'.val.get 1 0 = 0) := by
  obtain ⟨s₀, s, -, -, hset, hR, ho, hx, hidx, hp⟩ := exScl_obj
  have hr : s.xInit.r = 2 := by rw [hx]; rfl
  obtain ⟨-, -, -, -, -, -, hk, -⟩ := C48_objective_scaling hset
  obtain ⟨s', d', h1, -, -, h2, -, -, -, -, h3, h4, h5⟩ := C89_constraint_signs hR
    (d := ⟨⟨2, 1, fun i _ => if i = 0 then -1 else 1⟩, some ⟨2, 1, fun _ _ => 0⟩, none, none⟩) (i := 1) (u := u) (m := .objScl) hr.symm rfl
    (by intro G hG; cases hG) (by intro G hG; cases hG) (by rw [hidx, hr]; rfl) (Or.inr ⟨rfl, by rw [ho]; rfl⟩) (fun _ => hk)
  refine ⟨s, s', d', hR, h1, h2, (h3 0 (by norm_num) 1 (by norm_num) 0 (by norm_num)).mpr (by norm_num), fun hu => ⟨?_, ?_⟩, fun hu => ?_⟩
  · exact (h4 hu 0 (by norm_num) 0 (by norm_num)).1.mpr (by norm_num)
  · rw [(h4 hu 1 (by norm_num) 0 (by norm_num)).1]; norm_num
  · exact h5 hu (by norm_num) 0 (by norm_num)

end Props
