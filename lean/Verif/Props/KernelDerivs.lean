import Mathlib.Tactic.IntervalCases
import Verif.Props.Kernels
import Verif.Proofs.Broken

/-! Properties C06-C11: derivatives of the kernel matrices; and the calls that are broken. -/

open Np Spec GP

noncomputable section

namespace Props

/-- `G[d]` is the entrywise partial derivative wrt `theta_d` of the matrix that `f` returns: `f` succeeds for
every value of `theta_d` and each entry has the derivative `G[d,p,q]`. -/
def IsThetaDeriv (f : Arr1 → Py Arr2) (theta : Arr1) (dim : ℕ) (G : Arr3) : Prop :=
  G.d = dim ∧ ∀ d < dim, ∃ A : ℝ → Arr2, (∀ t, f (setTheta theta d t) = .ok (A t)) ∧
    (∀ t, (A t).r = G.r ∧ (A t).c = G.c) ∧
    ∀ p < G.r, ∀ q < G.c, HasDerivAt (fun t => (A t).get p q) (G.get d p q) (theta.get d)

theorem setTheta_n (theta : Arr1) (d : ℕ) (t : ℝ) : (setTheta theta d t).n = theta.n := (rfl)

/-- Derivative of the base kernel, from a closed form of the slices. -/
theorem base_thDeriv {k : KType} {α : ℝ} (hα : 0 < α) {R : Arr3} {theta : Arr1} (hn : theta.n = R.d)
    (hθ : ∀ d < R.d, 0 < theta.get d) {G : Arr3} (h1 : G.d = R.d) (h2 : G.r = R.r) (h3 : G.c = R.c)
    (h4 : ∀ d p q, d < R.d → p < R.r → q < R.c → G.get d p q =
      (R.get d p q) ^ 2 * prφ1 k α (ssq R.d theta.get (diffAt R p q))) :
    IsThetaDeriv (fun th => calcKernBase k R th (some α)) theta R.d G := by
  refine ⟨h1, ?_⟩
  intro d hd
  refine ⟨fun t => ⟨R.r, R.c, fun p q => prφ k α (ssq R.d (Function.update theta.get d t) (diffAt R p q))⟩, ?_, ?_, ?_⟩
  · intro t
    exact calcKernBase_ok k (theta := setTheta theta d t) (by rw [setTheta_n, hn])
  · intro t; exact ⟨h2.symm, h3.symm⟩
  · intro p hp q hq
    rw [h4 d p q hd (h2 ▸ hp) (h3 ▸ hq)]
    exact radKGth_hasDerivAt (prProfile k hα) (prProfile3 k hα) hθ (diffAt R p q) hd none none (by simp) (by simp)

/-- **C06** for the squared-exponential and the rational quadratic kernel. (Full statement: all three kernels.
The Matérn implementation is wrong, see `C06_matern_wrong`.) -/
theorem C06_base_theta_derivative_partial (k : KType) (hk : k ≠ .matern) (X : Arr2) (theta : Arr1) (hn : theta.n = X.c)
    (hθ : ∀ d < X.c, 0 < theta.get d) (hp : Option ℝ) (hhp : HpOk k hp) :
    ∃ R G, calcRtensor X X = .ok R ∧ calcKernBaseGradTh k R theta hp = .ok G ∧ G.r = X.r ∧ G.c = X.r ∧
      IsThetaDeriv (fun th => calcKernBase k R th hp) theta X.c G := by
  obtain ⟨α, hα, -, e2, -, e3, -⟩ := hp_elim hhp
  obtain ⟨R, hR, -⟩ := calcRtensor_ok (X := X) (Y := X) rfl
  have hI := (calcRtensor_isR hR).2
  have hθ' : ∀ d < R.d, 0 < theta.get d := by rw [hI.d]; exact hθ
  cases k with
  | sqExp =>
    obtain ⟨G, hG, h1, h2, h3, h4⟩ := sqExpKernBaseGradTh_ok (R := R) (theta := theta) (by rw [hI.d, hn])
    refine ⟨R, G, hR, hG, by rw [h2, hI.r], by rw [h3, hI.c], ?_⟩
    rw [← hI.d]
    refine base_thDeriv (k := .sqExp) one_pos (by rw [hn, hI.d]) hθ' h1 h2 h3 ?_
    intro d p q hd hp' hq
    rw [h4 d p q hd hp' hq]; simp only [prφ1, seφ1, seK]; ring
  | matern => exact absurd rfl hk
  | ratQuad =>
    obtain ⟨α, hα, rfl⟩ := hhp rfl
    obtain ⟨G, hG, h1, h2, h3, h4⟩ := ratQuadKernBaseGradTh_ok (R := R) (theta := theta) (α := α) (by rw [hI.d, hn]) (by rw [hI.r, hI.c])
    refine ⟨R, G, hR, hG, by rw [h2, hI.r], by rw [h3, hI.c], ?_⟩
    rw [← hI.d]
    exact base_thDeriv (k := .ratQuad) hα (by rw [hn, hI.d]) hθ' h1 h2 h3 h4

/-- **C06, Matérn: the code is wrong.** For every set of points that contains a pair at weighted distance at least
`1e-16` which differs in coordinate `d`, slice `d` returned by `calc_KernBase_grad_th` is *not* the derivative of
`calc_KernBase`: the entry for that pair differs from the true derivative. -/
theorem C06_matern_wrong (X : Arr2) (theta : Arr1) (hn : theta.n = X.c) (hθ : ∀ d < X.c, 0 < theta.get d) (hp : Option ℝ)
    (d p q : ℕ) (hd : d < X.c) (hpX : p < X.r) (hqX : q < X.r) (hne : X.get p d ≠ X.get q d)
    (hfar : (10 : ℝ) ^ (-16 : ℤ) ≤ Real.sqrt (wdist2 X.c theta.get (X.get p) (X.get q))) :
    ∃ R G, calcRtensor X X = .ok R ∧ calcKernBaseGradTh .matern R theta hp = .ok G ∧
      ¬ IsThetaDeriv (fun th => calcKernBase .matern R th hp) theta X.c G := by
  obtain ⟨R, hR, -⟩ := calcRtensor_ok (X := X) (Y := X) rfl
  have hI := (calcRtensor_isR hR).2
  have hθ' : ∀ d < R.d, 0 < theta.get d := by rw [hI.d]; exact hθ
  obtain ⟨G, hG, h1, h2, h3, h4⟩ := maternKernBaseGradTh_ok (R := R) (theta := theta) (by rw [hI.d, hn]) (by rw [hI.r, hI.c])
  refine ⟨R, G, hR, hG, ?_⟩
  rintro ⟨-, h⟩
  obtain ⟨A, hA, hAs, hAd⟩ := h d hd
  have hpR : p < R.r := by rw [hI.r]; exact hpX
  have hqR : q < R.c := by rw [hI.c]; exact hqX
  have hdR : d < R.d := by rw [hI.d]; exact hd
  have hA' : ∀ t, (A t).get p q = maφ (ssq R.d (Function.update theta.get d t) (diffAt R p q)) := by
    intro t
    have e : calcKernBase .matern R (setTheta theta d t) hp = .ok (A t) := hA t
    have e' := maternKernBase_ok (R := R) (theta := setTheta theta d t) (by rw [setTheta_n, hI.d, hn])
    have : calcKernBase .matern R (setTheta theta d t) hp = maternKernBase R (setTheta theta d t) := rfl
    rw [this, e'] at e
    have := Except.ok.inj e
    rw [← this]; rfl
  have hder := hAd p (by rw [h2]; exact hpR) q (by rw [h3]; exact hqR)
  rw [show (fun t => (A t).get p q) = fun t => maφ (ssq R.d (Function.update theta.get d t) (diffAt R p q)) from
    funext hA'] at hder
  have htrue := radKGth_hasDerivAt maProfile maProfile3 hθ' (diffAt R p q) hdR none none (by simp) (by simp)
  have heq := HasDerivAt.unique hder htrue
  rw [h4 d p q hdR hpR hqR] at heq
  have hw : ssq R.d theta.get (diffAt R p q) = wdist2 X.c theta.get (X.get p) (X.get q) := by
    rw [hI.d, wdist2_eq]; exact ssq_congr (fun e he => hI.get e he p hpX q hqX)
  have hRd : R.get d p q ^ 2 ≠ 0 := by
    rw [hI.get d hd p hpX q hqX]; exact pow_ne_zero 2 (sub_ne_zero.mpr hne)
  set ν := Real.sqrt (wdist2 X.c theta.get (X.get p) (X.get q)) with hν
  have hνR : maNu R theta p q = ν := by unfold maNu; rw [hw]
  have hνpos : 0 < ν := lt_of_lt_of_le (by positivity) hfar
  rw [hνR, max_eq_left hfar, hw] at heq
  simp only [radKGth, hw, maφ, maφ1, diffAt, ← hν, sqrt5] at heq
  have hE := (Real.exp_pos (-Real.sqrt 5 * ν)).ne'
  have h5 : 0 < Real.sqrt 5 := by positivity
  have h52 := five_sq
  -- divide by R^2 exp
  have e1 : Real.sqrt 5 * (1 / (2 * ν)) * (1 + Real.sqrt 5 * ν + 5 / 3 * ν ^ 2) = 5 / 6 * (1 + Real.sqrt 5 * ν) := by
    have : R.get d p q ^ 2 * Real.exp (-Real.sqrt 5 * ν) *
        (Real.sqrt 5 * (1 / (2 * ν)) * (1 + Real.sqrt 5 * ν + 5 / 3 * ν ^ 2) - 5 / 6 * (1 + Real.sqrt 5 * ν)) = 0 := by
      linear_combination -heq
    rcases mul_eq_zero.mp this with h | h
    · rcases mul_eq_zero.mp h with h | h
      · exact absurd h hRd
      · exact absurd h hE
    · linarith
  have e2 : Real.sqrt 5 * (1 + Real.sqrt 5 * ν + 5 / 3 * ν ^ 2) = 5 / 3 * ν * (1 + Real.sqrt 5 * ν) := by
    have : Real.sqrt 5 * (1 / (2 * ν)) * (1 + Real.sqrt 5 * ν + 5 / 3 * ν ^ 2) * (2 * ν) =
      5 / 6 * (1 + Real.sqrt 5 * ν) * (2 * ν) := by rw [e1]
    field_simp at this
    linarith
  nlinarith [mul_pos h5 hνpos]

-- the hypotheses of `C06_matern_wrong` are met
example : 0 < exX.c ∧ exX.get 0 0 ≠ exX.get 1 0 ∧
    (10 : ℝ) ^ (-16 : ℤ) ≤ Real.sqrt (wdist2 exX.c exTheta.get (exX.get 0) (exX.get 1)) := by
  refine ⟨by simp [exX], by simp [exX], ?_⟩
  have : wdist2 exX.c exTheta.get (exX.get 0) (exX.get 1) = 52 := by
    simp [wdist2, exX, exTheta, Finset.sum_range_succ]; norm_num
  rw [this]
  apply Real.le_sqrt_of_sq_le
  norm_num

theorem nuGood_of_sep {k : KType} {X Y : Arr2} {R : Arr3} (hI : IsR X Y R) {theta : Arr1}
    (h : k = .matern → Separated X Y theta) : NuGood k R theta := by
  intro hk p hp q hq
  have := h hk p (by rw [← hI.r]; exact hp) q (by rw [← hI.c]; exact hq)
  have hw : ssq R.d theta.get (diffAt R p q) = wdist2 X.c theta.get (X.get p) (Y.get q) := by
    rw [hI.d, wdist2_eq]
    exact ssq_congr (fun e he => hI.get e he p (by rw [← hI.r]; exact hp) q (by rw [← hI.c]; exact hq))
  unfold NuOk maNu
  rw [hw]
  rcases this with h0 | h0
  · left; rw [h0, Real.sqrt_zero]
  · right; exact h0

/-- **C08.** With a gradient mask too, each slice of `calc_KernGrad_grad_th` is the entrywise derivative of
`calc_KernGrad` with the same mask. (Full statement: every mask. Proved: every mask for the rational quadratic kernel, masks
that select every point for the other two -- with any other mask these raise, see `C08_masked_theta_raises` -- and, for the
Matérn kernel, no two distinct points closer than `1e-16`, see `C07_matern_close_wrong`.) -/
theorem C08_masked_theta_derivative_partial (k : KType) (X : Arr2) (theta : Arr1) (hn : theta.n = X.c)
    (hθ : ∀ d < X.c, 0 < theta.get d) (hp : Option ℝ) (hhp : HpOk k hp) (hsep : k = .matern → Separated X X theta)
    (m : Option (List Bool)) (hm : maskOk m X.r) (hfull : k ≠ .ratQuad → gN m X.r = X.r) :
    ∃ R G, calcRtensor X X = .ok R ∧ calcKernGradGradTh k R theta hp m = .ok G ∧
      G.r = X.r + gN m X.r * X.c ∧ G.c = X.r + gN m X.r * X.c ∧
      IsThetaDeriv (fun th => calcKernGrad k R th hp m m) theta X.c G := by
  obtain ⟨α, hα, -, -, e2, -, e3, -⟩ := hp_elim hhp
  obtain ⟨R, hR, -⟩ := calcRtensor_ok (X := X) (Y := X) rfl
  have hI := (calcRtensor_isR hR).2
  have hθ' : ∀ d < R.d, 0 < theta.get d := by rw [hI.d]; exact hθ
  obtain ⟨G, hG, hrep⟩ := calcKernGradGradTh_ok k (α := α) (R := R) (theta := theta) (m := m) (by rw [hI.d, hn]) hθ'
    (calcRtensor_self hR) (by rw [hI.r]; exact hm) (fun h => by unfold fullMask; rw [hI.r]; exact hfull h) (nuGood_of_sep hI hsep)
  refine ⟨R, G, hR, by rw [e3]; exact hG, by rw [hrep.r, hI.r, hI.d], by rw [hrep.c, hI.c, hI.d], by rw [hrep.d, hI.d], ?_⟩
  intro d hd
  have hK : ∀ t, ∃ A, calcKernGrad k R (setTheta theta d t) hp m m = .ok A ∧
      Rep R.r (gN m R.r) R.c (gN m R.c) R.d A (kgF (prφ k α) (prφ1 k α) (prφ2 k α) R (setTheta theta d t) m m) := by
    intro t
    rw [e2]
    exact calcKernGrad_ok k (by rw [setTheta_n, hI.d, hn]) (by rw [hI.r]; exact hm) (by rw [hI.c]; exact hm)
      (fun _ => by cases m with
      | none => exact .inl rfl
      | some l => exact .inr (by simp))
  choose A hA hArep using hK
  refine ⟨A, hA, ?_, ?_⟩
  · intro t; rw [(hArep t).r, (hArep t).c, hrep.r, hrep.c]; exact ⟨rfl, rfl⟩
  · intro p hp' q hq'
    rw [hrep.r] at hp'
    rw [hrep.c] at hq'
    obtain ⟨x, hx, rfl⟩ := Ix.pos_surj hp'
    obtain ⟨y, hy, rfl⟩ := Ix.pos_surj hq'
    rw [hrep.get d x y (by rw [hI.d]; exact hd) hx hy]
    rw [show (fun t => (A t).get (x.pos R.r (gN m R.r)) (y.pos R.c (gN m R.c))) =
      fun t => kgF (prφ k α) (prφ1 k α) (prφ2 k α) R (setTheta theta d t) m m x y from
      funext fun t => (hArep t).get x y hx hy]
    exact radKGth_hasDerivAt (prProfile k hα) (prProfile3 k hα) hθ' _ (by rw [hI.d]; exact hd) _ _
      (Ix.coord_lt hx) (Ix.coord_lt hy)

/-- **C07.** Each slice of `calc_KernGrad_grad_th` without mask is the entrywise derivative of `calc_KernGrad`.
For the Matérn kernel this needs that no two points are closer than `1e-16` without coinciding (the code divides by
`max(ν, 1e-16)`), hence partial; see `C07_matern_close_wrong` and `C07_matern_error`. -/
theorem C07_grad_theta_derivative_partial (k : KType) (X : Arr2) (theta : Arr1) (hn : theta.n = X.c)
    (hθ : ∀ d < X.c, 0 < theta.get d) (hp : Option ℝ) (hhp : HpOk k hp) (hsep : k = .matern → Separated X X theta) :
    ∃ R G, calcRtensor X X = .ok R ∧ calcKernGradGradTh k R theta hp none = .ok G ∧
      G.r = X.r + X.r * X.c ∧ G.c = X.r + X.r * X.c ∧
      IsThetaDeriv (fun th => calcKernGrad k R th hp none none) theta X.c G :=
  C08_masked_theta_derivative_partial k X theta hn hθ hp hhp hsep none (by simp [maskOk]) (fun _ => rfl)

example : Separated exX exX exTheta := by
  have h52 : ∀ p q, p ≠ q → p < 2 → q < 2 → wdist2 exX.c exTheta.get (exX.get p) (exX.get q) = 52 := by
    intro p q h hp hq
    interval_cases p <;> interval_cases q <;> simp at h <;>
      simp [wdist2, exX, exTheta, Finset.sum_range_succ] <;> norm_num
  intro p hp q hq
  by_cases h : p = q
  · subst h; left; simp [wdist2]
  · right
    rw [h52 p q h hp hq]
    apply Real.le_sqrt_of_sq_le
    norm_num

-- a mask that selects every point and one that does not
example : gN (some [true, true]) exX.r = exX.r ∧ maskOk (some [true, true]) exX.r ∧ maskOk (some [true, false]) exX.r := by
  refine ⟨rfl, ?_, ?_⟩ <;> intro l h <;> simp at h <;> subst h <;> rfl

/-- **C08, squared-exponential and Matérn: the code raises.** With at least two points and a mask that leaves out
at least one of them, `calc_KernGrad_grad_th` ends with a shape error, although `calc_KernGrad` accepts the mask. -/
theorem C08_masked_theta_raises (k : KType) (hk : k ≠ .ratQuad) (X : Arr2) (theta : Arr1) (hn : theta.n = X.c) (hd : 0 < X.c)
    (hp : Option ℝ) (m : List Bool) (hm : m.length = X.r) (h2 : 2 ≤ X.r) (hpart : nTrue m < X.r) :
    ∃ R, calcRtensor X X = .ok R ∧ calcKernGradGradTh k R theta hp (some m) = .error .shape := by
  obtain ⟨R, hR, -⟩ := calcRtensor_ok (X := X) (Y := X) rfl
  have hI := (calcRtensor_isR hR).2
  refine ⟨R, hR, ?_⟩
  cases k with
  | sqExp =>
    exact sqExpKernGradGradTh_mask_error (by rw [hI.d, hn]) (by rw [hI.d]; exact hd) (by rw [hI.r, hI.c])
      (by rw [hI.r]; exact hm) (by rw [hI.r]; omega) (by rw [hI.r]; omega)
  | matern =>
    exact maternKernGradGradTh_mask_error (by rw [hI.d, hn]) (by rw [hI.d]; exact hd) (by rw [hI.r, hI.c])
      (by rw [hI.r]; exact hm) (by rw [hI.r]; omega) (by rw [hI.r]; omega)
  | ratQuad => exact absurd rfl hk

example : 2 ≤ exX.r ∧ ([false, true] : List Bool).length = exX.r ∧ nTrue [false, true] < exX.r :=
  ⟨le_refl 2, rfl, show (1 : ℕ) < 2 by norm_num⟩

/-- **C04, rational quadratic with a mask for the first point set only: the code raises** as soon as the number of
selected points is neither 1 nor all of them (see `C04_ratQuad_single_gradient` for one point). -/
theorem C04_ratQuad_mask1_only_broken (X Y : Arr2) (hc : X.c = Y.c) (theta : Arr1) (hn : theta.n = X.c) (hd : 0 < X.c)
    (α : ℝ) (m : List Bool) (hm : m.length = X.r) (h2 : nTrue m ≠ 1) (hpart : nTrue m < X.r) (hr : X.r ≠ 1) :
    ∃ R, calcRtensor X Y = .ok R ∧ calcKernGrad .ratQuad R theta (some α) (some m) none = .error .shape := by
  obtain ⟨R, hR, -⟩ := calcRtensor_ok hc
  have hI := (calcRtensor_isR hR).2
  exact ⟨R, hR, ratQuadKernGrad_mask1_error (by rw [hI.d, hn]) (by rw [hI.d]; exact hd)
      (by rw [hI.r]; exact hm) (by rw [hI.r]; omega) (by rw [hI.r]; exact hr) h2⟩

example : ∃ (X : Arr2) (m : List Bool), m.length = X.r ∧ 2 ≤ nTrue m ∧ nTrue m < X.r :=
  ⟨⟨3, 2, fun p d => p + d⟩, [true, false, true], rfl, le_refl 2, show (2 : ℕ) < 3 by norm_num⟩

/-- `G[0]` is the entrywise derivative wrt the kernel shape `α` of the matrix that `f` returns. -/
def IsAlphaDeriv (f : ℝ → Py Arr2) (α : ℝ) (G : Arr3) : Prop :=
  G.d = 1 ∧ ∃ A : ℝ → Arr2, (∀ a, f a = .ok (A a)) ∧ (∀ a, (A a).r = G.r ∧ (A a).c = G.c) ∧
    ∀ p < G.r, ∀ q < G.c, HasDerivAt (fun a => (A a).get p q) (G.get 0 p q) α

/-- **C09**, gradient-free. -/
theorem C09_base_alpha_derivative (X : Arr2) (theta : Arr1) (hn : theta.n = X.c)
    (hθ : ∀ d < X.c, 0 ≤ theta.get d) (α : ℝ) (hα : 0 < α) :
    ∃ R G, calcRtensor X X = .ok R ∧ calcKernBaseGradAlpha .ratQuad R theta (some α) = .ok G ∧
      G.r = X.r ∧ G.c = X.r ∧ IsAlphaDeriv (fun a => calcKernBase .ratQuad R theta (some a)) α G := by
  obtain ⟨R, hR, -⟩ := calcRtensor_ok (X := X) (Y := X) rfl
  have hI := (calcRtensor_isR hR).2
  have hθ' : ∀ d < R.d, 0 ≤ theta.get d := by rw [hI.d]; exact hθ
  obtain ⟨G, hG, h1, h2, h3, h4⟩ := ratQuadKernBaseGradAlpha_ok (R := R) (theta := theta) (α := α) (by rw [hI.d, hn]) (by rw [hI.r, hI.c])
  refine ⟨R, G, hR, hG, by rw [h2, hI.r], by rw [h3, hI.c], h1, ?_⟩
  refine ⟨fun a => ⟨R.r, R.c, fun p q => rqφ a (ssq R.d theta.get (diffAt R p q))⟩, ?_, fun a => ⟨h2.symm, h3.symm⟩, ?_⟩
  · intro a; exact calcKernBase_ok .ratQuad (α := a) (by rw [hI.d, hn])
  · intro p hp q hq
    rw [h4 p q (h2 ▸ hp) (h3 ▸ hq)]
    exact rqφ_alpha hα (ssq_nonneg hθ' _)

/-- **C09**, gradient-enhanced, any mask. -/
theorem C09_grad_alpha_derivative (X : Arr2) (theta : Arr1) (hn : theta.n = X.c)
    (hθ : ∀ d < X.c, 0 ≤ theta.get d) (α : ℝ) (hα : 0 < α) (m : Option (List Bool)) (hm : maskOk m X.r) :
    ∃ R G, calcRtensor X X = .ok R ∧ calcKernGradGradAlpha .ratQuad R theta (some α) m = .ok G ∧
      G.r = X.r + gN m X.r * X.c ∧ G.c = X.r + gN m X.r * X.c ∧
      IsAlphaDeriv (fun a => calcKernGrad .ratQuad R theta (some a) m m) α G := by
  obtain ⟨R, hR, -⟩ := calcRtensor_ok (X := X) (Y := X) rfl
  have hI := (calcRtensor_isR hR).2
  have hθ' : ∀ d < R.d, 0 ≤ theta.get d := by rw [hI.d]; exact hθ
  obtain ⟨G, hG, hrep⟩ := ratQuadKernGradGradAlpha_ok (R := R) (theta := theta) (α := α) (m := m) (by rw [hI.d, hn]) hα hθ'
    (calcRtensor_self hR) (by rw [hI.r]; exact hm)
  refine ⟨R, G, hR, hG, by rw [hrep.r, hI.r, hI.d], by rw [hrep.c, hI.c, hI.d], hrep.d, ?_⟩
  have hK : ∀ a, ∃ A, calcKernGrad .ratQuad R theta (some a) m m = .ok A ∧
      Rep R.r (gN m R.r) R.c (gN m R.c) R.d A (kgF (prφ .ratQuad a) (prφ1 .ratQuad a) (prφ2 .ratQuad a) R theta m m) := by
    intro a
    exact calcKernGrad_ok .ratQuad (by rw [hI.d, hn]) (by rw [hI.r]; exact hm) (by rw [hI.c]; exact hm)
      (fun _ => by cases m with
      | none => exact .inl rfl
      | some l => exact .inr (by simp))
  choose A hA hArep using hK
  refine ⟨A, hA, ?_, ?_⟩
  · intro t; rw [(hArep t).r, (hArep t).c, hrep.r, hrep.c]; exact ⟨rfl, rfl⟩
  · intro p hp' q hq'
    rw [hrep.r] at hp'
    rw [hrep.c] at hq'
    obtain ⟨x, hx, rfl⟩ := Ix.pos_surj hp'
    obtain ⟨y, hy, rfl⟩ := Ix.pos_surj hq'
    rw [hrep.get 0 x y one_pos hx hy]
    rw [show (fun t => (A t).get (x.pos R.r (gN m R.r)) (y.pos R.c (gN m R.c))) =
      fun t => kgF (prφ .ratQuad t) (prφ1 .ratQuad t) (prφ2 .ratQuad t) R theta m m x y from
      funext fun t => (hArep t).get x y hx hy]
    exact radKG_alpha hα (ssq_nonneg hθ' _) _ _

/-- **C10.** `calc_KernBase_hess_x` returns at `[k, i*n1+a, b]` the second partial derivative of the kernel wrt
coordinates `i` and `k` of the first point. -/
theorem C10_hess_x (k : KType) (X Y : Arr2) (hc : X.c = Y.c) (theta : Arr1) (hn : theta.n = X.c)
    (hθ : ∀ d < X.c, 0 < theta.get d) (hp : Option ℝ) (hhp : HpOk k hp) :
    ∃ R H, calcRtensor X Y = .ok R ∧ calcKernBaseHessX k R theta hp = .ok H ∧
      H.d = X.c ∧ H.r = X.r * X.c ∧ H.c = Y.r ∧
      ∀ e < X.c, ∀ i < X.c, ∀ a < X.r, ∀ b < Y.r,
        IsCovDx (kernOf k hp X.c theta) (X.get a) e i (Y.get b) none (H.get e (i * X.r + a) b) := by
  obtain ⟨α, hα, e1, -, -, -, -, e2, -⟩ := hp_elim hhp
  obtain ⟨R, hR, -⟩ := calcRtensor_ok hc
  have hI := (calcRtensor_isR hR).2
  obtain ⟨H, hH, hrep⟩ := calcKernBaseHessX_ok k (α := α) (R := R) (theta := theta) (by rw [hI.d, hn])
  refine ⟨R, H, hR, by rw [e2]; exact hH, by rw [hrep.d, hI.d], by rw [hrep.r, hI.r, hI.d]; ring,
    by rw [hrep.c, hI.c]; ring, ?_⟩
  intro e he i hi a ha b hb
  have := hrep.get e (.g i a) (.v b) (by rw [hI.d]; exact he) ⟨by rw [hI.d]; exact hi, by rw [hI.r]; exact ha⟩
    (by rw [hI.c]; exact hb)
  simp only [Ix.pos_g, Ix.pos_v, Nat.zero_add, kgXF, Ix.pt_v, Ix.coord_v] at this
  rw [hI.r] at this
  rw [this, e1, kern_eq, hI.d, radKGx_congr (r := diffAt R a b) (r' := fun d => X.get a d - Y.get b d)
    (fun d hd => hI.get d hd a ha b hb) he hi (by simp)]
  exact radKGx_isCovDx (prProfile k hα) (prProfile3 k hα) hθ _ _ he hi none (by simp)

/-- **C11.** `calc_KernGrad_grad_x` without a mask returns the derivative wrt `x_e` of the covariance between
`∂/∂x_i` at each first point and every datum (values, then derivatives) at the second points. Partial: for the
Matérn kernel no two points closer than `1e-16` may be distinct; with a mask the call raises
(`C11_masked_raises`). -/
theorem C11_grad_x_partial (k : KType) (X Y : Arr2) (hc : X.c = Y.c) (theta : Arr1) (hn : theta.n = X.c)
    (hθ : ∀ d < X.c, 0 < theta.get d) (hp : Option ℝ) (hhp : HpOk k hp) (hsep : k = .matern → Separated X Y theta) :
    ∃ R H, calcRtensor X Y = .ok R ∧ calcKernGradGradX k R theta hp none = .ok H ∧
      H.d = X.c ∧ H.r = X.r * X.c ∧ H.c = Y.r + Y.r * X.c ∧
      (∀ e < X.c, ∀ i < X.c, ∀ a < X.r, ∀ b < Y.r,
        IsCovDx (kernOf k hp X.c theta) (X.get a) e i (Y.get b) none (H.get e (i * X.r + a) b)) ∧
      (∀ e < X.c, ∀ i < X.c, ∀ a < X.r, ∀ j < X.c, ∀ b < Y.r,
        IsCovDx (kernOf k hp X.c theta) (X.get a) e i (Y.get b) (some j) (H.get e (i * X.r + a) (Y.r + j * Y.r + b))) := by
  obtain ⟨α, hα, e1, -, -, -, -, -, e2⟩ := hp_elim hhp
  obtain ⟨R, hR, -⟩ := calcRtensor_ok hc
  have hI := (calcRtensor_isR hR).2
  obtain ⟨H, hH, hrep⟩ := calcKernGradGradX_ok k (α := α) (R := R) (theta := theta) (by rw [hI.d, hn])
    (by rw [hI.d]; exact hθ) (nuGood_of_sep hI hsep)
  refine ⟨R, H, hR, by rw [e2]; exact hH, by rw [hrep.d, hI.d], by rw [hrep.r, hI.r, hI.d]; ring,
    by rw [hrep.c, hI.c, hI.d], ?_, ?_⟩
  · intro e he i hi a ha b hb
    have := hrep.get e (.g i a) (.v b) (by rw [hI.d]; exact he) ⟨by rw [hI.d]; exact hi, by rw [hI.r]; exact ha⟩
      (by rw [hI.c]; exact hb)
    simp only [Ix.pos_g, Ix.pos_v, Nat.zero_add, kgXF, Ix.pt_v, Ix.coord_v] at this
    rw [hI.r] at this
    rw [this, e1, kern_eq, hI.d, radKGx_congr (r := diffAt R a b) (r' := fun d => X.get a d - Y.get b d)
      (fun d hd => hI.get d hd a ha b hb) he hi (by simp)]
    exact radKGx_isCovDx (prProfile k hα) (prProfile3 k hα) hθ _ _ he hi none (by simp)
  · intro e he i hi a ha j hj b hb
    have := hrep.get e (.g i a) (.g j b) (by rw [hI.d]; exact he) ⟨by rw [hI.d]; exact hi, by rw [hI.r]; exact ha⟩
      ⟨by rw [hI.d]; exact hj, by rw [hI.c]; exact hb⟩
    simp only [Ix.pos_g, Nat.zero_add, kgXF, Ix.pt_g, Ix.coord_g, gSel] at this
    rw [hI.r, hI.c] at this
    have hj' : ∀ j' ∈ some j, j' < X.c := by intro j' h; simp at h; omega
    rw [this, e1, kern_eq, hI.d, radKGx_congr (r := diffAt R a b) (r' := fun d => X.get a d - Y.get b d)
      (fun d hd => hI.get d hd a ha b hb) he hi hj']
    exact radKGx_isCovDx (prProfile k hα) (prProfile3 k hα) hθ _ _ he hi (some j) hj'

/-- **C11, masked: the code raises** for every kernel in two or more dimensions when at least two but not all
second points are selected (the column slice is `n2` instead of `n2_grad` wide). -/
theorem C11_masked_raises (k : KType) (X Y : Arr2) (hc : X.c = Y.c) (theta : Arr1) (hn : theta.n = X.c) (hd : 2 ≤ X.c)
    (hp : Option ℝ) (hhp : HpOk k hp) (m : List Bool) (hm : m.length = Y.r) (h2 : 2 ≤ nTrue m) (hpart : nTrue m < Y.r) :
    ∃ R, calcRtensor X Y = .ok R ∧ calcKernGradGradX k R theta hp (some m) = .error .shape := by
  obtain ⟨R, hR, -⟩ := calcRtensor_ok hc
  have hI := (calcRtensor_isR hR).2
  refine ⟨R, hR, ?_⟩
  obtain ⟨α, hα, e1, -, -, -, -, -, e2⟩ := hp_elim hhp
  rw [e2]
  cases k with
  | sqExp =>
    exact sqExpKernGradGradX_mask_error (by rw [hI.d, hn]) (by rw [hI.d]; exact hd) (by rw [hI.c]; exact hm)
      (by rw [hI.c]; exact hpart) h2
  | matern =>
    exact maternKernGradGradX_mask_error (by rw [hI.d, hn]) (by rw [hI.d]; exact hd) (by rw [hI.c]; exact hm)
      (by rw [hI.c]; exact hpart) h2
  | ratQuad =>
    exact ratQuadKernGradGradX_mask_error (by rw [hI.d, hn]) (by rw [hI.d]; exact hd) (by rw [hI.c]; exact hm)
      (by rw [hI.c]; exact hpart) h2

theorem exX_dist : (10 : ℝ) ^ (-16 : ℤ) ≤ Real.sqrt (wdist2 exX.c exTheta.get (exX.get 0) (exX.get 1)) := by
  have : wdist2 exX.c exTheta.get (exX.get 0) (exX.get 1) = 52 := by
    simp [wdist2, exX, exTheta, Finset.sum_range_succ]; norm_num
  rw [this]
  apply Real.le_sqrt_of_sq_le
  norm_num

theorem exX_separated : Separated exX exX exTheta := by
  have h52 : ∀ p q, p ≠ q → p < 2 → q < 2 → wdist2 exX.c exTheta.get (exX.get p) (exX.get q) = 52 := by
    intro p q h hp hq
    interval_cases p <;> interval_cases q <;> simp at h <;>
      simp [wdist2, exX, exTheta, Finset.sum_range_succ] <;> norm_num
  intro p hp q hq
  by_cases h : p = q
  · subst h; left; simp [wdist2]
  · right
    rw [h52 p q h hp hq]
    apply Real.le_sqrt_of_sq_le
    norm_num

/-- Three points in the plane. -/
def exX3 : Arr2 := ⟨3, 2, fun p d => p + d⟩

/-! The theorems applied to `exX`, `exX3` with the weights `exTheta`. -/
example := C06_base_theta_derivative_partial .ratQuad (by decide) exX exTheta rfl exTheta_pos (some 2) exAlpha_ok
example := C06_matern_wrong exX exTheta rfl exTheta_pos none 0 0 1 (by decide) (by decide) (by decide) (by simp [exX]) exX_dist
example := C07_grad_theta_derivative_partial .matern exX exTheta rfl exTheta_pos none (by intro h; cases h) (fun _ => exX_separated)
example := C08_masked_theta_derivative_partial .ratQuad exX exTheta rfl exTheta_pos (some 2) exAlpha_ok (by intro h; cases h)
  (some [false, true]) exMask_ok (fun h => absurd rfl h)
example := C08_masked_theta_derivative_partial .matern exX exTheta rfl exTheta_pos none (by intro h; cases h) (fun _ => exX_separated)
  (some [true, true]) (by intro l h; simp at h; subst h; rfl) (fun _ => rfl)
example := C08_masked_theta_raises .matern (by decide) exX exTheta rfl (by decide) none [false, true] rfl (le_refl 2) (by decide)
example := C04_ratQuad_mask1_only_broken exX3 exX rfl exTheta rfl (by decide) 2 [true, false, true] rfl (by decide) (by decide) (by decide)
example := C09_base_alpha_derivative exX exTheta rfl exTheta_nonneg 2 two_pos
example := C09_grad_alpha_derivative exX exTheta rfl exTheta_nonneg 2 two_pos (some [false, true]) exMask_ok
example := C10_hess_x .matern exX exX3 rfl exTheta rfl exTheta_pos none (by intro h; cases h)
example := C11_grad_x_partial .matern exX exX rfl exTheta rfl exTheta_pos none (by intro h; cases h) (fun _ => exX_separated)
example := C11_masked_raises .matern exX exX3 rfl exTheta rfl (le_refl 2) none (by intro h; cases h) [true, false, true] rfl (le_refl 2) (by decide)

end Props
