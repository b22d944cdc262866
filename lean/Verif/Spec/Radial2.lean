import Verif.Spec.Radial
import Mathlib.Analysis.Calculus.Deriv.Slope

/-! Third derivatives and hyperparameter derivatives of radial kernels. -/

noncomputable section

open Set Filter Topology

namespace Spec

/-- Third derivative of a profile, away from zero, and continuity of the second at zero. -/
structure Profile3 (φ2 φ3 : ℝ → ℝ) : Prop where
  cont : ContinuousWithinAt φ2 (Ici 0) 0
  d3 : ∀ s, 0 < s → HasDerivAt φ2 (φ3 s) s

/-- `e` is the derivative wrt `x_k` of the covariance between `∂/∂x_i` at `x` and the datum `oy` at `y`. -/
def IsCovDx (κ : Pt → Pt → ℝ) (x : Pt) (k i : ℕ) (y : Pt) (oy : Option ℕ) (e : ℝ) : Prop :=
  ∃ D : ℝ → ℝ, (∀ t, IsCov κ (Function.update x k t) (some i) y oy (D t)) ∧ HasDerivAt D e (x k)

theorem IsCovDx.unique {κ : Pt → Pt → ℝ} {x y : Pt} {k i : ℕ} {oy : Option ℕ} {e e' : ℝ}
    (h : IsCovDx κ x k i y oy e) (h' : IsCovDx κ x k i y oy e') : e = e' := by
  obtain ⟨D, h1, h2⟩ := h
  obtain ⟨D', h1', h2'⟩ := h'
  have : D = D' := funext fun t => (h1 t).unique (h1' t)
  subst this
  exact h2.unique h2'

/-- Closed form of the `x_k`-derivative of the covariances of `∂/∂x_i`. -/
def radKGx (φ1 φ2 φ3 : ℝ → ℝ) (dim : ℕ) (θ r : ℕ → ℝ) (k i : ℕ) : Option ℕ → ℝ
  | none => 2 * θ i * kron i k * φ1 (ssq dim θ r) + 4 * θ i * θ k * r i * r k * φ2 (ssq dim θ r)
  | some j => -((4 * θ i * θ j * (kron i k * r j + kron j k * r i) + 4 * kron i j * θ i * θ k * r k)
        * φ2 (ssq dim θ r) + 8 * θ i * θ j * θ k * r i * r j * r k * φ3 (ssq dim θ r))

/-- Closed form of the `θ_d`-derivative of the covariances. -/
def radKGth (φ1 φ2 φ3 : ℝ → ℝ) (dim : ℕ) (θ r : ℕ → ℝ) (d : ℕ) : Option ℕ → Option ℕ → ℝ
  | none, none => r d ^ 2 * φ1 (ssq dim θ r)
  | some i, none => 2 * kron i d * r i * φ1 (ssq dim θ r) + 2 * θ i * r i * r d ^ 2 * φ2 (ssq dim θ r)
  | none, some j => -(2 * kron j d * r j * φ1 (ssq dim θ r) + 2 * θ j * r j * r d ^ 2 * φ2 (ssq dim θ r))
  | some i, some j => -(2 * kron i d * kron i j * φ1 (ssq dim θ r)) - 2 * θ i * kron i j * r d ^ 2 * φ2 (ssq dim θ r)
      - 4 * (kron i d * θ j + θ i * kron j d) * r i * r j * φ2 (ssq dim θ r)
      - 4 * θ i * θ j * r i * r j * r d ^ 2 * φ3 (ssq dim θ r)

/-- If `u` vanishes at `a` and `v` is continuous there then `(u v)' = u' v`. -/
theorem hasDerivAt_mul_of_zero {u v : ℝ → ℝ} {u' a : ℝ} (hu : HasDerivAt u u' a) (h0 : u a = 0)
    (hv : ContinuousAt v a) : HasDerivAt (fun t => u t * v t) (u' * v a) a := by
  rw [hasDerivAt_iff_tendsto_slope] at hu ⊢
  have h1 : Tendsto (fun t => slope u a t * v t) (𝓝[≠] a) (𝓝 (u' * v a)) :=
    hu.mul (hv.tendsto.mono_left nhdsWithin_le_nhds)
  refine h1.congr ?_
  intro t
  simp only [slope_def_field, h0]; ring

theorem ssq_eq_zero {dim : ℕ} {θ r : ℕ → ℝ} (hθ : ∀ d < dim, 0 < θ d) (h : ssq dim θ r = 0) :
    ∀ d < dim, r d = 0 := by
  intro d hd
  have := (Finset.sum_eq_zero_iff_of_nonneg (fun d hd => mul_nonneg (hθ d (Finset.mem_range.mp hd)).le
    (sq_nonneg (r d)))).mp h d (Finset.mem_range.mpr hd)
  rcases mul_eq_zero.mp this with h1 | h1
  · exact absurd h1 (hθ d hd).ne'
  · exact pow_eq_zero_iff (two_ne_zero) |>.mp h1

theorem hasDerivAt_coord (x y : Pt) (k i : ℕ) (t : ℝ) :
    HasDerivAt (fun s => Function.update x k s i - y i) (kron i k) t := by
  by_cases h : i = k
  · subst h
    simp only [Function.update_self, kron_self]
    exact (hasDerivAt_id' t).sub_const _
  · simp only [Function.update_of_ne h, kron_ne h]
    exact hasDerivAt_const _ _

theorem radKGx_isCovDx {φ φ1 φ2 φ3 : ℝ → ℝ} (P : Profile φ φ1 φ2) (Q : Profile3 φ2 φ3) {dim : ℕ} {θ : ℕ → ℝ}
    (hθ : ∀ d < dim, 0 < θ d) (x y : Pt) {k i : ℕ} (hk : k < dim) (hi : i < dim) (oy : Option ℕ)
    (hy : ∀ j ∈ oy, j < dim) :
    IsCovDx (radial φ dim θ) x k i y oy (radKGx φ1 φ2 φ3 dim θ (fun d => x d - y d) k i oy) := by
  have hθ' : ∀ d < dim, 0 ≤ θ d := fun d hd => (hθ d hd).le
  refine ⟨fun t => radKG φ φ1 φ2 dim θ (fun d => Function.update x k t d - y d) (some i) oy, fun t =>
    radKG_isCov P hθ' _ y _ _ (by intro i' h; simp at h; omega) hy, ?_⟩
  have hs := hasDerivAt_ssq_x (dim := dim) θ x y hk (x k)
  have c1 := comp_within (P.d2 _ (wdist2_nonneg hθ' _ y)) hs (fun s => wdist2_nonneg hθ' _ y)
  have hi' := hasDerivAt_coord x y k i (x k)
  have hxx : Function.update x k (x k) = x := Function.update_eq_self k x
  match oy with
  | none =>
    have := (hi'.const_mul (2 * θ i)).fun_mul c1
    simp only [hxx] at this
    simp only [radKG, radKGx]
    refine (this.congr_deriv ?_).congr_of_eventuallyEq (Eventually.of_forall fun t => ?_)
    · rw [wdist2_eq]; ring
    · simp only [wdist2_eq]
  | some j =>
    have hj' := hasDerivAt_coord x y k j (x k)
    simp only [radKG, radKGx]
    have t1 := (c1.const_mul (2 * θ i * kron i j)).fun_neg
    have t2 : HasDerivAt (fun t => 4 * θ i * θ j * (Function.update x k t i - y i) *
        (Function.update x k t j - y j) * φ2 (wdist2 dim θ (Function.update x k t) y))
        (4 * θ i * θ j * (kron i k * (x j - y j) + kron j k * (x i - y i)) * φ2 (wdist2 dim θ x y) +
          8 * θ i * θ j * θ k * (x i - y i) * (x j - y j) * (x k - y k) * φ3 (wdist2 dim θ x y)) (x k) := by
      rcases (wdist2_nonneg hθ' x y).eq_or_lt with h0 | h0
      · have hr := ssq_eq_zero hθ (show ssq dim θ (fun d => x d - y d) = 0 from h0.symm)
        have ri : x i - y i = 0 := hr i hi
        have rj : x j - y j = 0 := hr j (hy j rfl)
        have hu := hi'.const_mul (4 * θ i * θ j)
        have hcont : ContinuousAt (fun t => (Function.update x k t j - y j) *
            φ2 (wdist2 dim θ (Function.update x k t) y)) (x k) := by
          refine hj'.continuousAt.mul ?_
          have hs0 : wdist2 dim θ (Function.update x k (x k)) y = 0 := by rw [hxx, ← h0]
          have hc := Q.cont
          rw [← hs0] at hc
          exact ContinuousWithinAt.comp_of_mem_nhdsWithin_image_of_eq (t := Ici 0)
            (x := x k) (s := univ) (f := fun t => wdist2 dim θ (Function.update x k t) y)
            (by rw [hs0] at hc; exact hc) hs.continuousAt.continuousWithinAt
            (by
              refine mem_of_superset self_mem_nhdsWithin ?_
              rintro _ ⟨t, -, rfl⟩
              exact wdist2_nonneg hθ' _ y) hs0 |>.continuousAt univ_mem
        have := hasDerivAt_mul_of_zero hu (by rw [hxx, ri, mul_zero]) hcont
        simp only [hxx, ri, rj, mul_zero, zero_mul, add_zero] at this ⊢
        refine this.congr_of_eventuallyEq (Eventually.of_forall fun t => ?_)
        ring
      · have c2 : HasDerivAt (fun s => φ2 (wdist2 dim θ (Function.update x k s) y))
            (φ3 (wdist2 dim θ x y) * (2 * θ k * (x k - y k))) (x k) := by
          have h3 := HasDerivAt.comp (h₂ := φ2) (x k) (by rw [hxx]; exact Q.d3 _ h0) hs
          exact h3
        have := ((hi'.const_mul (4 * θ i * θ j)).fun_mul hj').fun_mul c2
        simp only [hxx] at this
        exact this.congr_deriv (by ring)
    have := t1.fun_sub t2
    simp only [hxx] at this
    refine (this.congr_deriv ?_).congr_of_eventuallyEq (Eventually.of_forall fun t => ?_)
    · rw [wdist2_eq]
      by_cases hij : i = j
      · subst hij; rw [kron_self]; ring
      · rw [kron_ne hij]; ring
    · simp only [wdist2_eq]

theorem hasDerivAt_ssq_th {dim : ℕ} (θ r : ℕ → ℝ) {d : ℕ} (hd : d < dim) (t : ℝ) :
    HasDerivAt (fun s => ssq dim (Function.update θ d s) r) (r d ^ 2) t := by
  unfold ssq
  have h : ∀ e ∈ Finset.range dim, HasDerivAt (fun s => Function.update θ d s e * r e ^ 2)
      (if e = d then r d ^ 2 else 0) t := by
    intro e _
    by_cases he : e = d
    · subst he
      simp only [Function.update_self, if_true]
      exact ((hasDerivAt_id' t).mul_const _).congr_deriv (by ring)
    · simp only [Function.update_of_ne he, he, if_false]
      exact hasDerivAt_const t _
  have := HasDerivAt.fun_sum h
  rw [Finset.sum_ite_eq' (Finset.range dim) d] at this
  simpa [hd] using this

theorem hasDerivAt_th (θ : ℕ → ℝ) (d i : ℕ) (t : ℝ) :
    HasDerivAt (fun s => Function.update θ d s i) (kron i d) t := by
  by_cases h : i = d
  · subst h
    simp only [Function.update_self, kron_self]
    exact hasDerivAt_id' t
  · simp only [Function.update_of_ne h, kron_ne h]
    exact hasDerivAt_const _ _

/-- Closed forms of the hyperparameter derivatives are the derivatives. -/
theorem radKGth_hasDerivAt {φ φ1 φ2 φ3 : ℝ → ℝ} (P : Profile φ φ1 φ2) (Q : Profile3 φ2 φ3) {dim : ℕ}
    {θ : ℕ → ℝ} (hθ : ∀ d < dim, 0 < θ d) (r : ℕ → ℝ) {d : ℕ} (hd : d < dim) (ox oy : Option ℕ)
    (hx : ∀ i ∈ ox, i < dim) (hy : ∀ j ∈ oy, j < dim) :
    HasDerivAt (fun t => radKG φ φ1 φ2 dim (Function.update θ d t) r ox oy)
      (radKGth φ1 φ2 φ3 dim θ r d ox oy) (θ d) := by
  have hθ' : ∀ d < dim, 0 ≤ θ d := fun d hd => (hθ d hd).le
  have hs := hasDerivAt_ssq_th (dim := dim) θ r hd (θ d)
  have hxx : Function.update θ d (θ d) = θ := Function.update_eq_self d θ
  have hpos : ∀ᶠ t in 𝓝 (θ d), ssq dim (Function.update θ d t) r ∈ Ici (0 : ℝ) := by
    filter_upwards [lt_mem_nhds (hθ d hd)] with t ht
    refine ssq_nonneg ?_ r
    intro e he
    by_cases h : e = d
    · subst h; simp only [Function.update_self]; exact ht.le
    · simp only [Function.update_of_ne h]; exact hθ' e he
  have h0 : 0 ≤ ssq dim (Function.update θ d (θ d)) r := by rw [hxx]; exact ssq_nonneg hθ' r
  have c0 : HasDerivAt (fun t => φ (ssq dim (Function.update θ d t) r)) _ (θ d) :=
    (P.d1 _ h0).comp_hasDerivAt (θ d) hs hpos
  have c1 : HasDerivAt (fun t => φ1 (ssq dim (Function.update θ d t) r)) _ (θ d) :=
    (P.d2 _ h0).comp_hasDerivAt (θ d) hs hpos
  match ox, oy with
  | none, none =>
    simp only [radKG, radKGth]
    exact c0.congr_deriv (by rw [hxx]; ring)
  | some i, none =>
    simp only [radKG, radKGth]
    have := (((hasDerivAt_th θ d i (θ d)).const_mul 2).mul_const (r i)).fun_mul c1
    exact this.congr_deriv (by simp only [hxx]; ring)
  | none, some j =>
    simp only [radKG, radKGth]
    have := ((((hasDerivAt_th θ d j (θ d)).const_mul 2).mul_const (r j)).fun_mul c1).fun_neg
    exact this.congr_deriv (by simp only [hxx]; ring)
  | some i, some j =>
    simp only [radKG, radKGth]
    have t1 := ((((hasDerivAt_th θ d i (θ d)).const_mul 2).mul_const (kron i j)).fun_mul c1).fun_neg
    have t2 : HasDerivAt (fun t => 4 * Function.update θ d t i * Function.update θ d t j * r i * r j *
        φ2 (ssq dim (Function.update θ d t) r))
        (4 * (kron i d * θ j + θ i * kron j d) * r i * r j * φ2 (ssq dim θ r)
          + 4 * θ i * θ j * r i * r j * r d ^ 2 * φ3 (ssq dim θ r)) (θ d) := by
      rcases (ssq_nonneg hθ' r).eq_or_lt with h0 | h0
      · have ri := ssq_eq_zero hθ h0.symm i (hx i rfl)
        simp only [ri, mul_zero, zero_mul, add_zero]
        exact hasDerivAt_const _ _
      · have c2 : HasDerivAt (fun t => φ2 (ssq dim (Function.update θ d t) r))
            (φ3 (ssq dim θ r) * r d ^ 2) (θ d) := by
          have h3 := HasDerivAt.comp (h₂ := φ2) (θ d) (by rw [hxx]; exact Q.d3 _ h0) hs
          exact h3
        have := (((((hasDerivAt_th θ d i (θ d)).const_mul 4).fun_mul (hasDerivAt_th θ d j (θ d))).mul_const
          (r i)).mul_const (r j)).fun_mul c2
        simp only [hxx] at this
        exact this.congr_deriv (by ring)
    have := t1.fun_sub t2
    exact this.congr_deriv (by simp only [hxx]; ring)

end Spec
