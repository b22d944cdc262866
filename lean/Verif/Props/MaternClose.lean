import Verif.Props.KernelDerivs

/-! C07, C11 for the Matérn kernel without any separation hypothesis: the floor `max(ν, 1e-16)` in the code makes the
derivative wrong exactly when two distinct points are closer than `1e-16`, and then by a negligible amount. -/

open Np Spec GP

noncomputable section

namespace Props

/-- As `IsThetaDeriv`, but every entry of `G[d]` may differ from the true derivative by at most `ε d`. -/
def NearThetaDeriv (f : Arr1 → Py Arr2) (theta : Arr1) (dim : ℕ) (G : Arr3) (ε : ℕ → ℝ) : Prop :=
  G.d = dim ∧ ∀ d < dim, ∃ A : ℝ → Arr2, (∀ t, f (setTheta theta d t) = .ok (A t)) ∧
    (∀ t, (A t).r = G.r ∧ (A t).c = G.c) ∧
    ∀ p < G.r, ∀ q < G.c, ∃ D, HasDerivAt (fun t => (A t).get p q) D (theta.get d) ∧ |G.get d p q - D| ≤ ε d

/-- The error of the floored profile. -/
theorem ma_gap {s : ℝ} (h0 : 0 < Real.sqrt s) (h1 : Real.sqrt s < (10 : ℝ) ^ (-16 : ℤ)) :
    maφ3 s ≠ maφ3c s ∧ |maφ3c s - maφ3 s| * Real.sqrt s ≤ 5 / 2 := by
  set ν := Real.sqrt s with hν
  have hE := Real.exp_pos (-Real.sqrt 5 * ν)
  have hE1 : Real.exp (-Real.sqrt 5 * ν) ≤ 1 := Real.exp_le_one_iff.mpr (by
    have := mul_nonneg (Real.sqrt_nonneg 5) h0.le; linarith)
  have h5 : 0 < Real.sqrt 5 := by positivity
  have h5' : Real.sqrt 5 ≤ 12 / 5 := by
    rw [show (12 / 5 : ℝ) = Real.sqrt ((12 / 5) ^ 2) from (Real.sqrt_sq (by norm_num)).symm]
    exact Real.sqrt_le_sqrt (by norm_num)
  have hmax : max ν ((10 : ℝ) ^ (-16 : ℤ)) = 10 ^ (-16 : ℤ) := max_eq_right h1.le
  have hlt : 1 / (10 : ℝ) ^ (-16 : ℤ) < 1 / ν := one_div_lt_one_div_of_lt h0 h1
  have hpos : 0 < 1 / (10 : ℝ) ^ (-16 : ℤ) := by positivity
  have hd : maφ3c s - maφ3 s = 25 * Real.sqrt 5 / 24 * (1 / ν - 1 / (10 : ℝ) ^ (-16 : ℤ)) * Real.exp (-Real.sqrt 5 * ν) := by
    unfold maφ3 maφ3c
    rw [← hν, hmax]; ring
  have hg : 0 < 1 / ν - 1 / (10 : ℝ) ^ (-16 : ℤ) := by linarith
  have hdp : 0 < maφ3c s - maφ3 s := by rw [hd]; positivity
  refine ⟨fun h => by rw [h] at hdp; linarith, ?_⟩
  rw [abs_of_pos hdp, hd]
  have e1 : (1 / ν - 1 / (10 : ℝ) ^ (-16 : ℤ)) * ν ≤ 1 := by
    have : 1 / ν * ν = 1 := by field_simp
    nlinarith [mul_pos hpos h0]
  have e0 : 0 ≤ (1 / ν - 1 / (10 : ℝ) ^ (-16 : ℤ)) * ν := by positivity
  calc 25 * Real.sqrt 5 / 24 * (1 / ν - 1 / (10 : ℝ) ^ (-16 : ℤ)) * Real.exp (-Real.sqrt 5 * ν) * ν
      = 25 * Real.sqrt 5 / 24 * ((1 / ν - 1 / (10 : ℝ) ^ (-16 : ℤ)) * ν * Real.exp (-Real.sqrt 5 * ν)) := by ring
    _ ≤ 25 * Real.sqrt 5 / 24 * (1 * 1) := by gcongr
    _ ≤ 5 / 2 := by nlinarith

/-- One coordinate is at most the weighted distance. -/
theorem coord_le_nu {dim : ℕ} {θ r : ℕ → ℝ} (hθ : ∀ d < dim, 0 < θ d) {i : ℕ} (hi : i < dim) :
    Real.sqrt (θ i) * |r i| ≤ Real.sqrt (ssq dim θ r) := by
  apply Real.le_sqrt_of_sq_le
  rw [mul_pow, Real.sq_sqrt (hθ i hi).le, sq_abs]
  unfold ssq
  exact Finset.single_le_sum (f := fun d => θ d * r d ^ 2) (fun d hd => mul_nonneg (hθ d (Finset.mem_range.mp hd)).le (sq_nonneg _))
    (Finset.mem_range.mpr hi)

/-- The error in one entry of the length-scale derivative. -/
theorem ma_th_err {dim : ℕ} {θ r : ℕ → ℝ} (hθ : ∀ d < dim, 0 < θ d) {T : ℝ} (hT : ∀ d < dim, θ d ≤ T) {d : ℕ} (hd : d < dim)
    (ox oy : Option ℕ) (hx : ∀ i ∈ ox, i < dim) (hy : ∀ i ∈ oy, i < dim) :
    |radKGth maφ1 maφ2 maφ3c dim θ r d ox oy - radKGth maφ1 maφ2 maφ3 dim θ r d ox oy| ≤ 10 * T / θ d * (10 : ℝ) ^ (-48 : ℤ) := by
  have hdp := hθ d hd
  have hT0 : 0 < T := lt_of_lt_of_le hdp (hT d hd)
  have hε : 0 ≤ 10 * T / θ d * (10 : ℝ) ^ (-48 : ℤ) := by positivity
  match ox, oy with
  | none, none => simpa [radKGth] using hε
  | some i, none => simpa [radKGth] using hε
  | none, some j => simpa [radKGth] using hε
  | some i, some j =>
    have hi : i < dim := hx i rfl
    have hj : j < dim := hy j rfl
    set s := ssq dim θ r with hs
    have hdiff : radKGth maφ1 maφ2 maφ3c dim θ r d (some i) (some j) - radKGth maφ1 maφ2 maφ3 dim θ r d (some i) (some j)
        = -(4 * θ i * θ j * r i * r j * r d ^ 2 * (maφ3c s - maφ3 s)) := by
      simp only [radKGth, ← hs]; ring
    rw [hdiff, abs_neg]
    have hci := coord_le_nu (r := r) hθ hi
    have hcj := coord_le_nu (r := r) hθ hj
    have hcd := coord_le_nu (r := r) hθ hd
    rw [← hs] at hci hcj hcd
    set ν := Real.sqrt s with hν
    have hν0 : 0 ≤ ν := Real.sqrt_nonneg _
    rcases hν0.eq_or_lt with h0 | h0
    · have hri : r i = 0 := by
        have h1 : Real.sqrt (θ i) * |r i| ≤ 0 := by rw [h0]; exact hci
        have h2 : 0 < Real.sqrt (θ i) := Real.sqrt_pos.mpr (hθ i hi)
        have h3 : |r i| ≤ 0 := by
          by_contra h
          push Not at h
          have := mul_pos h2 h
          linarith
        exact abs_nonpos_iff.mp h3
      rw [hri]; simpa using hε
    · rcases le_or_gt ((10 : ℝ) ^ (-16 : ℤ)) ν with h1 | h1
      · rw [maφ3c_eq (by exact h1)]; simpa using hε
      · have hgap := (ma_gap (s := s) h0 h1).2
        rw [← hν] at hgap
        set Δ := |maφ3c s - maφ3 s| with hΔ
        have hΔ0 : 0 ≤ Δ := abs_nonneg _
        have hTi : Real.sqrt (θ i) ≤ Real.sqrt T := Real.sqrt_le_sqrt (hT i hi)
        have hTj : Real.sqrt (θ j) ≤ Real.sqrt T := Real.sqrt_le_sqrt (hT j hj)
        have hTT : Real.sqrt T * Real.sqrt T = T := Real.mul_self_sqrt hT0.le
        have h2 : |4 * θ i * θ j * r i * r j * r d ^ 2 * (maφ3c s - maφ3 s)| =
            4 * (Real.sqrt (θ i) * Real.sqrt (θ j)) * (Real.sqrt (θ i) * |r i|) * (Real.sqrt (θ j) * |r j|) *
              (Real.sqrt (θ d) * |r d|) ^ 2 / θ d * Δ := by
          have a1 := Real.mul_self_sqrt (hθ i hi).le
          have a2 := Real.mul_self_sqrt (hθ j hj).le
          have a3 := Real.sq_sqrt (hθ d hd).le
          rw [abs_mul, abs_mul, abs_mul, abs_mul, abs_mul, abs_mul, abs_of_pos (hθ i hi), abs_of_pos (hθ j hj), abs_pow,
            mul_pow, a3, ← hΔ]
          have : (θ d * |r d| ^ 2) / θ d = |r d| ^ 2 := by field_simp
          rw [mul_div_assoc, this]
          rw [show |(4 : ℝ)| = 4 by norm_num]
          calc 4 * θ i * θ j * |r i| * |r j| * |r d| ^ 2 * Δ
              = 4 * (Real.sqrt (θ i) * Real.sqrt (θ i)) * (Real.sqrt (θ j) * Real.sqrt (θ j)) * |r i| * |r j| * |r d| ^ 2 * Δ := by
                rw [a1, a2]
            _ = _ := by ring
        rw [h2]
        have b1 : 4 * (Real.sqrt (θ i) * Real.sqrt (θ j)) * (Real.sqrt (θ i) * |r i|) * (Real.sqrt (θ j) * |r j|) *
              (Real.sqrt (θ d) * |r d|) ^ 2 / θ d * Δ ≤ 4 * (Real.sqrt T * Real.sqrt T) * ν * ν * ν ^ 2 / θ d * Δ := by
          gcongr
        refine b1.trans ?_
        rw [hTT]
        have b2 : 4 * T * ν * ν * ν ^ 2 / θ d * Δ = 4 * T / θ d * (ν ^ 3 * (Δ * ν)) := by ring
        rw [b2]
        have b3 : ν ^ 3 ≤ (10 : ℝ) ^ (-48 : ℤ) := by
          calc ν ^ 3 ≤ ((10 : ℝ) ^ (-16 : ℤ)) ^ 3 := by gcongr
            _ = (10 : ℝ) ^ (-48 : ℤ) := by norm_num
        calc 4 * T / θ d * (ν ^ 3 * (Δ * ν)) ≤ 4 * T / θ d * ((10 : ℝ) ^ (-48 : ℤ) * (5 / 2)) := by gcongr
          _ = 10 * T / θ d * (10 : ℝ) ^ (-48 : ℤ) := by ring

/-- The error in one entry of the derivative with respect to a coordinate. -/
theorem ma_x_err {dim : ℕ} {θ r : ℕ → ℝ} (hθ : ∀ d < dim, 0 < θ d) {T : ℝ} (hT : ∀ d < dim, θ d ≤ T) {k i : ℕ} (hk : k < dim)
    (hi : i < dim) (oy : Option ℕ) (hy : ∀ i ∈ oy, i < dim) :
    |radKGx maφ1 maφ2 maφ3c dim θ r k i oy - radKGx maφ1 maφ2 maφ3 dim θ r k i oy| ≤
      20 * (T * Real.sqrt T) * (10 : ℝ) ^ (-32 : ℤ) := by
  have hT0 : 0 < T := lt_of_lt_of_le (hθ k hk) (hT k hk)
  have hε : 0 ≤ 20 * (T * Real.sqrt T) * (10 : ℝ) ^ (-32 : ℤ) := by positivity
  match oy with
  | none => simpa [radKGx] using hε
  | some j =>
    have hj : j < dim := hy j rfl
    set s := ssq dim θ r with hs
    have hdiff : radKGx maφ1 maφ2 maφ3c dim θ r k i (some j) - radKGx maφ1 maφ2 maφ3 dim θ r k i (some j)
        = -(8 * θ i * θ j * θ k * r i * r j * r k * (maφ3c s - maφ3 s)) := by
      simp only [radKGx, ← hs]; ring
    rw [hdiff, abs_neg]
    have hci := coord_le_nu (r := r) hθ hi
    have hcj := coord_le_nu (r := r) hθ hj
    have hck := coord_le_nu (r := r) hθ hk
    rw [← hs] at hci hcj hck
    set ν := Real.sqrt s with hν
    have hν0 : 0 ≤ ν := Real.sqrt_nonneg _
    rcases hν0.eq_or_lt with h0 | h0
    · have hri : r i = 0 := by
        have h1 : Real.sqrt (θ i) * |r i| ≤ 0 := by rw [h0]; exact hci
        have h2 : 0 < Real.sqrt (θ i) := Real.sqrt_pos.mpr (hθ i hi)
        have h3 : |r i| ≤ 0 := by
          by_contra h
          push Not at h
          have := mul_pos h2 h
          linarith
        exact abs_nonpos_iff.mp h3
      rw [hri]; simpa using hε
    · rcases le_or_gt ((10 : ℝ) ^ (-16 : ℤ)) ν with h1 | h1
      · rw [maφ3c_eq (by exact h1)]; simpa using hε
      · have hgap := (ma_gap (s := s) h0 h1).2
        rw [← hν] at hgap
        set Δ := |maφ3c s - maφ3 s| with hΔ
        have hΔ0 : 0 ≤ Δ := abs_nonneg _
        have hTi : Real.sqrt (θ i) ≤ Real.sqrt T := Real.sqrt_le_sqrt (hT i hi)
        have hTj : Real.sqrt (θ j) ≤ Real.sqrt T := Real.sqrt_le_sqrt (hT j hj)
        have hTk : Real.sqrt (θ k) ≤ Real.sqrt T := Real.sqrt_le_sqrt (hT k hk)
        have hTT : Real.sqrt T * Real.sqrt T = T := Real.mul_self_sqrt hT0.le
        have h2 : |8 * θ i * θ j * θ k * r i * r j * r k * (maφ3c s - maφ3 s)| =
            8 * (Real.sqrt (θ i) * Real.sqrt (θ j) * Real.sqrt (θ k)) * (Real.sqrt (θ i) * |r i|) * (Real.sqrt (θ j) * |r j|) *
              (Real.sqrt (θ k) * |r k|) * Δ := by
          have a1 := Real.mul_self_sqrt (hθ i hi).le
          have a2 := Real.mul_self_sqrt (hθ j hj).le
          have a3 := Real.mul_self_sqrt (hθ k hk).le
          rw [abs_mul, abs_mul, abs_mul, abs_mul, abs_mul, abs_mul, abs_mul, abs_of_pos (hθ i hi), abs_of_pos (hθ j hj),
            abs_of_pos (hθ k hk), ← hΔ]
          rw [show |(8 : ℝ)| = 8 by norm_num]
          calc 8 * θ i * θ j * θ k * |r i| * |r j| * |r k| * Δ
              = 8 * (Real.sqrt (θ i) * Real.sqrt (θ i)) * (Real.sqrt (θ j) * Real.sqrt (θ j)) *
                (Real.sqrt (θ k) * Real.sqrt (θ k)) * |r i| * |r j| * |r k| * Δ := by
                rw [a1, a2, a3]
            _ = _ := by ring
        rw [h2]
        have b1 : 8 * (Real.sqrt (θ i) * Real.sqrt (θ j) * Real.sqrt (θ k)) * (Real.sqrt (θ i) * |r i|) * (Real.sqrt (θ j) * |r j|) *
              (Real.sqrt (θ k) * |r k|) * Δ ≤ 8 * (Real.sqrt T * Real.sqrt T * Real.sqrt T) * ν * ν * ν * Δ := by
          gcongr
        refine b1.trans ?_
        rw [hTT]
        have b2 : 8 * (T * Real.sqrt T) * ν * ν * ν * Δ = 8 * (T * Real.sqrt T) * (ν ^ 2 * (Δ * ν)) := by ring
        rw [b2]
        have b3 : ν ^ 2 ≤ (10 : ℝ) ^ (-32 : ℤ) := by
          calc ν ^ 2 ≤ ((10 : ℝ) ^ (-16 : ℤ)) ^ 2 := by gcongr
            _ = (10 : ℝ) ^ (-32 : ℤ) := by norm_num
        calc 8 * (T * Real.sqrt T) * (ν ^ 2 * (Δ * ν)) ≤ 8 * (T * Real.sqrt T) * ((10 : ℝ) ^ (-32 : ℤ) * (5 / 2)) := by gcongr
          _ = 20 * (T * Real.sqrt T) * (10 : ℝ) ^ (-32 : ℤ) := by ring

/-- **C07, Matérn, any points** (no separation): the call succeeds and every entry of slice `d` is within
`10 T / theta_d * 1e-48` of the true derivative, where `T` is an upper bound of the length-scale parameters. A mask that
selects every point is allowed. -/
theorem C07_matern_error (X : Arr2) (theta : Arr1) (hn : theta.n = X.c) (hθ : ∀ d < X.c, 0 < theta.get d) {T : ℝ}
    (hT : ∀ d < X.c, theta.get d ≤ T) (hp : Option ℝ) (m : Option (List Bool)) (hm : maskOk m X.r) (hfull : gN m X.r = X.r) :
    ∃ R G, calcRtensor X X = .ok R ∧ calcKernGradGradTh .matern R theta hp m = .ok G ∧
      G.r = X.r + X.r * X.c ∧ G.c = X.r + X.r * X.c ∧
      NearThetaDeriv (fun th => calcKernGrad .matern R th hp m m) theta X.c G
        (fun d => 10 * T / theta.get d * (10 : ℝ) ^ (-48 : ℤ)) := by
  obtain ⟨R, hR, -⟩ := calcRtensor_ok (X := X) (Y := X) rfl
  have hI := (calcRtensor_isR hR).2
  have hθ' : ∀ d < R.d, 0 < theta.get d := by rw [hI.d]; exact hθ
  have hT' : ∀ d < R.d, theta.get d ≤ T := by rw [hI.d]; exact hT
  obtain ⟨G, hG, hrep⟩ := maternKernGradGradTh_raw (R := R) (theta := theta) (m := m) (by rw [hI.d, hn])
    (calcRtensor_self hR) (by rw [hI.r]; exact hm) (by unfold fullMask; rw [hI.r]; exact hfull)
  refine ⟨R, G, hR, hG, by rw [hrep.r, hI.r, hI.d, hfull], by rw [hrep.c, hI.c, hI.d, hfull], by rw [hrep.d, hI.d], ?_⟩
  intro d hd
  have hdR : d < R.d := by rw [hI.d]; exact hd
  have hK : ∀ t, ∃ A, calcKernGrad .matern R (setTheta theta d t) hp m m = .ok A ∧
      Rep R.r (gN m R.r) R.c (gN m R.c) R.d A (kgF maφ maφ1 maφ2 R (setTheta theta d t) m m) := by
    intro t
    exact maternKernGrad_ok (by rw [setTheta_n, hI.d, hn]) (by rw [hI.r]; exact hm) (by rw [hI.c]; exact hm)
  choose A hA hArep using hK
  refine ⟨A, hA, ?_, ?_⟩
  · intro t; rw [(hArep t).r, (hArep t).c, hrep.r, hrep.c]; exact ⟨rfl, rfl⟩
  · intro p hp' q hq'
    rw [hrep.r] at hp'
    rw [hrep.c] at hq'
    obtain ⟨x, hx, rfl⟩ := Ix.pos_surj hp'
    obtain ⟨y, hy, rfl⟩ := Ix.pos_surj hq'
    refine ⟨kgThF maφ1 maφ2 maφ3 R theta m d x y, ?_, ?_⟩
    · rw [show (fun t => (A t).get (x.pos R.r (gN m R.r)) (y.pos R.c (gN m R.c))) =
        fun t => kgF maφ maφ1 maφ2 R (setTheta theta d t) m m x y from
        funext fun t => (hArep t).get x y hx hy]
      exact radKGth_hasDerivAt maProfile maProfile3 hθ' _ hdR _ _ (Ix.coord_lt hx) (Ix.coord_lt hy)
    · rw [hrep.get d x y hdR hx hy]
      exact ma_th_err hθ' hT' hdR _ _ (Ix.coord_lt hx) (Ix.coord_lt hy)

/-- **C07, Matérn: exactly when it is right.** The slices are the derivatives if and only if no two distinct points are
closer than `1e-16` in the weighted metric. -/
theorem C07_matern_iff (X : Arr2) (theta : Arr1) (hn : theta.n = X.c) (hθ : ∀ d < X.c, 0 < theta.get d) (hp : Option ℝ) :
    ∃ R G, calcRtensor X X = .ok R ∧ calcKernGradGradTh .matern R theta hp none = .ok G ∧
      (IsThetaDeriv (fun th => calcKernGrad .matern R th hp none none) theta X.c G ↔ Separated X X theta) := by
  obtain ⟨R, hR, -⟩ := calcRtensor_ok (X := X) (Y := X) rfl
  have hI := (calcRtensor_isR hR).2
  have hθ' : ∀ d < R.d, 0 < theta.get d := by rw [hI.d]; exact hθ
  obtain ⟨G, hG, hrep⟩ := maternKernGradGradTh_raw (R := R) (theta := theta) (m := none) (by rw [hI.d, hn])
    (calcRtensor_self hR) (by simp [maskOk]) rfl
  simp only [gN] at hrep
  refine ⟨R, G, hR, hG, ?_, ?_⟩
  · rintro ⟨-, h⟩ p hpX q hqX
    by_contra hcon
    push Not at hcon
    obtain ⟨hne, hlt⟩ := hcon
    have hw : ssq R.d theta.get (diffAt R p q) = wdist2 X.c theta.get (X.get p) (X.get q) := by
      rw [hI.d, wdist2_eq]; exact ssq_congr (fun e he => hI.get e he p hpX q hqX)
    have hnn : 0 ≤ ssq R.d theta.get (diffAt R p q) := ssq_nonneg (fun d hd => (hθ' d hd).le) _
    have hpos : 0 < ssq R.d theta.get (diffAt R p q) := lt_of_le_of_ne hnn (by rw [hw]; exact hne.symm)
    obtain ⟨d, hdR, hrd⟩ : ∃ d < R.d, R.get d p q ≠ 0 := by
      by_contra hall
      push Not at hall
      have : ssq R.d theta.get (diffAt R p q) = 0 := by
        unfold ssq
        exact Finset.sum_eq_zero fun d hd => by
          rw [show diffAt R p q d = 0 from hall d (Finset.mem_range.mp hd)]; ring
      linarith
    obtain ⟨A, hA, -, hAd⟩ := h d (by rw [← hI.d]; exact hdR)
    have hpR : p < R.r := by rw [hI.r]; exact hpX
    have hqR : q < R.c := by rw [hI.c]; exact hqX
    have hx : Ix.ok R.r R.r R.d (.g d p) := ⟨hdR, hpR⟩
    have hy : Ix.ok R.c R.c R.d (.g d q) := ⟨hdR, hqR⟩
    have hder := hAd _ (by rw [hrep.r]; exact Ix.pos_lt hx) _ (by rw [hrep.c]; exact Ix.pos_lt hy)
    have hAe : ∀ t, (A t).get ((Ix.g d p).pos R.r R.r) ((Ix.g d q).pos R.c R.c) =
        kgF maφ maφ1 maφ2 R (setTheta theta d t) none none (.g d p) (.g d q) := by
      intro t
      obtain ⟨B, hB, hBr⟩ := maternKernGrad_ok (R := R) (theta := setTheta theta d t) (m1 := none) (m2 := none)
        (by rw [setTheta_n, hI.d, hn]) (by simp [maskOk]) (by simp [maskOk])
      have e : maternKernGrad R (setTheta theta d t) none none = .ok (A t) := hA t
      rw [hB] at e
      cases e
      exact hBr.get _ _ hx hy
    rw [show (fun t => (A t).get ((Ix.g d p).pos R.r R.r) ((Ix.g d q).pos R.c R.c)) =
        fun t => kgF maφ maφ1 maφ2 R (setTheta theta d t) none none (.g d p) (.g d q) from funext hAe,
      hrep.get d _ _ hdR hx hy] at hder
    have htrue := radKGth_hasDerivAt maProfile maProfile3 hθ' (diffAt R p q) hdR (some d) (some d)
      (by intro i hi; simp at hi; omega) (by intro i hi; simp at hi; omega)
    have heq := HasDerivAt.unique hder htrue
    have hgap := (ma_gap (s := ssq R.d theta.get (diffAt R p q)) (Real.sqrt_pos.mpr hpos) (by rw [hw]; exact hlt)).1
    simp only [kgThF, radKGth, Ix.pt_g, gSel, Ix.coord_g] at heq
    have h4 : 4 * theta.get d * theta.get d * diffAt R p q d * diffAt R p q d * diffAt R p q d ^ 2 *
        (maφ3 (ssq R.d theta.get (diffAt R p q)) - maφ3c (ssq R.d theta.get (diffAt R p q))) = 0 := by
      linear_combination heq
    have hrd' : diffAt R p q d ≠ 0 := hrd
    have hθd := (hθ' d hdR).ne'
    rcases mul_eq_zero.mp h4 with h5 | h5
    · simp [hrd', hθd] at h5
    · exact hgap (by linarith)
  · intro hsep
    obtain ⟨R', G', hR', hG', -, -, h⟩ := C07_grad_theta_derivative_partial .matern X theta hn hθ hp
      (fun h => by cases h) (fun _ => hsep)
    rw [hR] at hR'; cases hR'
    have : maternKernGradGradTh R theta none = .ok G' := hG'
    rw [hG] at this; cases this
    exact h

/-- **C11, Matérn, any points** (no separation): every entry of the returned array is within `20 T^(3/2) * 1e-32` of the
derivative it stands for. -/
theorem C11_matern_error (X Y : Arr2) (hc : X.c = Y.c) (theta : Arr1) (hn : theta.n = X.c)
    (hθ : ∀ d < X.c, 0 < theta.get d) {T : ℝ} (hT : ∀ d < X.c, theta.get d ≤ T) (hp : Option ℝ) :
    ∃ R H, calcRtensor X Y = .ok R ∧ calcKernGradGradX .matern R theta hp none = .ok H ∧
      H.d = X.c ∧ H.r = X.r * X.c ∧ H.c = Y.r + Y.r * X.c ∧
      (∀ e < X.c, ∀ i < X.c, ∀ a < X.r, ∀ b < Y.r,
        IsCovDx (kernOf .matern hp X.c theta) (X.get a) e i (Y.get b) none (H.get e (i * X.r + a) b)) ∧
      (∀ e < X.c, ∀ i < X.c, ∀ a < X.r, ∀ j < X.c, ∀ b < Y.r, ∃ D,
        IsCovDx (kernOf .matern hp X.c theta) (X.get a) e i (Y.get b) (some j) D ∧
        |H.get e (i * X.r + a) (Y.r + j * Y.r + b) - D| ≤ 20 * (T * Real.sqrt T) * (10 : ℝ) ^ (-32 : ℤ)) := by
  obtain ⟨α, hα, e1, -⟩ := hp_elim (k := .matern) (hp := hp) (fun h => by cases h)
  obtain ⟨R, hR, -⟩ := calcRtensor_ok hc
  have hI := (calcRtensor_isR hR).2
  obtain ⟨H, hH, hrep⟩ := maternKernGradGradX_raw (R := R) (theta := theta) (by rw [hI.d, hn])
  refine ⟨R, H, hR, hH, by rw [hrep.d, hI.d], by rw [hrep.r, hI.r, hI.d]; ring,
    by rw [hrep.c, hI.c, hI.d], ?_, ?_⟩
  · intro e he i hi a ha b hb
    have := hrep.get e (.g i a) (.v b) (by rw [hI.d]; exact he) ⟨by rw [hI.d]; exact hi, by rw [hI.r]; exact ha⟩
      (by rw [hI.c]; exact hb)
    simp only [Ix.pos_g, Ix.pos_v, Nat.zero_add, kgXF, Ix.pt_v, Ix.coord_v] at this
    rw [hI.r] at this
    rw [this, e1, kern_eq, hI.d, radKGx_congr (r := diffAt R a b) (r' := fun d => X.get a d - Y.get b d)
      (fun d hd => hI.get d hd a ha b hb) he hi (by simp)]
    exact radKGx_isCovDx maProfile maProfile3 hθ _ _ he hi none (by simp)
  · intro e he i hi a ha j hj b hb
    have := hrep.get e (.g i a) (.g j b) (by rw [hI.d]; exact he) ⟨by rw [hI.d]; exact hi, by rw [hI.r]; exact ha⟩
      ⟨by rw [hI.d]; exact hj, by rw [hI.c]; exact hb⟩
    simp only [Ix.pos_g, Nat.zero_add, kgXF, Ix.pt_g, Ix.coord_g, gSel] at this
    rw [hI.r, hI.c] at this
    have hj' : ∀ j' ∈ some j, j' < X.c := by intro j' h; simp at h; omega
    refine ⟨radKGx maφ1 maφ2 maφ3 X.c theta.get (fun d => X.get a d - Y.get b d) e i (some j), ?_, ?_⟩
    · rw [e1, kern_eq]
      exact radKGx_isCovDx maProfile maProfile3 hθ _ _ he hi (some j) hj'
    · rw [this, hI.d, radKGx_congr (r := diffAt R a b) (r' := fun d => X.get a d - Y.get b d)
        (fun d hd => hI.get d hd a ha b hb) he hi hj']
      exact ma_x_err hθ hT he hi _ hj'

/-- **C11, Matérn: exactly when it is right.** All entries of the derivative blocks are right if and only if no two distinct
points of the two sets are closer than `1e-16` in the weighted metric. -/
theorem C11_matern_iff (X Y : Arr2) (hc : X.c = Y.c) (theta : Arr1) (hn : theta.n = X.c)
    (hθ : ∀ d < X.c, 0 < theta.get d) (hp : Option ℝ) :
    ∃ R H, calcRtensor X Y = .ok R ∧ calcKernGradGradX .matern R theta hp none = .ok H ∧
      ((∀ e < X.c, ∀ i < X.c, ∀ a < X.r, ∀ j < X.c, ∀ b < Y.r,
        IsCovDx (kernOf .matern hp X.c theta) (X.get a) e i (Y.get b) (some j) (H.get e (i * X.r + a) (Y.r + j * Y.r + b))) ↔
        Separated X Y theta) := by
  obtain ⟨α, hα, e1, -⟩ := hp_elim (k := .matern) (hp := hp) (fun h => by cases h)
  obtain ⟨R, hR, -⟩ := calcRtensor_ok hc
  have hI := (calcRtensor_isR hR).2
  have hθ' : ∀ d < R.d, 0 < theta.get d := by rw [hI.d]; exact hθ
  obtain ⟨H, hH, hrep⟩ := maternKernGradGradX_raw (R := R) (theta := theta) (by rw [hI.d, hn])
  refine ⟨R, H, hR, hH, ?_, ?_⟩
  · intro h p hpX q hqX
    by_contra hcon
    push Not at hcon
    obtain ⟨hne, hlt⟩ := hcon
    have hw : ssq R.d theta.get (diffAt R p q) = wdist2 X.c theta.get (X.get p) (Y.get q) := by
      rw [hI.d, wdist2_eq]; exact ssq_congr (fun e he => hI.get e he p hpX q hqX)
    have hnn : 0 ≤ ssq R.d theta.get (diffAt R p q) := ssq_nonneg (fun d hd => (hθ' d hd).le) _
    have hpos : 0 < ssq R.d theta.get (diffAt R p q) := lt_of_le_of_ne hnn (by rw [hw]; exact hne.symm)
    obtain ⟨d, hdR, hrd⟩ : ∃ d < R.d, R.get d p q ≠ 0 := by
      by_contra hall
      push Not at hall
      have : ssq R.d theta.get (diffAt R p q) = 0 := by
        unfold ssq
        exact Finset.sum_eq_zero fun d hd => by
          rw [show diffAt R p q d = 0 from hall d (Finset.mem_range.mp hd)]; ring
      linarith
    have hdX : d < X.c := by rw [← hI.d]; exact hdR
    have h1 := h d hdX d hdX p hpX d hdX q hqX
    have hj' : ∀ j' ∈ some d, j' < X.c := by intro j' h; simp at h; omega
    have h2 := radKGx_isCovDx maProfile maProfile3 hθ (X.get p) (Y.get q) hdX hdX (some d) hj'
    rw [e1, kern_eq] at h1
    have heq := h1.unique h2
    have hget := hrep.get d (.g d p) (.g d q) hdR ⟨hdR, by rw [hI.r]; exact hpX⟩ ⟨hdR, by rw [hI.c]; exact hqX⟩
    simp only [Ix.pos_g, Nat.zero_add, kgXF, Ix.pt_g, Ix.coord_g, gSel] at hget
    rw [hI.r, hI.c] at hget
    rw [hget, ← radKGx_congr (r := diffAt R p q) (r' := fun d => X.get p d - Y.get q d)
      (fun d hd => hI.get d hd p hpX q hqX) hdX hdX hj', ← hI.d] at heq
    have hgap := (ma_gap (s := ssq R.d theta.get (diffAt R p q)) (Real.sqrt_pos.mpr hpos) (by rw [hw]; exact hlt)).1
    simp only [radKGx] at heq
    have h4 : 8 * theta.get d * theta.get d * theta.get d * diffAt R p q d * diffAt R p q d * diffAt R p q d *
        (maφ3 (ssq R.d theta.get (diffAt R p q)) - maφ3c (ssq R.d theta.get (diffAt R p q))) = 0 := by
      linear_combination heq
    have hrd' : diffAt R p q d ≠ 0 := hrd
    have hθd := (hθ' d hdR).ne'
    rcases mul_eq_zero.mp h4 with h5 | h5
    · simp [hrd', hθd] at h5
    · exact hgap (by linarith)
  · intro hsep
    obtain ⟨R', H', hR', hH', -, -, -, -, h⟩ := C11_grad_x_partial .matern X Y hc theta hn hθ hp
      (fun h => by cases h) (fun _ => hsep)
    rw [hR] at hR'; cases hR'
    have : maternKernGradGradX R theta none = .ok H' := hH'
    rw [hH] at this; cases this
    exact h

-- two points that are neither equal nor separated
example : ¬ Separated ⟨2, 1, fun p _ => if p = 0 then 0 else 10 ^ (-17 : ℤ)⟩ ⟨2, 1, fun p _ => if p = 0 then 0 else 10 ^ (-17 : ℤ)⟩
    ⟨1, fun _ => 1⟩ := by
  intro h
  have h1 := h 0 (by decide) 1 (by decide)
  simp only [wdist2, Finset.sum_range_one, if_true, if_neg one_ne_zero, one_mul, zero_sub, neg_sq] at h1
  rw [Real.sqrt_sq (by positivity)] at h1
  rcases h1 with h1 | h1 <;> norm_num at h1

/-! The theorems applied to `exX`, `exTheta`. -/
example := C07_matern_error exX exTheta rfl exTheta_pos (T := 3) (by intro d _; simp only [exTheta]; split_ifs <;> norm_num) none none
  (by simp [maskOk]) rfl
example := C07_matern_iff exX exTheta rfl exTheta_pos none
example := C11_matern_error exX exX3 rfl exTheta rfl exTheta_pos (T := 3) (by intro d _; simp only [exTheta]; split_ifs <;> norm_num) none
example := C11_matern_iff exX exX3 rfl exTheta rfl exTheta_pos none

end Props
