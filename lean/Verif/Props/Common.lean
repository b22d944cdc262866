import Verif.Props.Kernels

/-! Properties C15 (preconditioner, theta/gamma), C16 (differences and distances), C69 (data vector). -/

open Np Spec GP

noncomputable section

namespace GP

theorem gamma_pos (k : KType) {t : ℝ} (ht : 0 < t) : 0 < theta2gamma k t := by
  cases k <;> simp only [theta2gamma, sqExpTheta2gamma, maternTheta2gamma, ratQuadTheta2gamma] <;>
    exact Real.sqrt_pos.mpr (by positivity)

theorem gamma_hasDerivAt (k : KType) {t : ℝ} (ht : 0 < t) :
    HasDerivAt (theta2gamma k) (gammaGradTheta k (theta2gamma k t)) t := by
  have key : ∀ c : ℝ, 0 < c → HasDerivAt (fun x => Real.sqrt (c * x)) (c / (2 * Real.sqrt (c * t))) t := by
    intro c hc
    have h1 : HasDerivAt (fun x : ℝ => c * x) c t := by simpa using (hasDerivAt_id' t).const_mul c
    exact h1.sqrt (by positivity)
  cases k
  · refine (key 2 two_pos).congr_deriv ?_
    simp only [gammaGradTheta, theta2gamma, sqExpTheta2gamma]
    have : Real.sqrt (2 * t) ≠ 0 := (Real.sqrt_pos.mpr (by positivity)).ne'
    field_simp
  · refine (key (5 / 3) (by norm_num)).congr_deriv ?_
    simp only [gammaGradTheta, theta2gamma, maternTheta2gamma]
    have : Real.sqrt (5 / 3 * t) ≠ 0 := (Real.sqrt_pos.mpr (by positivity)).ne'
    field_simp; norm_num
  · refine (key 2 two_pos).congr_deriv ?_
    simp only [gammaGradTheta, theta2gamma, ratQuadTheta2gamma]
    have : Real.sqrt (2 * t) ≠ 0 := (Real.sqrt_pos.mpr (by positivity)).ne'
    field_simp

theorem kernPvec_n (k : KType) (n g : ℕ) (theta : Arr1) : (kernPvec k n g theta).n = n + g * theta.n := by
  simp [kernPvec, hstack, ones1, kron1, Arr1.map, Nat.mul_comm]

theorem kernPvec_val (k : KType) {n g : ℕ} (theta : Arr1) {p : ℕ} (hp : p < n) : (kernPvec k n g theta).get p = 1 := by
  simp [kernPvec, hstack, ones1, hp]

theorem kernPvec_grad (k : KType) {n g : ℕ} (theta : Arr1) {i a : ℕ} (ha : a < g) :
    (kernPvec k n g theta).get (n + i * g + a) = theta2gamma k (theta.get i) := by
  have h1 : ¬ n + i * g + a < n := by omega
  have h2 : n + i * g + a - n = i * g + a := by omega
  have h3 : (i * g + a) / g = i := by
    rw [Nat.add_comm, Nat.add_mul_div_right _ _ (by omega), Nat.div_eq_of_lt ha, Nat.zero_add]
  simp only [kernPvec, hstack, ones1, kron1, Arr1.map, h1, if_false, h2, h3, mul_one]

/-- `A[a:b, i] = g` writes the scalar. -/
theorem Arr2_setSlice_scalar {A : Arr2} {r1 r2 c1 c2 : ℕ} {x : ℝ} :
    A.setSlice r1 r2 c1 c2 ⟨1, 1, fun _ _ => x⟩ = .ok ⟨A.r, A.c, fun i j =>
      if r1 ≤ i ∧ i < r2 ∧ c1 ≤ j ∧ j < c2 then x else A.get i j⟩ := by
  simp [Arr2.setSlice, Arr2.modSlice]

theorem calcGradPreconVec_ok (n g : ℕ) (gg : Arr1) : ∃ A, calcGradPreconVec n g gg = .ok A ∧
    A.r = n + g * gg.n ∧ A.c = gg.n ∧ ∀ p i, A.get p i =
      if i < gg.n ∧ n + i * g ≤ p ∧ p < n + i * g + g then gg.get i else 0 := by
  obtain ⟨A, hA, h1, h2, h3⟩ := forRange_inv
    (fun k (A : Arr2) => A.r = n + g * gg.n ∧ A.c = gg.n ∧ ∀ p i, A.get p i =
      if i < k ∧ n + i * g ≤ p ∧ p < n + i * g + g then gg.get i else 0) (Nat.zero_le gg.n)
    (init := Arr2.zeros (n + g * gg.n) gg.n)
    (body := fun i A => do
      let a := n + i * g
      let b := a + g
      let x ← gg.at' i
      A.setSlice a b i (i + 1) ⟨1, 1, fun _ _ => x⟩)
    ⟨rfl, rfl, fun p i => by simp⟩ (by
      intro i A _ hi ⟨h1, h2, h3⟩
      dsimp only
      rw [Arr1.at'_ok hi, ok_bind, Arr2_setSlice_scalar]
      refine ⟨_, rfl, h1, h2, ?_⟩
      intro p j
      dsimp only
      rw [h3]
      rcases lt_trichotomy j i with h | h | h
      · have e1 : ¬ (n + i * g ≤ p ∧ p < n + i * g + g ∧ i ≤ j ∧ j < i + 1) := by omega
        have e2 : j < i + 1 := by omega
        rw [if_neg e1]; simp only [h, e2]
      · subst h
        simp only [le_refl, Nat.lt_succ_self, and_true, true_and, lt_irrefl, false_and, if_false]
      · have e1 : ¬ (n + i * g ≤ p ∧ p < n + i * g + g ∧ i ≤ j ∧ j < i + 1) := by omega
        have e2 : ¬ j < i + 1 := by omega
        have e3 : ¬ j < i := by omega
        rw [if_neg e1]; simp only [e2, e3, false_and])
  exact ⟨A, hA, h1, h2, h3⟩

theorem calcGradPreconMat_ok (n g : ℕ) (gg : Arr1) : ∃ A, calcGradPreconMat n g gg = .ok A ∧
    A.d = gg.n ∧ A.r = n + g * gg.n ∧ A.c = n + g * gg.n ∧ ∀ i < gg.n, ∀ p < n + g * gg.n, ∀ q < n + g * gg.n, A.get i p q =
      if p = q ∧ n + i * g ≤ p ∧ p < n + i * g + g then gg.get i else 0 := by
  obtain ⟨A, hA, h1, h2, h3, h4⟩ := forRange_inv
    (fun k (A : Arr3) => A.d = gg.n ∧ A.r = n + g * gg.n ∧ A.c = n + g * gg.n ∧
      ∀ i < k, ∀ p < n + g * gg.n, ∀ q < n + g * gg.n, A.get i p q =
      if p = q ∧ n + i * g ≤ p ∧ p < n + i * g + g then gg.get i else 0) (Nat.zero_le gg.n)
    (init := Arr3.zeros gg.n (n + g * gg.n) (n + g * gg.n))
    (body := fun i A => do
      let a := n + i * g
      let b := a + g
      let x ← gg.at' i
      let vec := setConst1 ⟨n + g * gg.n, fun _ => 0⟩ a b x
      A.setSlice i 0 (n + g * gg.n) 0 (n + g * gg.n) (diagArr vec))
    ⟨rfl, rfl, rfl, fun i h => by omega⟩ (by
      intro i A _ hi ⟨h1, h2, h3, h4⟩
      dsimp only
      rw [Arr1.at'_ok hi, ok_bind]
      unfold Arr3.setSlice
      rw [Arr3.modSlice_ok (by omega) (by simp [diagArr, setConst1]) (by omega) (by simp [diagArr, setConst1]) (by omega)]
      refine ⟨_, rfl, h1, h2, h3, ?_⟩
      intro j hj p hp q hq
      rw [Arr3.upd_get]
      by_cases hji : j = i
      · subst hji
        rw [if_pos ⟨rfl, Nat.zero_le _, hp, Nat.zero_le _, hq⟩]
        simp only [diagArr, setConst1, Nat.sub_zero]
        by_cases hpq : p = q <;> simp [hpq]
      · rw [if_neg (by tauto)]
        exact h4 j (by omega) p hp q hq)
  exact ⟨A, hA, h1, h2, h3, h4⟩

theorem foldl_min_le (l : List ℝ) (x : ℝ) : l.foldl min x ≤ x ∧ (∀ y ∈ l, l.foldl min x ≤ y) ∧
    (l.foldl min x = x ∨ l.foldl min x ∈ l) := by
  induction l generalizing x with
  | nil => simp
  | cons a l ih =>
    obtain ⟨h1, h2, h3⟩ := ih (min x a)
    simp only [List.foldl_cons]
    refine ⟨h1.trans (min_le_left _ _), ?_, ?_⟩
    · intro y hy
      rcases List.mem_cons.mp hy with rfl | hy
      · exact h1.trans (min_le_right _ _)
      · exact h2 y hy
    · rcases h3 with h3 | h3
      · rw [h3]
        rcases min_choice x a with h | h <;> rw [h]
        · exact .inl rfl
        · exact .inr (List.mem_cons_self)
      · exact .inr (List.mem_cons_of_mem _ h3)

theorem foldl_max_le (l : List ℝ) (x : ℝ) : x ≤ l.foldl max x ∧ (∀ y ∈ l, y ≤ l.foldl max x) ∧
    (l.foldl max x = x ∨ l.foldl max x ∈ l) := by
  induction l generalizing x with
  | nil => simp
  | cons a l ih =>
    obtain ⟨h1, h2, h3⟩ := ih (max x a)
    simp only [List.foldl_cons]
    refine ⟨(le_max_left _ _).trans h1, ?_, ?_⟩
    · intro y hy
      rcases List.mem_cons.mp hy with rfl | hy
      · exact (le_max_right _ _).trans h1
      · exact h2 y hy
    · rcases h3 with h3 | h3
      · rw [h3]
        rcases max_choice x a with h | h <;> rw [h]
        · exact .inl rfl
        · exact .inr (List.mem_cons_self)
      · exact .inr (List.mem_cons_of_mem _ h3)

theorem listMin_spec {l : List ℝ} (h : l ≠ []) : ∃ v, listMin l = some v ∧ v ∈ l ∧ ∀ y ∈ l, v ≤ y := by
  cases l with
  | nil => exact absurd rfl h
  | cons x l =>
    obtain ⟨h1, h2, h3⟩ := foldl_min_le l x
    refine ⟨_, rfl, ?_, ?_⟩
    · rcases h3 with h3 | h3
      · rw [h3]; exact List.mem_cons_self
      · exact List.mem_cons_of_mem _ h3
    · intro y hy
      rcases List.mem_cons.mp hy with rfl | hy
      · exact h1
      · exact h2 y hy

theorem listMax_spec {l : List ℝ} (h : l ≠ []) : ∃ v, listMax l = some v ∧ v ∈ l ∧ ∀ y ∈ l, y ≤ v := by
  cases l with
  | nil => exact absurd rfl h
  | cons x l =>
    obtain ⟨h1, h2, h3⟩ := foldl_max_le l x
    refine ⟨_, rfl, ?_, ?_⟩
    · rcases h3 with h3 | h3
      · rw [h3]; exact List.mem_cons_self
      · exact List.mem_cons_of_mem _ h3
    · intro y hy
      rcases List.mem_cons.mp hy with rfl | hy
      · exact h1
      · exact h2 y hy

theorem mem_allPairs {n : ℕ} {p : ℕ × ℕ} : p ∈ allPairs n ↔ p.1 < n ∧ p.2 < n := by
  obtain ⟨a, b⟩ := p
  simp [allPairs]

end GP

namespace Props

/-- **C15**, conversion: `theta2gamma` and `gamma2theta` are mutually inverse and keep positivity. -/
theorem C15_theta_gamma_inverse (k : KType) :
    (∀ t : ℝ, 0 ≤ t → gamma2theta k (theta2gamma k t) = t) ∧ (∀ g : ℝ, 0 ≤ g → theta2gamma k (gamma2theta k g) = g) ∧
    (∀ t : ℝ, 0 < t → 0 < theta2gamma k t) ∧ (∀ g : ℝ, 0 < g → 0 < gamma2theta k g) := by
  refine ⟨?_, ?_, fun t => gamma_pos k, ?_⟩
  · intro t ht
    cases k <;> simp only [gamma2theta, theta2gamma, sqExpTheta2gamma, sqExpGamma2theta, maternTheta2gamma, maternGamma2theta,
        ratQuadTheta2gamma, ratQuadGamma2theta] <;> rw [Real.sq_sqrt (by positivity)] <;> ring
  · intro g hg
    cases k <;> simp only [gamma2theta, theta2gamma, sqExpTheta2gamma, sqExpGamma2theta, maternTheta2gamma, maternGamma2theta,
        ratQuadTheta2gamma, ratQuadGamma2theta]
    · rw [show (2 : ℝ) * (0.5 * g ^ 2) = g ^ 2 by ring, Real.sqrt_sq hg]
    · rw [show (5 / 3 : ℝ) * (3 / 5 * g ^ 2) = g ^ 2 by ring, Real.sqrt_sq hg]
    · rw [show (2 : ℝ) * (0.5 * g ^ 2) = g ^ 2 by ring, Real.sqrt_sq hg]
  · intro g hg
    cases k <;> simp only [gamma2theta, sqExpGamma2theta, maternGamma2theta, ratQuadGamma2theta] <;> positivity

/-- **C15**, vector form: `calc_Kern_precon(..., b_return_vec=True)` returns the vector with 1 for each value and
`gamma_i` for each derivative wrt coordinate `i`, its elementwise inverse, and the derivative of the vector
wrt each `theta_i` (column `i`). -/
theorem C15_precon_vector (k : KType) (nEval nGrad : ℕ) (theta : Arr1) (hθ : ∀ d < theta.n, 0 < theta.get d) :
    ∃ p pinv G, calcKernPreconVec k nEval nGrad theta = .ok (p, pinv, G) ∧
      p.n = nEval + nGrad * theta.n ∧ pinv.n = p.n ∧ G.r = p.n ∧ G.c = theta.n ∧
      (∀ a < nEval, p.get a = 1) ∧
      (∀ i < theta.n, ∀ a < nGrad, p.get (nEval + i * nGrad + a) = theta2gamma k (theta.get i)) ∧
      (∀ q < p.n, p.get q * pinv.get q = 1) ∧
      (∀ i < theta.n, ∃ P : ℝ → Arr1,
        (∀ t, ∃ rest, calcKernPreconVec k nEval nGrad (setTheta theta i t) = .ok (P t, rest)) ∧
        ∀ q < p.n, HasDerivAt (fun t => (P t).get q) (G.get q i) (theta.get i)) := by
  obtain ⟨G, hG, h1, h2, h3⟩ := calcGradPreconVec_ok nEval nGrad ((theta.map (theta2gamma k)).map (gammaGradTheta k))
  refine ⟨kernPvec k nEval nGrad theta, (kernPvec k nEval nGrad theta).map fun x => 1 / x, G, ?_, kernPvec_n _ _ _ _, rfl,
    ?_, ?_, fun a ha => kernPvec_val k theta ha, fun i _ a ha => kernPvec_grad k theta ha, ?_, ?_⟩
  · unfold calcKernPreconVec; dsimp only
    rw [hG]; rfl
  · rw [h1, kernPvec_n]; rfl
  · rw [h2]; rfl
  · intro q hq
    rw [kernPvec_n] at hq
    have hpos : 0 < (kernPvec k nEval nGrad theta).get q := by
      rcases row_cases hq with h | ⟨i, a, hi, ha, rfl⟩
      · rw [kernPvec_val k theta h]; exact one_pos
      · rw [kernPvec_grad k theta ha]; exact gamma_pos k (hθ i hi)
    simp only [Arr1.map]
    rw [one_div]; exact mul_inv_cancel₀ hpos.ne'
  · intro i hi
    refine ⟨fun t => kernPvec k nEval nGrad (setTheta theta i t), ?_, ?_⟩
    · intro t
      obtain ⟨G', hG', -⟩ := calcGradPreconVec_ok nEval nGrad (((setTheta theta i t).map (theta2gamma k)).map (gammaGradTheta k))
      refine ⟨((kernPvec k nEval nGrad (setTheta theta i t)).map fun x => 1 / x, G'), ?_⟩
      unfold calcKernPreconVec; dsimp only; rw [hG']; rfl
    · intro q hq
      rw [kernPvec_n] at hq
      rw [h3 q i]
      have hn : ((theta.map (theta2gamma k)).map (gammaGradTheta k)).n = theta.n := rfl
      rw [hn]
      rcases row_cases hq with h | ⟨j, a, hj, ha, rfl⟩
      · rw [if_neg (by omega)]
        simp only [kernPvec_val k _ h]
        exact hasDerivAt_const _ _
      · simp only [kernPvec_grad k _ ha, setTheta]
        by_cases hji : j = i
        · subst hji
          rw [if_pos ⟨hi, (blk_iff ha).mpr rfl⟩]
          simp only [Function.update_self]
          exact gamma_hasDerivAt k (hθ j hj)
        · rw [if_neg (fun h => hji ((blk_iff ha).mp h.2))]
          simp only [Function.update_of_ne hji]
          exact hasDerivAt_const _ _

/-- **C15**, matrix form: the matrices are the diagonal matrices of the vectors of the vector form. -/
theorem C15_precon_matrix (k : KType) (nEval nGrad : ℕ) (theta : Arr1) :
    ∃ p pinv G P Pinv D, calcKernPreconVec k nEval nGrad theta = .ok (p, pinv, G) ∧
      calcKernPreconMat k nEval nGrad theta = .ok (P, Pinv, D) ∧
      P.r = p.n ∧ P.c = p.n ∧ (∀ a b, P.get a b = if a = b then p.get a else 0) ∧
      Pinv.r = p.n ∧ Pinv.c = p.n ∧ (∀ a b, Pinv.get a b = if a = b then pinv.get a else 0) ∧
      D.d = theta.n ∧ D.r = p.n ∧ D.c = p.n ∧
      (∀ i < theta.n, ∀ a < p.n, ∀ b < p.n, D.get i a b = if a = b then G.get a i else 0) := by
  obtain ⟨G, hG, h1, h2, h3⟩ := calcGradPreconVec_ok nEval nGrad ((theta.map (theta2gamma k)).map (gammaGradTheta k))
  obtain ⟨D, hD, d1, d2, d3, d4⟩ := calcGradPreconMat_ok nEval nGrad ((theta.map (theta2gamma k)).map (gammaGradTheta k))
  have hn : ((theta.map (theta2gamma k)).map (gammaGradTheta k)).n = theta.n := rfl
  rw [hn] at d1 d2 d3 d4
  refine ⟨kernPvec k nEval nGrad theta, (kernPvec k nEval nGrad theta).map fun x => 1 / x, G,
    diagArr (kernPvec k nEval nGrad theta), diagArr ((kernPvec k nEval nGrad theta).map fun x => 1 / x), D, ?_, ?_,
    rfl, rfl, fun _ _ => rfl, rfl, rfl, fun _ _ => rfl, d1, by rw [d2, kernPvec_n], by rw [d3, kernPvec_n], ?_⟩
  · unfold calcKernPreconVec; dsimp only; rw [hG]; rfl
  · unfold calcKernPreconMat; dsimp only; rw [hD]; rfl
  · intro i hi a ha b hb
    rw [kernPvec_n] at ha hb
    rw [d4 i hi a ha b hb, h3, hn]
    by_cases hab : a = b <;> simp [hab, hi]

example : (∀ d < exTheta.n, 0 < exTheta.get d) := exTheta_pos

/-- **C16**, differences: entry `[d, a, b]` is `x_a[d] - y_b[d]`, and different dimensions raise. -/
theorem C16_rtensor (X Y : Arr2) :
    (X.c = Y.c → ∃ R, calcRtensor X Y = .ok R ∧ R.d = X.c ∧ R.r = X.r ∧ R.c = Y.r ∧
      ∀ d < X.c, ∀ a < X.r, ∀ b < Y.r, R.get d a b = X.get a d - Y.get b d) ∧
    (X.c ≠ Y.c → calcRtensor X Y = .error .assertion) := by
  constructor
  · intro h
    obtain ⟨R, hR, -⟩ := calcRtensor_ok h
    have := (calcRtensor_isR hR).2
    exact ⟨R, hR, this.d, this.r, this.c, this.get⟩
  · intro h; simp [calcRtensor, h]

/-- Euclidean distance between two rows, written independently of the model. -/
def euclid (X : Arr2) (a b : ℕ) : ℝ := Real.sqrt (∑ d ∈ Finset.range X.c, (X.get a d - X.get b d) ^ 2)

/-- **C16**, distances: for two or more points `calc_dist_min` / `calc_dist_max` return a value that is attained by a
pair of distinct points and is a lower / upper bound of the distance of all pairs of distinct points;
for a single point both return NaN. -/
theorem C16_distances (X : Arr2) :
    (X.r = 1 → calcDistMin X = .ok none ∧ calcDistMax X = .ok none) ∧
    (2 ≤ X.r → ∃ lo hi, calcDistMin X = .ok (some lo) ∧ calcDistMax X = .ok (some hi) ∧
      (∃ a < X.r, ∃ b < X.r, a ≠ b ∧ lo = euclid X a b) ∧ (∃ a < X.r, ∃ b < X.r, a ≠ b ∧ hi = euclid X a b) ∧
      ∀ a < X.r, ∀ b < X.r, a ≠ b → lo ≤ euclid X a b ∧ euclid X a b ≤ hi) := by
  constructor
  · intro h; simp [calcDistMin, calcDistMax, h]
  · intro h
    have h1 : X.r ≠ 1 := by omega
    set L := ((allPairs X.r).filter fun p => p.1 ≠ p.2).map fun p => rowDist X p.1 p.2 with hL
    have hmem : ∀ v, v ∈ L ↔ ∃ a < X.r, ∃ b < X.r, a ≠ b ∧ v = euclid X a b := by
      intro v
      simp only [hL, List.mem_map, List.mem_filter, mem_allPairs, Prod.exists, decide_eq_true_eq]
      constructor
      · rintro ⟨a, b, ⟨⟨ha, hb⟩, hab⟩, rfl⟩; exact ⟨a, ha, b, hb, hab, rfl⟩
      · rintro ⟨a, ha, b, hb, hab, rfl⟩; exact ⟨a, b, ⟨⟨ha, hb⟩, hab⟩, rfl⟩
    have hne : L ≠ [] := List.ne_nil_of_mem ((hmem _).mpr ⟨0, by omega, 1, by omega, by omega, rfl⟩)
    obtain ⟨lo, hlo, m1, m2⟩ := listMin_spec hne
    set M := (allPairs X.r).map fun p => rowDist X p.1 p.2 with hM
    have hmemM : ∀ v, v ∈ M ↔ ∃ a < X.r, ∃ b < X.r, v = euclid X a b := by
      intro v
      simp only [hM, List.mem_map, mem_allPairs, Prod.exists]
      constructor
      · rintro ⟨a, b, ⟨ha, hb⟩, rfl⟩; exact ⟨a, ha, b, hb, rfl⟩
      · rintro ⟨a, ha, b, hb, rfl⟩; exact ⟨a, b, ⟨ha, hb⟩, rfl⟩
    have hneM : M ≠ [] := List.ne_nil_of_mem ((hmemM _).mpr ⟨0, by omega, 1, by omega, rfl⟩)
    obtain ⟨hi, hhi, n1, n2⟩ := listMax_spec hneM
    refine ⟨lo, hi, ?_, ?_, (hmem lo).mp m1, ?_, ?_⟩
    · simp only [calcDistMin, h1, if_false, ← hL, hlo]
    · simp only [calcDistMax, h1, if_false, ← hM, hhi]
    · obtain ⟨a, ha, b, hb, e⟩ := (hmemM hi).mp n1
      by_cases hab : a = b
      · -- all distances are 0
        subst hab
        have h0 : euclid X a a = 0 := by simp [euclid]
        refine ⟨0, by omega, 1, by omega, by omega, ?_⟩
        have hle := n2 _ ((hmemM _).mpr ⟨0, by omega, 1, by omega, rfl⟩)
        have hge : 0 ≤ euclid X 0 1 := Real.sqrt_nonneg _
        rw [e, h0] at hle
        rw [e, h0]; exact le_antisymm hge hle
      · exact ⟨a, ha, b, hb, hab, e⟩
    · intro a ha b hb hab
      exact ⟨m2 _ ((hmem _).mpr ⟨a, ha, b, hb, hab, rfl⟩), n2 _ ((hmemM _).mpr ⟨a, ha, b, hb, rfl⟩)⟩

example : 2 ≤ exX.r := le_refl 2

/-- **C69.** The data vector is the values followed by the gradients, coordinate after coordinate, with one entry for
each row of `fgrad` (the points that have gradients), i.e. position `n + i*g + a` holds derivative `i` at the
`a`-th point with a gradient: the same positions as in `JointCov`. -/
theorem C69_data_vector (fval : Arr1) (fgrad : Arr2) :
    (makeDataVec fval none).n = fval.n ∧ (∀ p < fval.n, (makeDataVec fval none).get p = fval.get p) ∧
    (makeDataVec fval (some fgrad)).n = fval.n + fgrad.r * fgrad.c ∧
    (∀ p < fval.n, (makeDataVec fval (some fgrad)).get p = fval.get p) ∧
    (∀ i < fgrad.c, ∀ a < fgrad.r,
      (makeDataVec fval (some fgrad)).get (fval.n + i * fgrad.r + a) = fgrad.get a i) := by
  refine ⟨rfl, fun _ _ => rfl, rfl, ?_, ?_⟩
  · intro p hp; simp [makeDataVec, hstack, hp]
  · intro i _ a ha
    have h1 : ¬ fval.n + i * fgrad.r + a < fval.n := by omega
    have h2 : fval.n + i * fgrad.r + a - fval.n = i * fgrad.r + a := by omega
    have h3 : (i * fgrad.r + a) / fgrad.r = i := by
      rw [Nat.add_comm, Nat.add_mul_div_right _ _ (by omega), Nat.div_eq_of_lt ha, Nat.zero_add]
    have h4 : (i * fgrad.r + a) % fgrad.r = a := by
      rw [Nat.add_comm, Nat.add_mul_mod_self_right, Nat.mod_eq_of_lt ha]
    simp only [makeDataVec, hstack, flattenF, h1, if_false, h2, h3, h4]

/-- **C69**, alignment with the kernel matrix: with mask `m` (`gN m n` selected points, the `a`-th of which is point
`gSel m a`), the length of the data vector is the number of rows of the masked gradient-enhanced matrix, and the
rows `JointCov` describes as derivative `i` at point `gSel m a` carry the datum `fgrad[a, i]`. -/
theorem C69_aligned_with_kernel (k : KType) (X : Arr2) (theta : Arr1) (hn : theta.n = X.c)
    (hθ : ∀ d < X.c, 0 ≤ theta.get d) (hp : Option ℝ) (hhp : HpOk k hp) (m : Option (List Bool)) (hm : maskOk m X.r)
    (fval : Arr1) (hf : fval.n = X.r) (fgrad : Arr2) (hg : fgrad.r = gN m X.r) (hgc : fgrad.c = X.c) :
    ∃ R A, calcRtensor X X = .ok R ∧ calcKernGrad k R theta hp m m = .ok A ∧
      (makeDataVec fval (some fgrad)).n = A.r ∧ A.r = A.c ∧
      (∀ a < X.r, (makeDataVec fval (some fgrad)).get a = fval.get a ∧
        ∀ b < X.r, IsCov (kernOf k hp X.c theta) (X.get a) none (X.get b) none (A.get a b)) ∧
      (∀ i < X.c, ∀ a < gN m X.r, (makeDataVec fval (some fgrad)).get (X.r + i * gN m X.r + a) = fgrad.get a i ∧
        ∀ b < X.r, IsCov (kernOf k hp X.c theta) (X.get (gSel m a)) (some i) (X.get b) none
          (A.get (X.r + i * gN m X.r + a) b)) := by
  obtain ⟨R, A, hR, hA, h1, h2, hJ⟩ := kernGrad_jointCov k X X rfl theta hn hθ hp hhp m m hm hm
    (fun _ => by cases m with
      | none => exact .inl rfl
      | some l => exact .inr (by simp))
  obtain ⟨-, -, h3, h4, h5⟩ := C69_data_vector fval fgrad
  refine ⟨R, A, hR, hA, by rw [h3, h1, hf, hg, hgc], by rw [h1, h2], ?_, ?_⟩
  · intro a ha
    refine ⟨h4 a (by omega), fun b hb => ?_⟩
    exact hJ.val_val a ha b hb
  · intro i hi a ha
    refine ⟨?_, fun b hb => hJ.der_val i hi a ha b hb⟩
    have := h5 i (by omega) a (by omega)
    rwa [hf, hg] at this

example : maskOk (some [false, true]) exX.r ∧ gN (some [false, true]) exX.r = 1 := by
  refine ⟨?_, rfl⟩
  intro l h; simp at h; subst h; rfl

/-! The theorems applied to `exX`, `exTheta` and a gradient at the second point only. -/
example := C15_precon_vector .matern 2 1 exTheta exTheta_pos
example := (C16_distances exX).2 (le_refl 2)
example := (C16_rtensor exX exX).1 rfl
example := (C16_rtensor exX ⟨1, 3, fun _ _ => 0⟩).2 (by simp [exX])
example := C69_aligned_with_kernel .ratQuad exX exTheta rfl exTheta_nonneg (some 2) exAlpha_ok (some [false, true]) exMask_ok
  ⟨2, fun p => p⟩ rfl ⟨1, 2, fun _ i => i + 3⟩ rfl rfl

end Props
