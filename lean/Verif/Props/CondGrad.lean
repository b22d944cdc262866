import Verif.Model.LkdAll
import Verif.Spec.EigSpec
import Verif.Spec.LkdSpec
import Verif.Proofs.EigDeriv
import Verif.Props.Lkd

/-! C35: the condition number used as a constraint and its gradient. -/

open Np Spec Matrix MD GP ED

noncomputable section

namespace Props

variable {n m : ℕ}

theorem isTop_of_max {K : Mat n n} {l : ℝ} (h : IsMaxEig K l) : ∃ v, IsTop K l v := by
  obtain ⟨⟨x, hx, he⟩, hle⟩ := h
  have hpos : 0 < x ⬝ᵥ x := by simpa using (dotProduct_star_self_pos_iff (v := x)).mpr hx
  have hr : Real.sqrt (x ⬝ᵥ x) ≠ 0 := (Real.sqrt_pos.mpr hpos).ne'
  refine ⟨(1 / Real.sqrt (x ⬝ᵥ x)) • x, ⟨?_, ?_, hle⟩⟩
  · rw [mulVec_smul, he, smul_comm]
  · rw [smul_dotProduct, dotProduct_smul, smul_eq_mul, smul_eq_mul]
    have := Real.mul_self_sqrt hpos.le
    field_simp
    rw [sq, this]

theorem isMax_iff {K : Mat n n} {l : ℝ} : IsMaxEig K l ↔ ∃ v, IsTop K l v := by
  refine ⟨isTop_of_max, ?_⟩
  rintro ⟨v, h⟩
  refine ⟨⟨v, ?_, h.eig⟩, h.le⟩
  rintro rfl
  have := h.unit
  simp at this

theorem isMin_iff {K : Mat n n} {l : ℝ} : IsMinEig K l ↔ IsMaxEig (-K) (-l) := by
  unfold IsMinEig IsMaxEig
  simp only [neg_mulVec, neg_smul, neg_inj, dotProduct_neg, neg_mul, neg_le_neg_iff]

theorem simple_neg {K : Mat n n} {l : ℝ} (h : SimpleEig K l) : SimpleEig (-K) (-l) := by
  intro u w hu h1 h2
  refine h u w hu ?_ ?_
  · simpa [neg_mulVec] using h1
  · simpa [neg_mulVec] using h2

theorem simple_top {K : Mat n n} {l : ℝ} {v : Vec n} (h : SimpleEig K l) (hv : IsTop K l v) :
    ∀ w, K *ᵥ w = l • w → ∃ c : ℝ, w = c • v := fun w hw => h v w (by
      rintro rfl
      have := hv.unit
      simp at this) hv.eig hw

/-- The number `np.linalg.cond(K, 2)` of a positive definite matrix is the quotient of its extreme eigenvalues. -/
theorem cond2_quot {K : Mat n n} (hn : 0 < n) (hK : K.PosDef) : ∃ lmax lmin, IsMaxEig K lmax ∧ IsMinEig K lmin ∧ 0 < lmin ∧
    cond2 K = lmax / lmin := by
  haveI : Nonempty (Fin n) := ⟨⟨0, hn⟩⟩
  have hH := hK.isHermitian
  have hpos : ∀ i, 0 < hH.eigenvalues i := hK.eigenvalues_pos
  obtain ⟨i, hi⟩ := exists_eq_ciInf_of_finite (f := hH.eigenvalues)
  refine ⟨_, _, isMax_iff.mpr (isTop_sup hH hn), isMin_iff.mpr (isMax_iff.mpr (isTop_inf hH hn)), ?_, ?_⟩
  · rw [← hi]; exact hpos i
  · unfold cond2
    rw [dif_pos hH]
    simp only [abs_of_pos (hpos _)]

theorem maxEig_unique {K : Mat n n} {l l' : ℝ} (h : IsMaxEig K l) (h' : IsMaxEig K l') : l = l' := by
  obtain ⟨v, hv⟩ := isTop_of_max h
  obtain ⟨v', hv'⟩ := isTop_of_max h'
  exact isTop_unique hv hv'

theorem minEig_unique {K : Mat n n} {l l' : ℝ} (h : IsMinEig K l) (h' : IsMinEig K l') : l = l' :=
  neg_injective (maxEig_unique (isMin_iff.mp h) (isMin_iff.mp h'))

/-- Every eigenvalue is listed. -/
theorem eig_listed {K : Mat n n} {e : Vec n × Mat n n} (he : EigOk K e) {l : ℝ} {x : Vec n} (hx : x ≠ 0) (hl : K *ᵥ x = l • x) :
    ∃ i, e.1 i = l := by
  by_contra hcon
  push Not at hcon
  have hu : IsUnit e.2.det := isUnit_iff_ne_zero.mpr he.span
  set c := e.2⁻¹ *ᵥ x with hc
  have hxc : e.2 *ᵥ c = x := by rw [hc, mulVec_mulVec, Matrix.mul_nonsing_inv _ hu, one_mulVec]
  have hKV : K * e.2 = e.2 * diagonal e.1 := by
    ext i j
    have := congrFun (he.eig j) i
    rw [mul_diagonal, mul_comm]
    exact this
  have h1 : e.2 *ᵥ (diagonal e.1 *ᵥ c) = e.2 *ᵥ (l • c) := by
    rw [mulVec_mulVec, ← hKV, ← mulVec_mulVec, hxc, hl, mulVec_smul, hxc]
  have h2 : diagonal e.1 *ᵥ c = l • c := by
    have := congrArg (fun y => e.2⁻¹ *ᵥ y) h1
    simpa [mulVec_mulVec, Matrix.nonsing_inv_mul _ hu, ← Matrix.mul_assoc] using this
  have h3 : c = 0 := by
    funext i
    have := congrFun h2 i
    rw [mulVec_diagonal, Pi.smul_apply, smul_eq_mul] at this
    have h4 : (e.1 i - l) * c i = 0 := by linarith
    exact (mul_eq_zero.mp h4).resolve_left (sub_ne_zero.mpr (hcon i))
  rw [h3, mulVec_zero] at hxc
  exact hx hxc.symm

theorem argMax_ok {v : Vec n} (hn : 0 < n) : ∃ i, argMax v = .ok i ∧ ∀ j, v j ≤ v i := by
  unfold argMax
  cases h : (List.finRange n).argmax v with
  | none =>
    rw [List.argmax_eq_none] at h
    have := congrArg List.length h
    simp at this; omega
  | some i => exact ⟨i, rfl, fun j => List.le_of_mem_argmax (List.mem_finRange j) h⟩

theorem argMin_ok {v : Vec n} (hn : 0 < n) : ∃ i, argMin v = .ok i ∧ ∀ j, v i ≤ v j := by
  unfold argMin
  cases h : (List.finRange n).argmin v with
  | none =>
    rw [List.argmin_eq_none] at h
    have := congrArg List.length h
    simp at this; omega
  | some i => exact ⟨i, rfl, fun j => List.le_of_mem_argmin (List.mem_finRange j) h⟩

theorem eig_top {K : Mat n n} {e : Vec n × Mat n n} (he : EigOk K e) {l : ℝ} (hl : IsMaxEig K l) {i : Fin n} (hi : ∀ j, e.1 j ≤ e.1 i) :
    e.1 i = l ∧ IsTop K l (fun k => e.2 k i) := by
  have hunit : (fun k => e.2 k i) ⬝ᵥ (fun k => e.2 k i) = 1 := by
    have := he.unit i
    simpa [dotProduct, sq] using this
  obtain ⟨⟨x, hx, hex⟩, hle⟩ := hl
  obtain ⟨j, hj⟩ := eig_listed he hx hex
  have h1 : e.1 i ≤ l := by
    have := hle (fun k => e.2 k i)
    rw [he.eig i, dotProduct_smul, hunit] at this
    simpa using this
  have h2 : e.1 i = l := le_antisymm h1 (hj ▸ hi j)
  exact ⟨h2, by rw [he.eig i, h2], hunit, hle⟩

theorem eig_bot {K : Mat n n} {e : Vec n × Mat n n} (he : EigOk K e) {l : ℝ} (hl : IsMinEig K l) {i : Fin n} (hi : ∀ j, e.1 i ≤ e.1 j) :
    e.1 i = l ∧ IsTop (-K) (-l) (fun k => e.2 k i) := by
  have he' : EigOk (-K) (-e.1, e.2) := ⟨fun j => by rw [neg_mulVec, he.eig j]; simp, he.unit, he.span⟩
  obtain ⟨h1, h2⟩ := eig_top he' (isMin_iff.mp hl) (i := i) (fun j => by simpa using hi j)
  exact ⟨neg_injective h1, h2⟩

theorem sum_outer (D v w : Vec n) (c : ℝ) (M : Mat n n) :
    ∑ i, ∑ j, (vecMulVec v v - c • vecMulVec w w : Mat n n) i j * M i j = v ⬝ᵥ M *ᵥ v - c * (w ⬝ᵥ M *ᵥ w) := by
  have h : ∀ u : Vec n, ∑ i, ∑ j, vecMulVec u u i j * M i j = u ⬝ᵥ M *ᵥ u := by
    intro u
    simp only [vecMulVec_apply, dotProduct, mulVec, Finset.mul_sum]
    exact Finset.sum_congr rfl fun i _ => Finset.sum_congr rfl fun j _ => by ring
  rw [← h v, ← h w, Finset.mul_sum, ← Finset.sum_sub_distrib]
  refine Finset.sum_congr rfl fun i _ => ?_
  rw [Finset.mul_sum, ← Finset.sum_sub_distrib]
  exact Finset.sum_congr rfl fun j _ => by
    rw [Matrix.sub_apply, Matrix.smul_apply, smul_eq_mul]; ring

/-- The value of `calc_cond_L2_w_grad`, whatever gradient it is given. -/
theorem condL2_val (eig : EigFun) (pre : Bool) (hn : 0 < n) (K : Mat n n) (dK : Option (Fin m → Mat n n)) :
    ∃ g, condL2WGrad eig pre K dK = .ok (cond2 K, g) ∧ (dK = none → g = none) ∧ (pre = true → g = none) ∧
      (pre = false → dK.isSome → g.isSome) := by
  unfold condL2WGrad
  cases dK with
  | none => exact ⟨none, rfl, fun _ => rfl, fun _ => rfl, fun _ h => by cases h⟩
  | some dK =>
    cases pre with
    | true => exact ⟨none, rfl, fun h => (by cases h), fun _ => rfl, fun h => (by cases h)⟩
    | false =>
      obtain ⟨i, hi, -⟩ := argMax_ok (v := (eig n K).1) hn
      obtain ⟨j, hj, -⟩ := argMin_ok (v := (eig n K).1) hn
      simp only [Bool.false_eq_true, if_false, hi, hj, ok_bind, pure_eq_ok]
      exact ⟨_, rfl, fun h => (by cases h), fun h => h.elim, fun _ _ => rfl⟩

/-- **C35**, spectral norm (the default). Along any differentiable path of positive definite matrices whose extreme
eigenvalues at the base point are simple and whose smallest eigenvalue is at least 1e-16 there, the returned gradient is
the derivative of the returned condition number; that number is the quotient of the extreme eigenvalues. -/
theorem C35_cond_L2_gradient {eig : EigFun} {K : ℝ → Mat n n} {t : ℝ} (hn : 0 < n) (hK : ∀ᶠ s in nhds t, (K s).PosDef)
    (he : EigOk (K t) (eig n (K t))) {lmax lmin : ℝ} (hmax : IsMaxEig (K t) lmax) (hmin : IsMinEig (K t) lmin)
    (hs1 : SimpleEig (K t) lmax) (hs2 : SimpleEig (K t) lmin) (hfl : 1 / 10 ^ 16 ≤ lmin)
    (dKs : ℝ → Option (Fin m → Mat n n)) (dK : Fin m → Mat n n) (k : Fin m) (hd : MDeriv K (dK k) t) :
    ∃ g, condL2WGrad eig false (K t) (some dK) = .ok (lmax / lmin, some g) ∧
      ∃ c : ℝ → ℝ, (∀ᶠ s in nhds t, ∃ g', condL2WGrad eig false (K s) (dKs s) = .ok (c s, g') ∧
        ∃ l1 l2, IsMaxEig (K s) l1 ∧ IsMinEig (K s) l2 ∧ c s = l1 / l2) ∧ HasDerivAt c (g k) t := by
  obtain ⟨i, hi, him⟩ := argMax_ok (v := (eig n (K t)).1) hn
  obtain ⟨j, hj, hjm⟩ := argMin_ok (v := (eig n (K t)).1) hn
  obtain ⟨e1, htop⟩ := eig_top he hmax him
  obtain ⟨e2, hbot⟩ := eig_bot he hmin hjm
  have hc0 : cond2 (K t) = lmax / lmin := by
    obtain ⟨a, b, h1, h2, -, h3⟩ := cond2_quot hn hK.self_of_nhds
    rw [h3, maxEig_unique h1 hmax, minEig_unique h2 hmin]
  have hpos : 0 < lmin := lt_of_lt_of_le (by norm_num) hfl
  refine ⟨_, by simp only [condL2WGrad, Bool.false_eq_true, if_false, hi, hj, ok_bind, pure_eq_ok, hc0]; rfl,
    fun s => cond2 (K s), ?_, ?_⟩
  · filter_upwards [hK] with s hs
    obtain ⟨g', hg', -⟩ := condL2_val eig false hn (K s) (dKs s)
    obtain ⟨a, b, h1, h2, -, h3⟩ := cond2_quot hn hs
    exact ⟨g', hg', a, b, h1, h2, h3⟩
  · -- extreme eigenvalues as functions
    have hex : ∀ s, ∃ p : ℝ × ℝ, (K s).PosDef → IsMaxEig (K s) p.1 ∧ IsMinEig (K s) p.2 ∧ cond2 (K s) = p.1 / p.2 := by
      intro s
      by_cases h : (K s).PosDef
      · obtain ⟨a, b, h1, h2, -, h3⟩ := cond2_quot hn h
        exact ⟨(a, b), fun _ => ⟨h1, h2, h3⟩⟩
      · exact ⟨(0, 0), fun h' => absurd h' h⟩
    choose p hp using hex
    have hKt := hK.self_of_nhds
    have p1 : (p t).1 = lmax := maxEig_unique (hp t hKt).1 hmax
    have p2 : (p t).2 = lmin := minEig_unique (hp t hKt).2.1 hmin
    have hsym : ∀ᶠ s in nhds t, (K s)ᵀ = K s := by
      filter_upwards [hK] with s hs
      have := hs.isHermitian.eq
      rwa [conjTranspose_eq_transpose_of_trivial] at this
    have d1 : HasDerivAt (fun s => (p s).1) ((fun q => (eig n (K t)).2 q i) ⬝ᵥ dK k *ᵥ fun q => (eig n (K t)).2 q i) t := by
      refine top_deriv hsym hd ?_ (by rw [p1]; exact htop) ?_
      · filter_upwards [hK] with s hs
        exact isTop_of_max (hp s hs).1
      · rw [p1]; exact simple_top hs1 htop
    have d2 : HasDerivAt (fun s => -(p s).2) ((fun q => (eig n (K t)).2 q j) ⬝ᵥ (-dK k) *ᵥ fun q => (eig n (K t)).2 q j) t := by
      refine top_deriv (A := fun s => -K s) ?_ (fun a b => (hd a b).fun_neg) ?_ (by rw [p2]; exact hbot) ?_
      · filter_upwards [hsym] with s hs
        rw [transpose_neg, hs]
      · filter_upwards [hK] with s hs
        exact isTop_of_max (isMin_iff.mp (hp s hs).2.1)
      · rw [p2]; exact simple_top (simple_neg hs2) hbot
    have d3 : HasDerivAt (fun s => (p s).2) ((fun q => (eig n (K t)).2 q j) ⬝ᵥ dK k *ᵥ fun q => (eig n (K t)).2 q j) t := by
      have := d2.fun_neg
      simpa [neg_mulVec] using this
    have d4 := d1.fun_div d3 (by rw [p2]; exact hpos.ne')
    refine (d4.congr_of_eventuallyEq ?_).congr_deriv ?_
    · filter_upwards [hK] with s hs using (hp s hs).2.2
    · rw [p1, p2]
      rw [sum_outer 0, e2, max_eq_left hfl]
      field_simp

theorem froNorm_pos {K : Mat n n} (h : K ≠ 0) : 0 < froNorm K := by
  unfold froNorm
  refine Real.sqrt_pos.mpr ?_
  by_contra hcon
  apply h
  have h0 : ∑ i, ∑ j, K i j ^ 2 = 0 := le_antisymm (not_lt.mp hcon) (Finset.sum_nonneg fun i _ => Finset.sum_nonneg fun j _ => sq_nonneg _)
  ext i j
  have h1 := (Finset.sum_eq_zero_iff_of_nonneg (fun i _ => Finset.sum_nonneg fun j _ => sq_nonneg _)).mp h0 i (Finset.mem_univ i)
  have h2 := (Finset.sum_eq_zero_iff_of_nonneg (fun j _ => sq_nonneg _)).mp h1 j (Finset.mem_univ j)
  simpa using h2

theorem froNorm_deriv {K : ℝ → Mat n n} {D : Mat n n} {t : ℝ} (h : MDeriv K D t) (h0 : K t ≠ 0) :
    HasDerivAt (fun s => froNorm (K s)) ((∑ i, ∑ j, K t i j * D i j) / froNorm (K t)) t := by
  have hp := froNorm_pos h0
  have h1 : HasDerivAt (fun s => ∑ i, ∑ j, K s i j ^ 2) (∑ i, ∑ j, (2 * K t i j * D i j)) t :=
    HasDerivAt.fun_sum fun i _ => HasDerivAt.fun_sum fun j _ => by simpa using (h i j).fun_pow 2
  refine (h1.sqrt (Real.sqrt_pos.mp hp).ne').congr_deriv ?_
  have : ∑ i, ∑ j, (2 * K t i j * D i j) = 2 * ∑ i, ∑ j, K t i j * D i j := by
    simp only [Finset.mul_sum, mul_assoc]
  rw [this]
  unfold froNorm
  rw [mul_div_mul_left _ _ two_ne_zero]

theorem sum_trace (A B : Mat n n) : ∑ i, ∑ j, A i j * B i j = trace (Aᵀ * B) := by
  simp only [trace, diag_apply, Matrix.mul_apply, transpose_apply]
  exact Finset.sum_comm

/-- The value of `calc_cond_fronorm_w_grad` where its assertion holds. -/
theorem condFro_val {F : ChoFac n} {K : Mat n n} (hF : FacOf F K) (hn : 0 < n) (h1 : 1 < K ⟨0, hn⟩ ⟨0, hn⟩)
    (dK : Option (Fin m → Mat n n)) :
    condFroWGrad false K (some F) dK = .ok (froNorm K * froNorm K⁻¹, dK.map fun dK k => ∑ i, ∑ j,
      ((froNorm K⁻¹ / froNorm K) • K - (1 / (froNorm K⁻¹ / froNorm K)) • (K⁻¹ * (K⁻¹ * K⁻¹)) : Mat n n) i j * dK k i j) := by
  have ha : pyAssert (∃ h : 0 < n, 1 < K ⟨0, h⟩ ⟨0, h⟩) = .ok () := pyAssert_true ⟨hn, h1⟩
  unfold condFroWGrad
  rw [ha]
  cases dK with
  | none => simp only [ok_bind, need, choSolve, hF.mat, Matrix.mul_one, pure_eq_ok, Option.map_none]
  | some dK => simp only [ok_bind, need, choSolve, hF.mat, Matrix.mul_one, pure_eq_ok, Option.map_some, pyAssert_true]

/-- **C35**, Frobenius norm. -/
theorem C35_cond_fro_gradient {F : ℝ → ChoFac n} {K : ℝ → Mat n n} {t : ℝ} (hn : 0 < n)
    (hF : ∀ᶠ s in nhds t, FacOf (F s) (K s)) (h1 : 1 < K t ⟨0, hn⟩ ⟨0, hn⟩)
    (dKs : ℝ → Option (Fin m → Mat n n)) (dK : Fin m → Mat n n) (k : Fin m) (hd : MDeriv K (dK k) t) :
    ∃ g, condFroWGrad false (K t) (some (F t)) (some dK) = .ok (condFro (K t), some g) ∧
      (∀ᶠ s in nhds t, ∃ g', condFroWGrad false (K s) (some (F s)) (dKs s) = .ok (condFro (K s), g')) ∧
        HasDerivAt (fun s => condFro (K s)) (g k) t := by
  have ht := hF.self_of_nhds
  refine ⟨_, condFro_val ht hn h1 (some dK), ?_, ?_⟩
  · have hc := (hd ⟨0, hn⟩ ⟨0, hn⟩).continuousAt.eventually_const_lt h1
    filter_upwards [hF, hc] with s hs h1s
    exact ⟨_, condFro_val hs hn h1s (dKs s)⟩
  · have hdet := posDef_detne ht.pos
    have hu : IsUnit (K t).det := isUnit_iff_ne_zero.mpr hdet
    have hK0 : K t ≠ 0 := by
      intro h; rw [h] at h1; simp at h1; linarith
    have hKi0 : (K t)⁻¹ ≠ 0 := by
      intro h
      have := Matrix.mul_nonsing_inv _ hu
      rw [h, Matrix.mul_zero] at this
      have := congrFun (congrFun this ⟨0, hn⟩) ⟨0, hn⟩
      simp at this
    have d1 := froNorm_deriv hd hK0
    have d2 := froNorm_deriv (inv_deriv hd hdet) hKi0
    have p1 := (froNorm_pos hK0).ne'
    have p2 := (froNorm_pos hKi0).ne'
    have hsy := inv_sym ht.pos
    refine (d1.fun_mul d2).congr_deriv ?_
    have e1 : ∑ i, ∑ j, (K t)⁻¹ i j * (-((K t)⁻¹ * dK k * (K t)⁻¹)) i j =
        -∑ i, ∑ j, ((K t)⁻¹ * ((K t)⁻¹ * (K t)⁻¹)) i j * dK k i j := by
      rw [sum_trace, sum_trace, hsy, transpose_mul, transpose_mul, hsy, Matrix.mul_neg, trace_neg]
      congr 1
      rw [← Matrix.mul_assoc, ← Matrix.mul_assoc, trace_mul_comm]
      simp only [Matrix.mul_assoc]
    rw [e1]
    have e2 : ∑ i, ∑ j, ((froNorm (K t)⁻¹ / froNorm (K t)) • K t - (1 / (froNorm (K t)⁻¹ / froNorm (K t))) • ((K t)⁻¹ * ((K t)⁻¹ * (K t)⁻¹)) : Mat n n) i j * dK k i j =
        froNorm (K t)⁻¹ / froNorm (K t) * (∑ i, ∑ j, K t i j * dK k i j) -
          1 / (froNorm (K t)⁻¹ / froNorm (K t)) * ∑ i, ∑ j, ((K t)⁻¹ * ((K t)⁻¹ * (K t)⁻¹)) i j * dK k i j := by
      simp only [Matrix.sub_apply, Matrix.smul_apply, smul_eq_mul, Finset.mul_sum, ← Finset.sum_sub_distrib]
      exact Finset.sum_congr rfl fun i _ => Finset.sum_congr rfl fun j _ => by ring
    refine Eq.trans ?_ e2.symm
    field_simp
    ring

/-! ### The hypotheses of C35 are met by two correlated observations -/

/-- An eigenvalue routine that is right for `exK 1`. -/
def exEig : EigFun
  | 2, _ => (![3, 1], !![1 / Real.sqrt 2, 1 / Real.sqrt 2; 1 / Real.sqrt 2, -(1 / Real.sqrt 2)])
  | _, _ => (0, 0)

theorem exEig_ok : EigOk (exK 1) (exEig 2 (exK 1)) := by
  have h2 : Real.sqrt 2 ≠ 0 := by positivity
  have hs : Real.sqrt 2 ^ 2 = 2 := Real.sq_sqrt (by norm_num)
  refine ⟨?_, ?_, ?_⟩
  · intro j; funext i
    fin_cases j <;> fin_cases i <;> simp [exEig, exK, mulVec, dotProduct, Fin.sum_univ_two] <;> ring
  · intro j
    fin_cases j <;> simp [exEig, Fin.sum_univ_two, hs] <;> norm_num
  · simp only [exEig, det_fin_two_of]
    field_simp
    rw [hs]; norm_num

theorem exK_max : IsMaxEig (exK 1) 3 ∧ SimpleEig (exK 1) 3 := by
  refine ⟨⟨⟨![1, 1], by simp, ?_⟩, ?_⟩, ?_⟩
  · funext i; fin_cases i <;> simp [exK, mulVec, dotProduct, Fin.sum_univ_two] <;> norm_num
  · intro x
    simp only [exK, mulVec, dotProduct, Fin.sum_univ_two, of_apply, cons_val_zero, cons_val_one]
    nlinarith [sq_nonneg (x 0 - x 1)]
  · intro u w hu h1 h2
    have e : ∀ x : Vec 2, exK 1 *ᵥ x = (3 : ℝ) • x → x 0 = x 1 := by
      intro x hx
      have := congrFun hx 0
      simp only [exK, mulVec, dotProduct, Fin.sum_univ_two, of_apply, cons_val_zero, cons_val_one, Pi.smul_apply, smul_eq_mul] at this
      linarith
    have hu0 : u 0 ≠ 0 := by
      intro h0
      exact hu (funext fun i => by fin_cases i; exacts [h0, (e u h1).symm.trans h0])
    refine ⟨w 0 / u 0, funext fun i => ?_⟩
    fin_cases i
    · simp [hu0]
    · show w 1 = w 0 / u 0 * u 1
      rw [← e u h1, ← e w h2]; field_simp

theorem exK_min : IsMinEig (exK 1) 1 ∧ SimpleEig (exK 1) 1 := by
  refine ⟨⟨⟨![1, -1], by simp, ?_⟩, ?_⟩, ?_⟩
  · funext i; fin_cases i <;> simp [exK, mulVec, dotProduct, Fin.sum_univ_two] <;> norm_num
  · intro x
    simp only [exK, mulVec, dotProduct, Fin.sum_univ_two, of_apply, cons_val_zero, cons_val_one]
    nlinarith [sq_nonneg (x 0 + x 1)]
  · intro u w hu h1 h2
    have e : ∀ x : Vec 2, exK 1 *ᵥ x = (1 : ℝ) • x → x 1 = -x 0 := by
      intro x hx
      have := congrFun hx 0
      simp only [exK, mulVec, dotProduct, Fin.sum_univ_two, of_apply, cons_val_zero, cons_val_one, Pi.smul_apply, smul_eq_mul] at this
      linarith
    have hu0 : u 0 ≠ 0 := by
      intro h0
      refine hu (funext fun i => by fin_cases i; exacts [h0, by simpa [h0] using e u h1])
    refine ⟨w 0 / u 0, funext fun i => ?_⟩
    fin_cases i
    · simp [hu0]
    · show w 1 = w 0 / u 0 * u 1
      rw [e u h1, e w h2]; field_simp

-- C35: both variants apply to this family, with condition number 3 in the spectral norm
example : ∃ g, condL2WGrad exEig false (exK 1) (some fun _ : Fin 1 => !![0, 1; 1, 0]) = .ok (3 / 1, some g) ∧
    ∃ c : ℝ → ℝ, (∀ᶠ s in nhds (1 : ℝ), ∃ g', condL2WGrad (m := 1) exEig false (exK s) none = .ok (c s, g') ∧
        ∃ l1 l2, IsMaxEig (exK s) l1 ∧ IsMinEig (exK s) l2 ∧ c s = l1 / l2) ∧ HasDerivAt c (g 0) 1 :=
  C35_cond_L2_gradient (K := exK) (by norm_num) (by
    filter_upwards [lt_mem_nhds (show (-2 : ℝ) < 1 by norm_num), gt_mem_nhds (show (1 : ℝ) < 2 by norm_num)] with s h1 h2
    exact exK_posDef h1 h2) exEig_ok exK_max.1 exK_min.1 exK_max.2 exK_min.2 (by norm_num) (fun _ => none) _ 0 (exK_deriv 1)

example : ∃ g, condFroWGrad false (exK 1) (some (exF 1)) (some fun _ : Fin 1 => !![0, 1; 1, 0]) = .ok (condFro (exK 1), some g) ∧
      (∀ᶠ s in nhds (1 : ℝ), ∃ g', condFroWGrad (m := 1) false (exK s) (some (exF s)) none = .ok (condFro (exK s), g')) ∧
        HasDerivAt (fun s => condFro (exK s)) (g 0) 1 :=
  C35_cond_fro_gradient (K := exK) (F := exF) (by norm_num) (by
    filter_upwards [lt_mem_nhds (show (-2 : ℝ) < 1 by norm_num), gt_mem_nhds (show (1 : ℝ) < 2 by norm_num)] with s h1 h2
    exact exF_fac h1 h2) (by simp [exK]) (fun _ => none) _ 0 (exK_deriv 1)

end Props
