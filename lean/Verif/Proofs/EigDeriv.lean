import Verif.Model.LinAlg
import Verif.Proofs.MatDeriv
import Mathlib.LinearAlgebra.Matrix.PosDef
import Mathlib.Analysis.Calculus.Deriv.Pow
import Mathlib.Algebra.Order.Chebyshev
import Mathlib.Tactic.Linarith
import Mathlib.Tactic.FieldSimp
import Mathlib.Tactic.Positivity

/-! Derivative of an extreme simple eigenvalue of a symmetric matrix. -/

open GP Matrix MD

noncomputable section

namespace ED

variable {n : ℕ}

/-- `l` is the largest eigenvalue of `A` and `v` a unit eigenvector for it. -/
structure IsTop (A : Mat n n) (l : ℝ) (v : Vec n) : Prop where
  eig : A *ᵥ v = l • v
  unit : v ⬝ᵥ v = 1
  le : ∀ x : Vec n, x ⬝ᵥ A *ᵥ x ≤ l * (x ⬝ᵥ x)

theorem diag_form {A : Mat n n} (h : A.IsHermitian) :
    ∃ U : Mat n n, U * Uᵀ = 1 ∧ Uᵀ * U = 1 ∧ A = U * diagonal h.eigenvalues * Uᵀ := by
  refine ⟨(h.eigenvectorUnitary : Mat n n), ?_, ?_, ?_⟩
  · have := Matrix.mem_unitaryGroup_iff.mp h.eigenvectorUnitary.2
    rwa [star_eq_conjTranspose, conjTranspose_eq_transpose_of_trivial] at this
  · have := Matrix.mem_unitaryGroup_iff'.mp h.eigenvectorUnitary.2
    rwa [star_eq_conjTranspose, conjTranspose_eq_transpose_of_trivial] at this
  · have := h.spectral_theorem
    rw [Unitary.conjStarAlgAut_apply] at this
    rw [star_eq_conjTranspose, conjTranspose_eq_transpose_of_trivial] at this
    exact this

theorem quad_diag {A U : Mat n n} {d : Vec n} (hU : U * Uᵀ = 1) (hA : A = U * diagonal d * Uᵀ) (x : Vec n) :
    x ⬝ᵥ A *ᵥ x = ∑ i, d i * (Uᵀ *ᵥ x) i ^ 2 ∧ x ⬝ᵥ x = ∑ i, (Uᵀ *ᵥ x) i ^ 2 := by
  constructor
  · rw [hA, ← mulVec_mulVec, ← mulVec_mulVec, dotProduct_mulVec, ← mulVec_transpose]
    simp only [dotProduct, mulVec_diagonal]
    exact Finset.sum_congr rfl fun i _ => by ring
  · have : x ⬝ᵥ x = (Uᵀ *ᵥ x) ⬝ᵥ (Uᵀ *ᵥ x) := by
      rw [dotProduct_mulVec, vecMul_transpose, mulVec_mulVec, hU, one_mulVec]
    rw [this]
    simp only [dotProduct]
    exact Finset.sum_congr rfl fun i _ => by ring

theorem col_eig {A U : Mat n n} {d : Vec n} (hU : Uᵀ * U = 1) (hA : A = U * diagonal d * Uᵀ) (i : Fin n) :
    A *ᵥ (fun k => U k i) = d i • (fun k => U k i) ∧ (fun k => U k i) ⬝ᵥ (fun k => U k i) = 1 := by
  have e : A * U = U * diagonal d := by rw [hA, Matrix.mul_assoc, hU, Matrix.mul_one]
  constructor
  · funext k
    have := congrFun (congrFun e k) i
    rw [mul_diagonal] at this
    simp only [mulVec, dotProduct, Pi.smul_apply, smul_eq_mul]
    rw [Matrix.mul_apply] at this
    rw [this]; ring
  · have := congrFun (congrFun hU i) i
    rw [Matrix.mul_apply, one_apply_eq] at this
    exact this

theorem isTop_unique {A : Mat n n} {l l' : ℝ} {v v' : Vec n} (h : IsTop A l v) (h' : IsTop A l' v') : l = l' := by
  have h1 := h.le v'
  have h2 := h'.le v
  rw [h'.eig, dotProduct_smul, h'.unit] at h1
  rw [h.eig, dotProduct_smul, h.unit] at h2
  simp only [smul_eq_mul, mul_one] at h1 h2
  linarith

/-- The largest eigenvalue in the sense of `np.linalg.cond`. -/
theorem isTop_sup {A : Mat n n} (h : A.IsHermitian) (hn : 0 < n) : ∃ v, IsTop A (⨆ i, h.eigenvalues i) v := by
  haveI : Nonempty (Fin n) := ⟨⟨0, hn⟩⟩
  obtain ⟨U, hU, hU', hA⟩ := diag_form h
  obtain ⟨i, hi⟩ := exists_eq_ciSup_of_finite (f := h.eigenvalues)
  have hc := col_eig hU' hA i
  refine ⟨_, ⟨?_, hc.2, ?_⟩⟩
  · rw [← hi]; exact hc.1
  · intro x
    obtain ⟨q1, q2⟩ := quad_diag hU hA x
    rw [q1, q2, Finset.mul_sum]
    exact Finset.sum_le_sum fun k _ => mul_le_mul_of_nonneg_right (le_ciSup (Set.finite_range _).bddAbove k) (sq_nonneg _)

theorem isTop_inf {A : Mat n n} (h : A.IsHermitian) (hn : 0 < n) : ∃ v, IsTop (-A) (-⨅ i, h.eigenvalues i) v := by
  haveI : Nonempty (Fin n) := ⟨⟨0, hn⟩⟩
  obtain ⟨U, hU, hU', hA⟩ := diag_form h
  obtain ⟨i, hi⟩ := exists_eq_ciInf_of_finite (f := h.eigenvalues)
  have hc := col_eig hU' hA i
  refine ⟨_, ⟨?_, hc.2, ?_⟩⟩
  · rw [← hi, neg_mulVec, hc.1, neg_smul]
  · intro x
    obtain ⟨q1, q2⟩ := quad_diag hU hA x
    rw [neg_mulVec, dotProduct_neg, q1, q2, neg_mul, neg_le_neg_iff, Finset.mul_sum]
    exact Finset.sum_le_sum fun k _ => mul_le_mul_of_nonneg_right (ciInf_le (Set.finite_range _).bddBelow k) (sq_nonneg _)

/-- A simple top eigenvalue is separated from the rest of the spectrum. -/
theorem gap {A : Mat n n} (h : A.IsHermitian) {l : ℝ} {v : Vec n} (ht : IsTop A l v)
    (hs : ∀ w, A *ᵥ w = l • w → ∃ c : ℝ, w = c • v) :
    ∃ δ > 0, ∀ u : Vec n, u ⬝ᵥ v = 0 → u ⬝ᵥ A *ᵥ u ≤ (l - δ) * (u ⬝ᵥ u) := by
  obtain ⟨U, hU, hU', hA⟩ := diag_form h
  set d := h.eigenvalues
  have hle : ∀ i, d i ≤ l := by
    intro i
    have hc := col_eig hU' hA i
    have := ht.le (fun k => U k i)
    rw [hc.1, dotProduct_smul, hc.2] at this
    simpa using this
  have hδ : ∃ δ > 0, ∀ i, d i ≠ l → d i ≤ l - δ := by
    by_cases hex : ∃ i, d i ≠ l
    · obtain ⟨i0, hi0⟩ := hex
      obtain ⟨j, hj, hjm⟩ := (Finset.univ.filter fun i => d i ≠ l).exists_max_image d ⟨i0, by simp [hi0]⟩
      simp only [Finset.mem_filter, Finset.mem_univ, true_and] at hj hjm
      refine ⟨l - d j, sub_pos.mpr (lt_of_le_of_ne (hle j) hj), fun i hi => ?_⟩
      have := hjm i hi
      linarith
    · push Not at hex
      exact ⟨1, one_pos, fun i hi => absurd (hex i) hi⟩
  obtain ⟨δ, hδ0, hδ⟩ := hδ
  refine ⟨δ, hδ0, fun u hu => ?_⟩
  obtain ⟨q1, q2⟩ := quad_diag hU hA u
  rw [q1, q2, Finset.mul_sum]
  refine Finset.sum_le_sum fun i _ => ?_
  by_cases hi : d i = l
  · have hc := col_eig hU' hA i
    obtain ⟨c, hcv⟩ := hs (fun k => U k i) (by rw [hc.1, hi])
    have : (Uᵀ *ᵥ u) i = 0 := by
      have e : (Uᵀ *ᵥ u) i = (fun k => U k i) ⬝ᵥ u := rfl
      rw [e, hcv, smul_dotProduct, dotProduct_comm, hu, smul_zero]
    rw [this]; simp
  · exact mul_le_mul_of_nonneg_right (hδ i hi) (sq_nonneg _)

/-- Sum of absolute entries. -/
def ent (E : Mat n n) : ℝ := ∑ i, ∑ j, |E i j|

theorem ent_nonneg (E : Mat n n) : 0 ≤ ent E := Finset.sum_nonneg fun _ _ => Finset.sum_nonneg fun _ _ => abs_nonneg _

theorem abs_entry_le (x : Vec n) (i : Fin n) : |x i| ≤ Real.sqrt (x ⬝ᵥ x) := by
  rw [← Real.sqrt_sq_eq_abs]
  refine Real.sqrt_le_sqrt ?_
  rw [dotProduct]
  have := Finset.single_le_sum (f := fun k => x k * x k) (fun k _ => mul_self_nonneg _) (Finset.mem_univ i)
  rw [sq]; exact this

theorem bilin_le (E : Mat n n) (x y : Vec n) : |x ⬝ᵥ E *ᵥ y| ≤ ent E * (Real.sqrt (x ⬝ᵥ x) * Real.sqrt (y ⬝ᵥ y)) := by
  have e : x ⬝ᵥ E *ᵥ y = ∑ i, ∑ j, x i * (E i j * y j) := by
    simp only [dotProduct, mulVec, Finset.mul_sum]
  rw [e]
  refine (Finset.abs_sum_le_sum_abs _ _).trans ?_
  rw [ent, Finset.sum_mul]
  refine Finset.sum_le_sum fun i _ => ?_
  refine (Finset.abs_sum_le_sum_abs _ _).trans ?_
  rw [Finset.sum_mul]
  refine Finset.sum_le_sum fun j _ => ?_
  rw [abs_mul, abs_mul]
  have h1 := abs_entry_le x i
  have h2 := abs_entry_le y j
  calc |x i| * (|E i j| * |y j|) = |E i j| * (|x i| * |y j|) := by ring
    _ ≤ _ := by gcongr

/-- Perturbation of a simple top eigenvalue. -/
theorem sandwich {A B : Mat n n} (hA : Aᵀ = A) (hB : Bᵀ = B) {l μ δ : ℝ} {v w : Vec n} (hδ : 0 < δ) (ha : IsTop A l v) (hb : IsTop B μ w)
    (hg : ∀ u : Vec n, u ⬝ᵥ v = 0 → u ⬝ᵥ A *ᵥ u ≤ (l - δ) * (u ⬝ᵥ u)) (he : ent (B - A) ≤ δ / 4) :
    v ⬝ᵥ (B - A) *ᵥ v ≤ μ - l ∧ μ - l ≤ v ⬝ᵥ (B - A) *ᵥ v + 2 / δ * ent (B - A) ^ 2 := by
  have sym : ∀ (M : Mat n n), Mᵀ = M → ∀ x y : Vec n, x ⬝ᵥ M *ᵥ y = y ⬝ᵥ M *ᵥ x := by
    intro M hM x y
    rw [dotProduct_mulVec, ← mulVec_transpose, hM, dotProduct_comm]
  constructor
  · have := hb.le v
    rw [ha.unit, mul_one] at this
    rw [sub_mulVec, dotProduct_sub, ha.eig, dotProduct_smul, ha.unit]
    simp only [smul_eq_mul, mul_one]
    linarith
  · set E := B - A with hE
    set e := ent E with hedef
    have he0 : 0 ≤ e := ent_nonneg E
    set c := w ⬝ᵥ v with hc
    set u := w - c • v with hu
    have huv : u ⬝ᵥ v = 0 := by rw [hu, sub_dotProduct, smul_dotProduct, ha.unit, ← hc]; simp
    have hvu : v ⬝ᵥ u = 0 := by rw [dotProduct_comm]; exact huv
    have hw : w = c • v + u := by rw [hu]; abel
    set s := u ⬝ᵥ u with hs
    have hs0 : 0 ≤ s := by rw [hs]; exact Finset.sum_nonneg fun k _ => mul_self_nonneg _
    have hone : c ^ 2 + s = 1 := by
      have := hb.unit
      rw [hw] at this
      simp only [add_dotProduct, dotProduct_add, smul_dotProduct, dotProduct_smul, smul_eq_mul, ha.unit, huv, hvu, ← hs] at this
      linarith
    have hwA : w ⬝ᵥ A *ᵥ w ≤ l - δ * s := by
      have h1 : w ⬝ᵥ A *ᵥ w = c ^ 2 * l + u ⬝ᵥ A *ᵥ u := by
        have hvAu : v ⬝ᵥ A *ᵥ u = 0 := by rw [sym A hA, ha.eig, dotProduct_smul, huv, smul_zero]
        rw [hw]
        simp only [add_dotProduct, dotProduct_add, mulVec_add, mulVec_smul, smul_dotProduct, dotProduct_smul, smul_eq_mul, ha.eig,
          ha.unit, huv, hvAu]
        ring
      have h2 := hg u huv
      have h3 : c ^ 2 = 1 - s := by linarith
      rw [← hs] at h2
      rw [h1, h3]
      linarith
    have hET : Eᵀ = E := by rw [hE, transpose_sub, hA, hB]
    have hwE : w ⬝ᵥ E *ᵥ w = c ^ 2 * (v ⬝ᵥ E *ᵥ v) + 2 * c * (v ⬝ᵥ E *ᵥ u) + u ⬝ᵥ E *ᵥ u := by
      conv_lhs => rw [hw]
      simp only [add_dotProduct, dotProduct_add, mulVec_add, mulVec_smul, smul_dotProduct, dotProduct_smul, smul_eq_mul, sym E hET u v]
      ring
    have hμ : μ = w ⬝ᵥ A *ᵥ w + w ⬝ᵥ E *ᵥ w := by
      rw [← dotProduct_add, ← add_mulVec, hE, add_sub_cancel, hb.eig, dotProduct_smul, hb.unit]; simp
    set r := Real.sqrt s with hr
    have hr0 : 0 ≤ r := Real.sqrt_nonneg _
    have hrs : r ^ 2 = s := Real.sq_sqrt hs0
    have b1 : |v ⬝ᵥ E *ᵥ v| ≤ e := by
      have := bilin_le E v v; rw [ha.unit] at this; simpa using this
    have b2 : |v ⬝ᵥ E *ᵥ u| ≤ e * r := by
      have := bilin_le E v u; rw [ha.unit] at this; simpa using this
    have b3 : |u ⬝ᵥ E *ᵥ u| ≤ e * s := by
      have := bilin_le E u u
      rw [← hs, ← hr, ← sq, hrs] at this; exact this
    have hc1 : |c| ≤ 1 := by
      rw [← sq_le_one_iff_abs_le_one]; linarith
    have b4 : 2 * c * (v ⬝ᵥ E *ᵥ u) ≤ 2 * (e * r) := by
      have : |c * (v ⬝ᵥ E *ᵥ u)| ≤ 1 * (e * r) := by
        rw [abs_mul]; exact mul_le_mul hc1 b2 (abs_nonneg _) zero_le_one
      have := (le_abs_self _).trans this
      linarith
    have b5 : c ^ 2 * (v ⬝ᵥ E *ᵥ v) ≤ v ⬝ᵥ E *ᵥ v + e * s := by
      have h1 : c ^ 2 = 1 - s := by linarith
      have h2 : -(v ⬝ᵥ E *ᵥ v) ≤ e := (neg_le_abs _).trans b1
      rw [h1]; nlinarith
    have b6 := (le_abs_self _).trans b3
    have hfin : -δ * s + 2 * (e * s) + 2 * (e * r) ≤ 2 / δ * e ^ 2 := by
      have h1 : 2 * (e * s) ≤ δ / 2 * s := by nlinarith
      have h2 : -(δ / 2) * r ^ 2 + 2 * (e * r) ≤ 2 / δ * e ^ 2 := by
        have h3 : 0 ≤ δ / 2 * (r - 2 * e / δ) ^ 2 := by positivity
        have h4 : δ / 2 * (r - 2 * e / δ) ^ 2 = δ / 2 * r ^ 2 - 2 * (e * r) + 2 / δ * e ^ 2 := by field_simp; ring
        linarith
      rw [hrs] at h2
      linarith
    rw [hμ, hwE]
    linarith

/-- If `f` lies between two functions that agree at `t` and have the same derivative there, it has that derivative. -/
theorem hasDerivAt_squeeze {f g h : ℝ → ℝ} {g' t : ℝ} (h1 : ∀ᶠ s in nhds t, g s ≤ f s) (h2 : ∀ᶠ s in nhds t, f s ≤ h s)
    (hg : HasDerivAt g g' t) (hh : HasDerivAt h g' t) (he : g t = h t) : HasDerivAt f g' t := by
  have hft : f t = g t := le_antisymm (h2.self_of_nhds.trans_eq he.symm) h1.self_of_nhds
  rw [hasDerivAt_iff_isLittleO] at hg hh ⊢
  rw [Asymptotics.isLittleO_iff] at hg hh ⊢
  intro c hc
  filter_upwards [h1, h2, hg hc, hh hc] with s a1 a2 a3 a4
  rw [Real.norm_eq_abs, abs_le] at a3 a4 ⊢
  rw [hft]
  rw [← he] at a4
  constructor
  · linarith [a3.1]
  · linarith [a4.2]

/-- **Derivative of a simple top eigenvalue.** -/
theorem top_deriv {A : ℝ → Mat n n} {A' : Mat n n} {t : ℝ} (hA : ∀ᶠ s in nhds t, (A s)ᵀ = A s) (hd : MDeriv A A' t)
    {l : ℝ → ℝ} {v : Vec n} (hl : ∀ᶠ s in nhds t, ∃ w, IsTop (A s) (l s) w) (hv : IsTop (A t) (l t) v)
    (hs : ∀ w, A t *ᵥ w = l t • w → ∃ c : ℝ, w = c • v) : HasDerivAt l (v ⬝ᵥ A' *ᵥ v) t := by
  have hAt := hA.self_of_nhds
  obtain ⟨δ, hδ, hg⟩ := gap (by rw [IsHermitian, conjTranspose_eq_transpose_of_trivial]; exact hAt) hv hs
  have hdE : MDeriv (fun s => A s - A t) A' t := fun i j => by
    simpa using (hd i j).fun_sub (hasDerivAt_const t (A t i j))
  -- the entry sum is bounded by a differentiable function with derivative 0
  have hsq : ∀ E : Mat n n, ent E ^ 2 ≤ (n * n : ℝ) * ∑ i, ∑ j, E i j ^ 2 := by
    intro E
    have h1 : ent E ^ 2 ≤ n * ∑ i, (∑ j, |E i j|) ^ 2 := by
      have := sq_sum_le_card_mul_sum_sq (s := Finset.univ) (f := fun i => ∑ j, |E i j|)
      simpa [ent] using this
    have h2 : ∀ i, (∑ j, |E i j|) ^ 2 ≤ n * ∑ j, E i j ^ 2 := by
      intro i
      have := sq_sum_le_card_mul_sum_sq (s := Finset.univ) (f := fun j => |E i j|)
      simpa using this
    calc ent E ^ 2 ≤ n * ∑ i, (∑ j, |E i j|) ^ 2 := h1
      _ ≤ n * ∑ i, n * ∑ j, E i j ^ 2 := by gcongr with i; exact h2 i
      _ = _ := by rw [← Finset.mul_sum]; ring
  have hgd : HasDerivAt (fun s => v ⬝ᵥ (A s - A t) *ᵥ v) (v ⬝ᵥ A' *ᵥ v) t := by
    have := dot_deriv (x := fun _ => v) (x' := 0) (y := fun s => (A s - A t) *ᵥ v) (y' := A' *ᵥ v) (t := t) (fun j => hasDerivAt_const _ _)
      (fun j => by simpa using hdE.mulVec (x := fun _ => v) (x' := 0) (fun j => hasDerivAt_const _ _) j)
    simpa using this
  have hqd : HasDerivAt (fun s => ∑ i, ∑ j, (A s - A t) i j ^ 2) 0 t := by
    have : HasDerivAt (fun s => ∑ i, ∑ j, (A s - A t) i j ^ 2) (∑ i, ∑ j, (2 * (A t - A t) i j * A' i j)) t :=
      HasDerivAt.fun_sum fun i _ => HasDerivAt.fun_sum fun j _ => by simpa using (hdE i j).fun_pow 2
    simpa using this
  have hlow := (hgd.const_add (l t))
  have hup := hlow.fun_add (hqd.const_mul (2 / δ * (n * n : ℝ)))
  have hcont : ∀ᶠ s in nhds t, ent (A s - A t) ≤ δ / 4 := by
    have hq0 : ContinuousAt (fun s => (n * n : ℝ) * ∑ i, ∑ j, (A s - A t) i j ^ 2) t := (hqd.const_mul (n * n : ℝ)).continuousAt
    have h0 : (n * n : ℝ) * ∑ i, ∑ j, (A t - A t) i j ^ 2 < (δ / 4) ^ 2 := by simp; positivity
    filter_upwards [hq0.eventually_lt continuousAt_const h0] with s hs'
    exact abs_le_of_sq_le_sq' ((hsq _).trans hs'.le) (by positivity) |>.2
  refine hasDerivAt_squeeze (g := fun s => l t + v ⬝ᵥ (A s - A t) *ᵥ v)
    (h := fun s => l t + v ⬝ᵥ (A s - A t) *ᵥ v + 2 / δ * (n * n : ℝ) * ∑ i, ∑ j, (A s - A t) i j ^ 2) ?_ ?_ hlow
    (hup.congr_deriv (by ring)) (by simp)
  · filter_upwards [hA, hl, hcont] with s h1 ⟨w, h2⟩ h3
    linarith [(sandwich hAt h1 hδ hv h2 hg h3).1]
  · filter_upwards [hA, hl, hcont] with s h1 ⟨w, h2⟩ h3
    have := (sandwich hAt h1 hδ hv h2 hg h3).2
    have h4 := hsq (A s - A t)
    have h5 : 2 / δ * ent (A s - A t) ^ 2 ≤ 2 / δ * ((n * n : ℝ) * ∑ i, ∑ j, (A s - A t) i j ^ 2) := by gcongr
    linarith

/-- The top eigenvalue is Lipschitz. -/
theorem top_lip {A B : Mat n n} {l μ : ℝ} {v w : Vec n} (ha : IsTop A l v) (hb : IsTop B μ w) : |μ - l| ≤ ent (B - A) := by
  have key : ∀ {A B : Mat n n} {l μ : ℝ} {v w : Vec n}, IsTop A l v → IsTop B μ w → l - μ ≤ ent (B - A) := by
    intro A B l μ v w ha hb
    have h1 := hb.le v
    rw [ha.unit, mul_one] at h1
    have h2 := (neg_le_abs _).trans (bilin_le (B - A) v v)
    rw [ha.unit] at h2
    simp only [Real.sqrt_one, mul_one, sub_mulVec, dotProduct_sub, ha.eig, dotProduct_smul, ha.unit, smul_eq_mul] at h2
    linarith
  have hsymm : ent (A - B) = ent (B - A) := by
    unfold ent
    exact Finset.sum_congr rfl fun i _ => Finset.sum_congr rfl fun j _ => by
      rw [Matrix.sub_apply, Matrix.sub_apply, abs_sub_comm]
  rw [abs_le]
  constructor
  · linarith [key ha hb]
  · have := key hb ha
    rw [hsymm] at this
    linarith

theorem top_cont {A : ℝ → Mat n n} {t : ℝ} (hA : ∀ i j, ContinuousAt (fun s => A s i j) t) {l : ℝ → ℝ}
    (hl : ∀ᶠ s in nhds t, ∃ w, IsTop (A s) (l s) w) : ContinuousAt l t := by
  obtain ⟨v, hv⟩ := hl.self_of_nhds
  have he : Filter.Tendsto (fun s => ent (A s - A t)) (nhds t) (nhds 0) := by
    have : ContinuousAt (fun s => ent (A s - A t)) t := by
      unfold ent
      refine tendsto_finsetSum _ fun i _ => tendsto_finsetSum _ fun j _ => ?_
      exact ((hA i j).sub continuousAt_const).abs
    simpa [ent, ContinuousAt] using this
  unfold ContinuousAt
  rw [tendsto_iff_norm_sub_tendsto_zero]
  refine tendsto_of_tendsto_of_tendsto_of_le_of_le' tendsto_const_nhds he (Filter.Eventually.of_forall fun s => norm_nonneg _) ?_
  filter_upwards [hl] with s ⟨w, hw⟩
  rw [Real.norm_eq_abs]
  exact top_lip hv hw

end ED
