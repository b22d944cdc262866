import Verif.Proofs.RowBoundMa
import Verif.Proofs.CondNum
import Verif.Proofs.CovGp
import Verif.Model.WellCond
import Mathlib.Algebra.Order.Chebyshev

/-! Absolute row sums of the correlation matrix of values and gradients. -/

open Np Spec Matrix

noncomputable section

namespace GP

/-- Splitting a sum over the data vector into values and derivatives. -/
theorem sum_layout (n g dim : ℕ) (f : ℕ → ℝ) : ∑ k ∈ Finset.range (n + g * dim), f k =
    ∑ p ∈ Finset.range n, f p + ∑ i ∈ Finset.range dim, ∑ a ∈ Finset.range g, f (n + i * g + a) := by
  induction dim with
  | zero => simp
  | succ d ih =>
    rw [Finset.sum_range_succ, ← add_assoc, ← ih, Nat.mul_succ, ← Nat.add_assoc, Finset.sum_range_add]
    congr 1
    refine Finset.sum_congr rfl fun a _ => ?_
    congr 1; ring

theorem sum_gSel_le {m : Option (List Bool)} {n : ℕ} (hm : maskOk m n) {h : ℕ → ℝ} (h0 : ∀ b, 0 ≤ h b) :
    ∑ a ∈ Finset.range (gN m n), h (gSel m a) ≤ ∑ b ∈ Finset.range n, h b := by
  have hinj : Set.InjOn (gSel m) (Finset.range (gN m n)) := by
    intro a ha b hb hab
    rw [Finset.coe_range, Set.mem_Iio] at ha hb
    cases m with
    | none => exact hab
    | some l => exact sel_injective ha hb hab
  rw [← Finset.sum_image hinj]
  refine Finset.sum_le_sum_of_subset_of_nonneg ?_ fun b _ _ => h0 b
  intro b hb
  obtain ⟨a, ha, rfl⟩ := Finset.mem_image.mp hb
  exact Finset.mem_range.mpr (gSel_lt hm (Finset.mem_range.mp ha))

/-- Cauchy-Schwarz for a sum of nonnegative numbers. -/
theorem sum_le_sqrt {s : Finset ℕ} (u : ℕ → ℝ) : ∑ j ∈ s, u j ≤ Real.sqrt s.card * Real.sqrt (∑ j ∈ s, u j ^ 2) := by
  rw [← Real.sqrt_mul (by positivity)]
  apply Real.le_sqrt_of_sq_le
  exact sq_sum_le_card_mul_sum_sq

/-- Standard deviation of a datum under the unit-variance prior. -/
def gam (γ : ℕ → ℝ) : Option ℕ → ℝ
  | none => 1
  | some i => γ i

/-- The bound on the block of a row: `ub/(n-1)` in `calc_nugget`. -/
def pairM (k : KType) (d : ℝ) : ℝ :=
  match k with
  | .sqExp | .ratQuad => RB.seM d
  | .matern => RB.maM d

theorem preconUb_eq (k : KType) (n d : ℕ) : preconUb k n d = ((n : ℝ) - 1) * pairM k d := by
  cases k
  · simp only [preconUb, pairM, RB.seM]; norm_num; ring
  · simp only [preconUb, pairM, RB.maM, RB.maAl]; ring
  · simp only [preconUb, pairM, RB.seM]; norm_num; ring

/-- One block of a row, in terms of normalised differences. -/
theorem block_row {φ φ1 φ2 : ℝ → ℝ} {c0 : ℝ} (hc : 0 < c0) {dim : ℕ} {θ γ r : ℕ → ℝ} (hγ : ∀ j < dim, 0 < γ j)
    (hθ : ∀ j < dim, γ j ^ 2 = 2 * c0 * θ j) {P P1 P2 M : ℝ} (hP : φ (ssq dim θ r) = P) (hP0 : 0 ≤ P)
    (hP1 : φ1 (ssq dim θ r) = -(c0 * P1)) (hP10 : 0 ≤ P1) (hP2 : φ2 (ssq dim θ r) = c0 ^ 2 * P2) (hP20 : 0 ≤ P2)
    (hval : ∀ S, S ≤ Real.sqrt dim * Real.sqrt (2 * c0 * ssq dim θ r) → P + P1 * S ≤ M)
    (hgrad : ∀ a b, 0 ≤ a → 0 ≤ b → a ^ 2 + b ^ 2 = 2 * c0 * ssq dim θ r →
      a * P1 + |P1 - a ^ 2 * P2| + a * (Real.sqrt ((dim : ℝ) - 1) * b) * P2 ≤ M)
    (ox : Option ℕ) (hox : ∀ i ∈ ox, i < dim) :
    |radKG φ φ1 φ2 dim θ r ox none| / (gam γ ox * 1) +
      ∑ j ∈ Finset.range dim, |radKG φ φ1 φ2 dim θ r ox (some j)| / (gam γ ox * γ j) ≤ M := by
  set u : ℕ → ℝ := fun j => γ j * |r j| with hu
  have hu0 : ∀ j < dim, 0 ≤ u j := fun j hj => mul_nonneg (hγ j hj).le (abs_nonneg _)
  have huu : ∑ j ∈ Finset.range dim, u j ^ 2 = 2 * c0 * ssq dim θ r := by
    unfold ssq
    rw [Finset.mul_sum]
    refine Finset.sum_congr rfl fun j hj => ?_
    rw [hu]; simp only [mul_pow, sq_abs, hθ j (Finset.mem_range.mp hj)]; ring
  have h2θ : ∀ j < dim, 0 ≤ θ j := by
    intro j hj
    have h1 := hθ j hj
    have h2 : 0 ≤ γ j ^ 2 := sq_nonneg _
    rw [h1] at h2
    exact nonneg_of_mul_nonneg_right h2 (by linarith)
  -- |2 θ_j r_j φ1| / γ_j = u_j P1
  have hfirst : ∀ j < dim, |2 * θ j * r j * φ1 (ssq dim θ r)| / γ j = u j * P1 := by
    intro j hj
    have hg := hγ j hj
    rw [hP1, abs_mul, abs_mul, abs_mul, abs_neg, abs_mul, abs_of_pos hc, abs_of_nonneg hP10, abs_of_nonneg (h2θ j hj),
      abs_of_pos (by norm_num : (0 : ℝ) < 2), div_eq_iff hg.ne', hu]
    linear_combination (-(|r j| * P1)) * hθ j hj
  match ox with
  | none =>
    simp only [radKG, gam, mul_one, div_one, one_mul, abs_neg]
    rw [hP, abs_of_nonneg hP0]
    rw [Finset.sum_congr rfl fun j hj => hfirst j (Finset.mem_range.mp hj)]
    rw [← Finset.sum_mul, mul_comm _ P1]
    apply hval
    have := sum_le_sqrt (s := Finset.range dim) u
    rwa [Finset.card_range, huu] at this
  | some i =>
    have hi : i < dim := hox i rfl
    have him : i ∈ Finset.range dim := Finset.mem_range.mpr hi
    have hgi := hγ i hi
    simp only [radKG, gam, mul_one]
    rw [hfirst i hi]
    have hsec : ∀ j < dim, j ≠ i → |-(2 * θ i * kron i j * φ1 (ssq dim θ r)) - 4 * θ i * θ j * r i * r j * φ2 (ssq dim θ r)| /
        (γ i * γ j) = u i * P2 * u j := by
      intro j hj hji
      have hgj := hγ j hj
      rw [kron_ne (Ne.symm hji), hP2]
      have e : -(2 * θ i * 0 * φ1 (ssq dim θ r)) - 4 * θ i * θ j * r i * r j * (c0 ^ 2 * P2) =
          -((2 * c0 * θ i) * (2 * c0 * θ j) * (r i * r j) * P2) := by ring
      rw [e, ← hθ i hi, ← hθ j hj, abs_neg, abs_mul, abs_mul, abs_mul, abs_of_nonneg hP20, abs_of_nonneg (sq_nonneg (γ i)),
        abs_of_nonneg (sq_nonneg (γ j)), abs_mul, hu]
      field_simp
    have hdiag : |-(2 * θ i * kron i i * φ1 (ssq dim θ r)) - 4 * θ i * θ i * r i * r i * φ2 (ssq dim θ r)| / (γ i * γ i) =
        |P1 - u i ^ 2 * P2| := by
      rw [kron_self, hP1, hP2]
      have e : -(2 * θ i * 1 * -(c0 * P1)) - 4 * θ i * θ i * r i * r i * (c0 ^ 2 * P2) =
          (γ i * γ i) * (P1 - u i ^ 2 * P2) := by
        rw [hu]; simp only [mul_pow, sq_abs]
        have h := hθ i hi
        linear_combination (-P1 + P2 * (r i) ^ 2 * (γ i ^ 2 + 2 * c0 * θ i)) * h
      rw [e, abs_mul, abs_of_pos (by positivity : 0 < γ i * γ i)]
      field_simp
    rw [← Finset.add_sum_erase _ _ him, hdiag, Finset.sum_congr rfl fun j hj =>
      hsec j (Finset.mem_range.mp (Finset.mem_of_mem_erase hj)) (Finset.ne_of_mem_erase hj), ← Finset.mul_sum]
    have hT0 : 0 ≤ ∑ j ∈ (Finset.range dim).erase i, u j ^ 2 := Finset.sum_nonneg fun j _ => sq_nonneg _
    set b := Real.sqrt (∑ j ∈ (Finset.range dim).erase i, u j ^ 2) with hb
    have hbb : u i ^ 2 + b ^ 2 = 2 * c0 * ssq dim θ r := by
      rw [hb, Real.sq_sqrt hT0, ← huu, ← Finset.add_sum_erase _ _ him]
    have hS := sum_le_sqrt (s := (Finset.range dim).erase i) u
    rw [Finset.card_erase_of_mem him, Finset.card_range, ← hb, Nat.cast_sub (by omega), Nat.cast_one] at hS
    have := hgrad (u i) b (hu0 i hi) (Real.sqrt_nonneg _) hbb
    have h1 := mul_le_mul_of_nonneg_left hS (mul_nonneg (hu0 i hi) hP20)
    linarith

theorem gamma_sq (k : KType) {t : ℝ} (ht : 0 ≤ t) :
    theta2gamma k t ^ 2 = 2 * (match k with | .matern => 5 / 6 | _ => 1) * t := by
  cases k <;> simp only [theta2gamma, sqExpTheta2gamma, maternTheta2gamma, ratQuadTheta2gamma] <;>
    rw [Real.sq_sqrt (by positivity)] <;> ring

/-- One block of a row is bounded by `pairM`, for every kernel, difference and hyperparameters. -/
theorem pair_row (k : KType) {α : ℝ} (hα : 0 < α) {dim : ℕ} (hd : 0 < dim) {θ : ℕ → ℝ} (hθ : ∀ j < dim, 0 < θ j) (r : ℕ → ℝ)
    (ox : Option ℕ) (hox : ∀ i ∈ ox, i < dim) :
    |radKG (prφ k α) (prφ1 k α) (prφ2 k α) dim θ r ox none| / (gam (fun j => theta2gamma k (θ j)) ox * 1) +
      ∑ j ∈ Finset.range dim, |radKG (prφ k α) (prφ1 k α) (prφ2 k α) dim θ r ox (some j)| /
        (gam (fun j => theta2gamma k (θ j)) ox * theta2gamma k (θ j)) ≤ pairM k dim := by
  have hd1 : (1 : ℝ) ≤ dim := by exact_mod_cast hd
  have hs : 0 ≤ ssq dim θ r := ssq_nonneg (fun d hd => (hθ d hd).le) r
  have hγ : ∀ j < dim, 0 < (fun j => theta2gamma k (θ j)) j := fun j hj => gamma_pos k (hθ j hj)
  cases k with
  | sqExp =>
    refine block_row (c0 := 1) one_pos hγ (fun j hj => gamma_sq .sqExp (hθ j hj).le) (P := Real.exp (-ssq dim θ r))
      (P1 := Real.exp (-ssq dim θ r)) (P2 := Real.exp (-ssq dim θ r)) rfl (Real.exp_pos _).le
      (by simp [prφ1, seφ1]) (Real.exp_pos _).le (by simp [prφ2, seφ2]) (Real.exp_pos _).le ?_ ?_ ox hox
    · intro S hS
      set U := Real.sqrt (2 * 1 * ssq dim θ r) with hU
      have hUU : U ^ 2 = 2 * 1 * ssq dim θ r := Real.sq_sqrt (by linarith)
      have h := RB.se_max (by linarith : (0 : ℝ) < dim) U (Real.sqrt_nonneg _)
      rw [show -U ^ 2 / 2 = -ssq dim θ r by rw [hUU]; ring] at h
      have := mul_le_mul_of_nonneg_left hS (Real.exp_pos (-ssq dim θ r)).le
      show _ ≤ RB.seM dim
      linarith
    · intro a b ha hb hab
      have h := RB.se_grad hd1 ha hb
      rw [show -(a ^ 2 + b ^ 2) / 2 = -ssq dim θ r by rw [hab]; ring] at h
      refine le_trans (le_of_eq ?_) h
      rw [show Real.exp (-ssq dim θ r) - a ^ 2 * Real.exp (-ssq dim θ r) = (1 - a ^ 2) * Real.exp (-ssq dim θ r) by ring,
        abs_mul, abs_of_pos (Real.exp_pos _)]
      ring
  | matern =>
    set U := Real.sqrt (2 * (5 / 6) * ssq dim θ r) with hU
    have hU0 : 0 ≤ U := Real.sqrt_nonneg _
    have hUU : U ^ 2 = 2 * (5 / 6) * ssq dim θ r := Real.sq_sqrt (by linarith)
    have h53 : Real.sqrt 5 * Real.sqrt (ssq dim θ r) = Real.sqrt 3 * U := by
      rw [hU, ← Real.sqrt_mul (by norm_num), ← Real.sqrt_mul (by norm_num)]
      congr 1; ring
    have hss : Real.sqrt (ssq dim θ r) ^ 2 = ssq dim θ r := Real.sq_sqrt hs
    have h3 : 0 < Real.sqrt 3 := by positivity
    have hE : Real.exp (-Real.sqrt 5 * Real.sqrt (ssq dim θ r)) = Real.exp (-Real.sqrt 3 * U) := by
      congr 1; rw [neg_mul, h53, neg_mul]
    have hE0 := Real.exp_pos (-Real.sqrt 3 * U)
    refine block_row (c0 := 5 / 6) (by norm_num) hγ (fun j hj => gamma_sq .matern (hθ j hj).le)
      (P := (1 + Real.sqrt 3 * U + U ^ 2) * Real.exp (-Real.sqrt 3 * U))
      (P1 := (1 + Real.sqrt 3 * U) * Real.exp (-Real.sqrt 3 * U)) (P2 := 3 * Real.exp (-Real.sqrt 3 * U))
      ?_ (by positivity) ?_ (by positivity) ?_ (by positivity) ?_ ?_ ox hox
    · simp only [prφ, maφ]; rw [hE, h53, hss, hUU]; congr 1; ring
    · simp only [prφ1, maφ1]; rw [hE, h53]; ring
    · simp only [prφ2, maφ2]; rw [hE]; ring
    · intro S hS
      have h := RB.ma_val hd1 hU0 hS
      refine le_trans (le_of_eq ?_) h
      ring
    · intro a b ha hb hab
      have hu : U = Real.sqrt (a ^ 2 + b ^ 2) := by rw [hab]
      have h := RB.ma_grad hd1 ha hb hu
      refine le_trans (le_of_eq ?_) h
      rw [show (1 + Real.sqrt 3 * U) * Real.exp (-Real.sqrt 3 * U) - a ^ 2 * (3 * Real.exp (-Real.sqrt 3 * U)) =
        (1 + Real.sqrt 3 * U - 3 * a ^ 2) * Real.exp (-Real.sqrt 3 * U) by ring, abs_mul, abs_of_pos hE0]
      ring
  | ratQuad =>
    have hp : 0 < 1 + ssq dim θ r / α := rq_base_pos hα hs
    refine block_row (c0 := 1) one_pos hγ (fun j hj => gamma_sq .ratQuad (hθ j hj).le)
      (P := (1 + ssq dim θ r / α) ^ (-α)) (P1 := (1 + ssq dim θ r / α) ^ (-α - 1))
      (P2 := (1 + 1 / α) * (1 + ssq dim θ r / α) ^ (-α - 2)) rfl (Real.rpow_nonneg hp.le _)
      (by simp [prφ1, rqφ1]) (Real.rpow_nonneg hp.le _) (by simp [prφ2, rqφ2])
      (mul_nonneg (by positivity) (Real.rpow_nonneg hp.le _)) ?_ ?_ ox hox
    · intro S hS
      set U := Real.sqrt (2 * 1 * ssq dim θ r) with hU
      have hUU : U ^ 2 = 2 * 1 * ssq dim θ r := Real.sq_sqrt (by linarith)
      have h := RB.rq_val hα hd1 (Real.sqrt_nonneg (2 * 1 * ssq dim θ r))
      rw [← hU, show 1 + U ^ 2 / (2 * α) = 1 + ssq dim θ r / α by rw [hUU]; field_simp] at h
      have := mul_le_mul_of_nonneg_left hS (Real.rpow_nonneg hp.le (-α - 1))
      show _ ≤ RB.seM dim
      linarith
    · intro a b ha hb hab
      exact RB.rq_grad hα hd1 ha hb (p := 1 + ssq dim θ r / α) (by rw [hab]; field_simp)

/-- The row of a point with itself. -/
theorem self_row (k : KType) {α : ℝ} (hα : 0 < α) {dim : ℕ} {θ : ℕ → ℝ} (hθ : ∀ j < dim, 0 < θ j) {r : ℕ → ℝ}
    (hr : ∀ d, r d = 0) (ox : Option ℕ) (hox : ∀ i ∈ ox, i < dim) :
    |radKG (prφ k α) (prφ1 k α) (prφ2 k α) dim θ r ox none| / (gam (fun j => theta2gamma k (θ j)) ox * 1) +
      ∑ j ∈ Finset.range dim, |radKG (prφ k α) (prφ1 k α) (prφ2 k α) dim θ r ox (some j)| /
        (gam (fun j => theta2gamma k (θ j)) ox * theta2gamma k (θ j)) = 1 := by
  have hs : ssq dim θ r = 0 := by simp [ssq, hr]
  match ox with
  | none => simp [radKG, hr, hs, gam, Props.prφ_zero k α]
  | some i =>
    have hi : i < dim := hox i rfl
    have him : i ∈ Finset.range dim := Finset.mem_range.mpr hi
    have hg := gamma_pos k (hθ i hi)
    simp only [radKG, hr, hs, gam]
    rw [← Finset.add_sum_erase _ _ him, Finset.sum_eq_zero]
    · simp only [kron_self]
      have h1 := gamma_sq k (hθ i hi).le
      have h2 : -(2 * θ i * 1 * prφ1 k α 0) = theta2gamma k (θ i) * theta2gamma k (θ i) := by
        rw [← sq, h1]
        cases k <;> simp [prφ1, seφ1, maφ1, rqφ1] <;> ring
      have h3 : -(2 * θ i * 1 * prφ1 k α 0) - 4 * θ i * θ i * 0 * 0 * prφ2 k α 0 = theta2gamma k (θ i) * theta2gamma k (θ i) := by
        rw [h2]; ring
      rw [h3, abs_of_pos (mul_pos hg hg), div_self (mul_pos hg hg).ne']
      simp
    · intro j hj
      rw [kron_ne (Finset.ne_of_mem_erase hj).symm]
      simp

/-- The entries of the prior covariance matrix of an object, by symbolic position. -/
theorem kern_entry {g : Gp} {hp : HpVals} {K : Mat g.nData g.nData} (hK : IsKern g hp K) {th : Arr1}
    (ht : hp.theta = some th) (hpos : ∀ d < g.dim, 0 ≤ th.get d) {α : ℝ} (hα : 0 < α)
    (hkern : kernOf g.kernel hp.kernel g.dim th = kern g.kernel α g.dim th.get) {x y : Ix}
    (hx : x.ok g.nEval g.nGrad g.dim) (hy : y.ok g.nEval g.nGrad g.dim) {i j : Fin g.nData}
    (hi : x.pos g.nEval g.nGrad = i) (hj : y.pos g.nEval g.nGrad = j) :
    K i j = radKG (prφ g.kernel α) (prφ1 g.kernel α) (prφ2 g.kernel α) g.dim th.get
      (fun d => g.x.get (x.pt g.bvec) d - g.x.get (y.pt g.bvec) d) x.coord y.coord := by
  obtain ⟨A, hA, hAK⟩ := hK
  have hk : gpKern g hp = radial (prφ g.kernel α) g.dim th.get := by
    simp only [gpKern, ht, Option.getD_some, hkern, kern_eq]
  rw [hk] at hA
  have hcov := radKG_isCov (prProfile g.kernel hα) hpos (g.x.get (x.pt g.bvec)) (g.x.get (y.pt g.bvec)) x.coord y.coord
    (Ix.coord_lt hx) (Ix.coord_lt hy)
  rw [hAK, ← hi, ← hj]
  cases x with
  | v p =>
    cases y with
    | v q => exact (hA.val_val p hx q hy).trans hcov.symm
    | g j b => exact (hA.val_der p hx j hy.1 b hy.2).unique hcov
  | g i a =>
    cases y with
    | v q => exact (hA.der_val i hx.1 a hx.2 q hy).unique hcov
    | g j b => exact (hA.der_der i hx.1 a hx.2 j hy.1 b hy.2).unique hcov

/-- The diagonal. -/
theorem kern_diag {g : Gp} {hp : HpVals} {K : Mat g.nData g.nData} (hK : IsKern g hp K) {th : Arr1}
    (ht : hp.theta = some th) (hpos : ∀ d < g.dim, 0 < th.get d) {α : ℝ} (hα : 0 < α)
    (hkern : kernOf g.kernel hp.kernel g.dim th = kern g.kernel α g.dim th.get) {x : Ix}
    (hx : x.ok g.nEval g.nGrad g.dim) {i : Fin g.nData} (hi : x.pos g.nEval g.nGrad = i) :
    Real.sqrt (K i i) = gam (fun j => theta2gamma g.kernel (th.get j)) x.coord := by
  rw [kern_entry hK ht (fun d hd => (hpos d hd).le) hα hkern hx hx hi hi]
  have hs : ssq g.dim th.get (fun d => g.x.get (x.pt g.bvec) d - g.x.get (x.pt g.bvec) d) = 0 := by simp [ssq]
  cases x with
  | v p => simp only [Ix.coord_v, radKG, hs, gam]; rw [Props.prφ_zero, Real.sqrt_one]
  | g j a =>
    have hs0 : ssq g.dim th.get (fun _ => (0 : ℝ)) = 0 := by simp [ssq]
    simp only [Ix.coord_g, radKG, gam, kron_self, sub_self, hs0]
    have hg := gamma_pos g.kernel (hpos j hx.1)
    have h1 := gamma_sq g.kernel (hpos j hx.1).le
    have h2 : -(2 * th.get j * 1 * prφ1 g.kernel α 0) - 4 * th.get j * th.get j * 0 * 0 * prφ2 g.kernel α 0 =
        theta2gamma g.kernel (th.get j) ^ 2 := by
      rw [h1]
      cases g.kernel <;> simp [prφ1, seφ1, maφ1, rqφ1] <;> ring
    rw [h2, Real.sqrt_sq hg.le]

/-- Absolute row sums of the prior correlation matrix of values and gradients. -/
theorem corr_rowsum {g : Gp} (hg : GpOk g) {hp : HpVals} (hh : HpAdm g hp) (hu : g.useGrad = true) (hd : 0 < g.dim)
    {K : Mat g.nData g.nData} (hK : IsKern g hp K) (i : Fin g.nData) :
    ∑ j, |corr K i j| ≤ 1 + ((g.nEval : ℝ) - 1) * pairM g.kernel g.dim := by
  obtain ⟨th, ht, -, hpos⟩ := hh.theta
  obtain ⟨α, hα, e1, -⟩ := Props.hp_elim hh.kernel
  have hkern : kernOf g.kernel hp.kernel g.dim th = kern g.kernel α g.dim th.get := by rw [e1]
  have hng : g.nGrad = gN g.bvec g.nEval := by rw [hg.nGrad]; simp [hu]
  obtain ⟨x, hx, hxi⟩ := Ix.pos_surj (n := g.nEval) (g := g.nGrad) (dim := g.dim) (p := i) (by rw [← hg.nData]; exact i.2)
  set γ : ℕ → ℝ := fun j => theta2gamma g.kernel (th.get j) with hγ
  set a := x.pt g.bvec with ha
  have hx' : x.ok g.nEval (gN g.bvec g.nEval) g.dim := by rw [← hng]; exact hx
  have han : a < g.nEval := Ix.pt_lt hg.mask hx'
  have hox := Ix.coord_lt hx
  -- normalised entry with the datum `oy` at point `b`
  set N : ℕ → Option ℕ → ℝ := fun b oy => |radKG (prφ g.kernel α) (prφ1 g.kernel α) (prφ2 g.kernel α) g.dim th.get
    (fun d => g.x.get a d - g.x.get b d) x.coord oy| / (gam γ x.coord * gam γ oy) with hN
  have hγp : ∀ oy : Option ℕ, (∀ j ∈ oy, j < g.dim) → 0 < gam γ oy := by
    intro oy hoy
    cases oy with
    | none => exact one_pos
    | some j => exact gamma_pos g.kernel (hpos j (hoy j rfl))
  have hent : ∀ y : Ix, y.ok g.nEval g.nGrad g.dim → ∀ j : Fin g.nData, y.pos g.nEval g.nGrad = j →
      |corr K i j| = N (y.pt g.bvec) y.coord := by
    intro y hy j hj
    simp only [corr, of_apply, hN]
    rw [kern_diag hK ht hpos hα hkern hx hxi, kern_diag hK ht hpos hα hkern hy hj,
      kern_entry hK ht (fun d hd => (hpos d hd).le) hα hkern hx hy hxi hj, abs_div,
      abs_of_pos (mul_pos (hγp _ hox) (hγp _ (Ix.coord_lt hy)))]
  have hN0 : ∀ b i, i < g.dim → 0 ≤ N b (some i) := fun b i hi =>
    div_nonneg (abs_nonneg _) (mul_pos (hγp _ hox) (hγp (some i) (by intro j hj; simp at hj; omega))).le
  -- the sum, split
  have hsum : ∑ j, |corr K i j| = ∑ p ∈ Finset.range g.nEval, N p none +
      ∑ j ∈ Finset.range g.dim, ∑ b ∈ Finset.range g.nGrad, N (gSel g.bvec b) (some j) := by
    set f : ℕ → ℝ := fun q => if h : q < g.nData then |corr K i ⟨q, h⟩| else 0 with hf
    have h1 : ∑ j, |corr K i j| = ∑ q ∈ Finset.range g.nData, f q := by
      rw [Finset.sum_range]
      exact Finset.sum_congr rfl fun j _ => by simp [hf]
    rw [h1, hg.nData, sum_layout]
    congr 1
    · refine Finset.sum_congr rfl fun p hp => ?_
      have hp' := Finset.mem_range.mp hp
      have hlt : p < g.nData := by rw [hg.nData]; omega
      simp only [hf, hlt, dif_pos]
      exact hent (.v p) hp' ⟨p, hlt⟩ rfl
    · refine Finset.sum_congr rfl fun j hj => Finset.sum_congr rfl fun b hb => ?_
      have hok : (Ix.g j b).ok g.nEval g.nGrad g.dim := ⟨Finset.mem_range.mp hj, Finset.mem_range.mp hb⟩
      have hlt : g.nEval + j * g.nGrad + b < g.nData := by rw [hg.nData]; exact Ix.pos_lt hok
      simp only [hf, hlt, dif_pos]
      exact hent (.g j b) hok ⟨_, hlt⟩ rfl
  have hle : ∑ j, |corr K i j| ≤ ∑ b ∈ Finset.range g.nEval, (N b none + ∑ j ∈ Finset.range g.dim, N b (some j)) := by
    rw [hsum, Finset.sum_add_distrib]
    refine add_le_add le_rfl ?_
    rw [Finset.sum_comm (s := Finset.range g.dim), hng]
    exact sum_gSel_le hg.mask (h := fun b => ∑ j ∈ Finset.range g.dim, N b (some j))
      (fun b => Finset.sum_nonneg fun j hj => hN0 b j (Finset.mem_range.mp hj))
  refine hle.trans ?_
  have ham : a ∈ Finset.range g.nEval := Finset.mem_range.mpr han
  rw [← Finset.add_sum_erase _ _ ham]
  have hself : N a none + ∑ j ∈ Finset.range g.dim, N a (some j) = 1 :=
    self_row g.kernel hα hpos (r := fun d => g.x.get a d - g.x.get a d) (fun d => sub_self _) x.coord hox
  rw [hself]
  refine add_le_add le_rfl ?_
  have hcard : ((Finset.range g.nEval).erase a).card = g.nEval - 1 := by
    rw [Finset.card_erase_of_mem ham, Finset.card_range]
  calc _ ≤ ∑ b ∈ (Finset.range g.nEval).erase a, pairM g.kernel g.dim :=
        Finset.sum_le_sum fun b _ => pair_row g.kernel hα hd hpos _ x.coord hox
    _ = _ := by rw [Finset.sum_const, hcard, nsmul_eq_mul, Nat.cast_sub (by omega), Nat.cast_one]

/-- Noise only shrinks the correlations. -/
theorem corr_kwn_le {n : ℕ} {v : ℝ} (hv : 0 < v) {K : Mat n n} {N : Vec n} (hd : ∀ i, 0 < K i i) (hN : ∀ i, 0 ≤ N i)
    (i j : Fin n) : |corr (kwn v K N) i j| ≤ |corr K i j| := by
  have hkd : ∀ i, K i i ≤ kwn v K N i i := by
    intro i
    simp only [kwn, Matrix.add_apply, diagonal_apply_eq]
    have : 0 ≤ N i / v := div_nonneg (hN i) hv.le
    linarith
  by_cases hij : i = j
  · subst hij
    rw [corr_diag hd, corr_diag fun i => (hd i).trans_le (hkd i)]
  · have e : kwn v K N i j = K i j := by simp [kwn, diagonal_apply_ne _ hij]
    simp only [corr, of_apply, e]
    rw [abs_div, abs_div]
    have h1 := Real.sqrt_pos.mpr (hd i)
    have h2 := Real.sqrt_pos.mpr (hd j)
    have h3 := Real.sqrt_le_sqrt (hkd i)
    have h4 := Real.sqrt_le_sqrt (hkd j)
    rw [abs_of_pos (mul_pos h1 h2), abs_of_pos (mul_pos (h1.trans_le h3) (h2.trans_le h4))]
    exact div_le_div_of_nonneg_left (abs_nonneg _) (mul_pos h1 h2) (mul_le_mul h3 h4 h2.le (h1.le.trans h3))

theorem corr_posSemidef {n : ℕ} {A : Mat n n} (hA : A.PosSemidef) : (corr A).PosSemidef := by
  rw [← corr_eq (A := A) (fun i => Real.sqrt (A i i)) (fun i => rfl)]
  have := hA.mul_mul_conjTranspose_same (diagonal fun i => 1 / Real.sqrt (A i i))
  simpa [conjT_eq, diagonal_transpose] using this

theorem kwn_posSemidef {n : ℕ} {v : ℝ} (hv : 0 < v) {K : Mat n n} {N : Vec n} (hK : K.PosSemidef) (hN : ∀ i, 0 ≤ N i) :
    (kwn v K N).PosSemidef :=
  hK.add (Matrix.PosSemidef.diagonal fun i => div_nonneg (hN i) hv.le)

end GP
