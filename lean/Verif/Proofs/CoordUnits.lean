import Verif.Spec.CoordUnitsSpec
import Verif.Proofs.Coord

/-! Other units of the coordinates: rows and columns of the covariance matrix are multiplied by factors. -/

open Np Spec Matrix

noncomputable section

namespace GP

section
variable {n k : ℕ} {s : Vec n} (hs : ∀ i, s i ≠ 0)
include hs

theorem sc_det0 : (diagonal s : Mat n n).det ≠ 0 := by
  rw [det_diagonal]
  exact Finset.prod_ne_zero_iff.mpr fun i _ => hs i

theorem sc_diag : diagonal (fun i => (s i)⁻¹) * diagonal s = (1 : Mat n n) := by
  rw [diagonal_mul_diagonal]
  simp only [inv_mul_cancel₀ (hs _)]
  exact diagonal_one

theorem sc_vec (u : Vec n) : diagonal (fun i => (s i)⁻¹) *ᵥ (diagonal s *ᵥ u) = u := by
  rw [mulVec_mulVec, sc_diag hs, one_mulVec]

theorem sc_inv {K : Mat n n} (hd : K.det ≠ 0) : (signed s K)⁻¹ = signed (fun i => (s i)⁻¹) K⁻¹ := by
  apply Matrix.inv_eq_left_inv
  rw [signed_eq, signed_eq]
  calc diagonal (fun i => (s i)⁻¹) * K⁻¹ * diagonal (fun i => (s i)⁻¹) * (diagonal s * K * diagonal s)
      = diagonal (fun i => (s i)⁻¹) * K⁻¹ * (diagonal (fun i => (s i)⁻¹) * diagonal s) * K * diagonal s := by simp only [Matrix.mul_assoc]
    _ = diagonal (fun i => (s i)⁻¹) * (K⁻¹ * K) * diagonal s := by rw [sc_diag hs, Matrix.mul_one]; simp only [Matrix.mul_assoc]
    _ = 1 := by rw [nonsing_inv_mul _ (isUnit_iff_ne_zero.mpr hd), Matrix.mul_one, sc_diag hs]

theorem sc_dot (u r : Vec n) : (diagonal s *ᵥ u) ⬝ᵥ (diagonal (fun i => (s i)⁻¹) *ᵥ r) = u ⬝ᵥ r := by
  simp only [dotProduct, mulVec_diagonal]
  refine Finset.sum_congr rfl fun i _ => ?_
  have := hs i
  field_simp

theorem sc_solve {M : Mat n n} (hd : M.det ≠ 0) (r : Vec n) : (signed s M)⁻¹ *ᵥ (diagonal s *ᵥ r) = diagonal (fun i => (s i)⁻¹) *ᵥ (M⁻¹ *ᵥ r) := by
  rw [sc_inv hs hd, signed_eq, ← mulVec_mulVec, sc_vec hs, mulVec_mulVec]

theorem sc_quad {M : Mat n n} (hd : M.det ≠ 0) (u r : Vec n) :
    (diagonal s *ᵥ u) ⬝ᵥ (signed s M)⁻¹ *ᵥ (diagonal s *ᵥ r) = u ⬝ᵥ M⁻¹ *ᵥ r := by
  rw [sc_solve hs hd, sc_dot hs]

omit hs in
theorem sc_det (K : Mat n n) : (signed s K).det = (∏ i, s i) ^ 2 * K.det := by
  rw [signed_eq, det_mul, det_mul, det_diagonal]; ring

theorem sc_posDef {K : Mat n n} (h : K.PosDef) : (signed s K).PosDef := by
  have := h.conjTranspose_mul_mul_same (B := diagonal s) (mulVec_injective_iff_isUnit.mpr ((isUnit_iff_isUnit_det _).mpr (sc_det0 hs).isUnit))
  rw [diagonal_conjTranspose] at this
  rw [signed_eq]
  simpa using this

theorem sc_gls {K : Mat n n} (hd : K.det ≠ 0) (V : Mat n k) (y : Vec n) : gls (signed s K) (diagonal s * V) (diagonal s *ᵥ y) = gls K V y := by
  have e1 : ∀ W : Mat n k, (signed s K)⁻¹ * (diagonal s * W) = diagonal (fun i => (s i)⁻¹) * (K⁻¹ * W) := fun W => by
    rw [sc_inv hs hd, signed_eq, Matrix.mul_assoc, ← Matrix.mul_assoc (diagonal fun i => (s i)⁻¹) (diagonal s) W, sc_diag hs, Matrix.one_mul, Matrix.mul_assoc]
  have hc : diagonal s * diagonal (fun i => (s i)⁻¹) = (1 : Mat n n) := by
    rw [diagonal_mul_diagonal]
    simp only [mul_inv_cancel₀ (hs _)]
    exact diagonal_one
  have e2 : (diagonal s * V)ᵀ = Vᵀ * diagonal s := by rw [transpose_mul, diagonal_transpose]
  unfold gls
  rw [e1, e2, sc_solve hs hd, Matrix.mul_assoc, ← Matrix.mul_assoc (diagonal s) (diagonal _), hc, Matrix.one_mul,
    ← mulVec_mulVec, mulVec_mulVec _ (diagonal s), hc, one_mulVec]

theorem sc_rss {K : Mat n n} (hd : K.det ≠ 0) (V : Mat n k) (y : Vec n) : rss (signed s K) (diagonal s * V) (diagonal s *ᵥ y) = rss K V y := by
  unfold rss
  rw [sc_gls hs hd, ← mulVec_mulVec, ← mulVec_sub]
  unfold maha
  exact sc_quad hs hd _ _

theorem sgn_sq (i : Fin n) : s i / |s i| * (s i / |s i|) = 1 := by
  have : |s i| ≠ 0 := abs_ne_zero.mpr (hs i)
  rw [div_mul_div_comm, abs_mul_abs_self, div_self (mul_ne_zero (hs i) (hs i))]

theorem sc_corr (A : Mat n n) : corr (signed s A) = signed (fun i => s i / |s i|) (corr A) := by
  ext i j
  simp only [corr, of_apply, signed]
  rw [Real.sqrt_mul (mul_self_nonneg _), Real.sqrt_mul (mul_self_nonneg _), Real.sqrt_mul_self_eq_abs, Real.sqrt_mul_self_eq_abs]
  rw [div_mul_div_comm, div_mul_div_comm]
  congr 1
  ring

omit hs in
theorem sc_kwn (v : ℝ) (K : Mat n n) {N N' : Vec n} (hN : ∀ i, N' i = s i ^ 2 * N i) : kwn v (signed s K) N' = signed s (kwn v K N) := by
  ext i j
  simp only [kwn, signed, Matrix.add_apply, of_apply, diagonal_apply]
  by_cases h : i = j
  · subst h; simp only [if_true, hN]; ring
  · simp only [if_neg h]; ring

/-- The nugget, the covariance matrix and the condition number. -/
theorem cov_units {o : CondOpts} {v : ℝ} (hv : 0 < v) (hn : 0 < n) {K K' : Mat n n} (hK : K' = signed s K) {N N' : Vec n}
    (hN : ∀ i, N' i = s i ^ 2 * N i) (ho : o.precon = true ∨ ∀ i, s i = 1) {cf cc : Bool} {out out' : CovOut n} (h : CovSpec o v K N cf cc out)
    (h' : CovSpec o v K' N' cf cc out') : out'.etaK = out.etaK ∧ out'.Kcov = signed s out.Kcov ∧
      (K.PosSemidef → (∀ i, 0 < K i i) → (∀ i, 0 ≤ N i) → 0 < out.etaK → out'.condK = out.condK) := by
  have hkw : kwn v K' N' = signed s (kwn v K N) := by rw [hK]; exact sc_kwn v K hN
  have hsg := sgn_sq hs
  have hη : out'.etaK = out.etaK := by
    rw [h.eta, h'.eta, hkw]
    split_ifs with h1 h2
    · rfl
    · rw [sc_corr hs, signed_rowSup hsg]
    · have h1 := ho.resolve_left (by simpa using h2)
      rw [hK, signed_rowSup (fun i => by rw [h1 i]; ring)]
  have hC : out'.Kcov = signed s out.Kcov := by
    rw [h.cov, h'.cov, hη, hkw]
    ext i j
    by_cases hij : i = j
    · subst hij
      split_ifs with h2
      · simp only [signed, of_apply, Matrix.smul_apply, Matrix.add_apply, smul_eq_mul, diagonal_apply_eq]; ring
      · have h1 := ho.resolve_left (by simpa using h2)
        simp only [signed, of_apply, Matrix.smul_apply, Matrix.add_apply, smul_eq_mul, one_apply_eq, h1]; ring
    · split_ifs <;> simp only [signed, of_apply, Matrix.smul_apply, Matrix.add_apply, smul_eq_mul, diagonal_apply_ne _ hij, one_apply_ne hij] <;> ring
  refine ⟨hη, hC, fun hpsd hd hN0 hpos => ?_⟩
  have hpd := h.posDef hv hpsd hd hN0 hpos
  rw [h.cond, h'.cond, hη, hkw]
  split_ifs with h1 h2
  · refine congrArg some ?_
    have hkd : ∀ i, 0 < kwn v K N i i := by
      intro i
      simp only [kwn, Matrix.add_apply, diagonal_apply_eq]
      have := hd i
      have := hN0 i
      positivity
    have hs' : (diagonal fun i => Real.sqrt (kwn v K N i i)) * (v • (corr (kwn v K N) + out.etaK • (1 : Mat n n))) *
        (diagonal fun i => Real.sqrt (kwn v K N i i)) = out.Kcov := by
      rw [precon_conj hkd, h.cov, if_pos h2]
    have hA : (v • (corr (kwn v K N) + out.etaK • (1 : Mat n n))).PosDef :=
      (posDef_diag_conj (fun i => Real.sqrt_pos.mpr (hkd i))).mp (by rw [hs']; exact hpd)
    have e : v • (corr (signed s (kwn v K N)) + out.etaK • (1 : Mat n n)) =
        signed (fun i => s i / |s i|) (v • (corr (kwn v K N) + out.etaK • (1 : Mat n n))) := by
      rw [signed_smul, signed_add, signed_smul, signed_one hsg, sc_corr hs]
    rw [e]
    exact isCondNum_unique (isCondNum_condNum (o := o) hn (signed_posDef hsg hA)) (isCondNum_signed hsg (isCondNum_condNum hn hA))
  · have h3 := ho.resolve_left (by simpa using h2)
    rw [hC]
    congr 2
    ext i j
    simp [signed, h3]
  · rfl

end

/-! ### The kernel -/

section
variable {a : ℕ → ℝ} {g : Gp} {D : DataSet}

/-- The factor of a row. -/
def unitFac (a : ℕ → ℝ) : Option ℕ → ℝ
  | none => 1
  | some i => (a i)⁻¹

theorem ssq_units {n : ℕ} (ha : ∀ d < n, a d ≠ 0) {θ θ' r r' : ℕ → ℝ} (hθ : ∀ d < n, θ' d = θ d / a d ^ 2) (hr : ∀ d < n, r' d = a d * r d) :
    ssq n θ' r' = ssq n θ r := by
  unfold ssq
  refine Finset.sum_congr rfl fun d hd => ?_
  have h := Finset.mem_range.mp hd
  have := ha d h
  rw [hθ d h, hr d h]
  field_simp

theorem units_kron {n : ℕ} (ha : ∀ d < n, a d ≠ 0) {i : ℕ} (hi : i < n) (j : ℕ) : kron i j * (a i)⁻¹ = kron i j * (a j)⁻¹ := by
  unfold kron
  by_cases h : i = j
  · subst h; rfl
  · simp [h]

theorem units_pair {n : ℕ} (ha : ∀ d < n, a d ≠ 0) {θ θ' r r' : ℕ → ℝ} (hθ : ∀ d < n, θ' d = θ d / a d ^ 2) (hr : ∀ d < n, r' d = a d * r d)
    {i : ℕ} (hi : i < n) : θ' i * r' i = (a i)⁻¹ * (θ i * r i) ∧ θ' i = (a i)⁻¹ * ((a i)⁻¹ * θ i) := by
  have := ha i hi
  rw [hθ i hi, hr i hi]
  constructor <;> field_simp

theorem radKG_units {φ φ1 φ2 : ℝ → ℝ} {n : ℕ} (ha : ∀ d < n, a d ≠ 0) {θ θ' r r' : ℕ → ℝ} (hθ : ∀ d < n, θ' d = θ d / a d ^ 2)
    (hr : ∀ d < n, r' d = a d * r d) {ox oy : Option ℕ} (hx : ∀ i ∈ ox, i < n) (hy : ∀ j ∈ oy, j < n) :
    radKG φ φ1 φ2 n θ' r' ox oy = unitFac a ox * unitFac a oy * radKG φ φ1 φ2 n θ r ox oy := by
  have e := ssq_units ha hθ hr
  match ox, oy with
  | none, none => simp only [radKG, unitFac, e]; ring
  | some i, none =>
    have h1 := (units_pair ha hθ hr (hx i rfl)).1
    simp only [radKG, unitFac, e]
    linear_combination (2 * φ1 (ssq n θ r)) * h1
  | none, some j =>
    have h1 := (units_pair ha hθ hr (hy j rfl)).1
    simp only [radKG, unitFac, e]
    linear_combination (-2 * φ1 (ssq n θ r)) * h1
  | some i, some j =>
    obtain ⟨h1, h1'⟩ := units_pair ha hθ hr (hx i rfl)
    have h2 := (units_pair ha hθ hr (hy j rfl)).1
    have hk := units_kron ha (hx i rfl) j
    simp only [radKG, unitFac, e]
    linear_combination (-2 * kron i j * φ1 (ssq n θ r)) * h1' + (-4 * φ2 (ssq n θ r) * (θ' j * r' j)) * h1 +
      (-4 * φ2 (ssq n θ r) * ((a i)⁻¹ * (θ i * r i))) * h2 + (-2 * (a i)⁻¹ * θ i * φ1 (ssq n θ r)) * hk

theorem radKGx_units {φ1 φ2 φ3 : ℝ → ℝ} {n : ℕ} (ha : ∀ d < n, a d ≠ 0) {θ θ' r r' : ℕ → ℝ} (hθ : ∀ d < n, θ' d = θ d / a d ^ 2)
    (hr : ∀ d < n, r' d = a d * r d) {k i : ℕ} (hk : k < n) (hi : i < n) {oy : Option ℕ} (hy : ∀ j ∈ oy, j < n) :
    radKGx φ1 φ2 φ3 n θ' r' k i oy = (a k)⁻¹ * (a i)⁻¹ * unitFac a oy * radKGx φ1 φ2 φ3 n θ r k i oy := by
  have e := ssq_units ha hθ hr
  obtain ⟨i1, i2⟩ := units_pair ha hθ hr hi
  obtain ⟨k1, k2⟩ := units_pair ha hθ hr hk
  have hik := units_kron ha hi k
  match oy with
  | none =>
    simp only [radKGx, unitFac, e]
    linear_combination (2 * kron i k * φ1 (ssq n θ r)) * i2 + (4 * φ2 (ssq n θ r) * (θ' k * r' k)) * i1 +
      (4 * φ2 (ssq n θ r) * ((a i)⁻¹ * (θ i * r i))) * k1 + (2 * (a i)⁻¹ * θ i * φ1 (ssq n θ r)) * hik
  | some j =>
    have hj := hy j rfl
    obtain ⟨j1, j2⟩ := units_pair ha hθ hr hj
    have hjk := units_kron ha hj k
    have hij := units_kron ha hi j
    simp only [radKGx, unitFac, e]
    generalize φ2 (ssq n θ r) = A
    generalize φ3 (ssq n θ r) = B
    have t1 : 4 * θ' i * kron i k * (θ' j * r' j) = 4 * (a k)⁻¹ * (a i)⁻¹ * (a j)⁻¹ * (θ i * kron i k * (θ j * r j)) := by
      rw [i2, j1]; linear_combination (4 * (a i)⁻¹ * θ i * (a j)⁻¹ * (θ j * r j)) * hik
    have t2 : 4 * θ' j * kron j k * (θ' i * r' i) = 4 * (a k)⁻¹ * (a i)⁻¹ * (a j)⁻¹ * (θ j * kron j k * (θ i * r i)) := by
      rw [j2, i1]; linear_combination (4 * (a j)⁻¹ * θ j * (a i)⁻¹ * (θ i * r i)) * hjk
    have t3 : 4 * θ' i * kron i j * (θ' k * r' k) = 4 * (a k)⁻¹ * (a i)⁻¹ * (a j)⁻¹ * (θ i * kron i j * (θ k * r k)) := by
      rw [i2, k1]; linear_combination (4 * (a i)⁻¹ * θ i * (a k)⁻¹ * (θ k * r k)) * hij
    have t4 : (θ' i * r' i) * (θ' j * r' j) * (θ' k * r' k) = (a k)⁻¹ * (a i)⁻¹ * (a j)⁻¹ * ((θ i * r i) * (θ j * r j) * (θ k * r k)) := by
      rw [i1, j1, k1]; ring
    linear_combination (-A) * t1 + (-A) * t2 + (-A) * t3 + (-8 * B) * t4

theorem dpt_units (hg : GpOk g) (h : CoordUnits a g D) (q : Fin g.nData) {d : ℕ} (hd : d < g.dim) : dpt (withData g D) q d = a d * dpt g q d := by
  show D.x.get ((dIx g q).pt D.bvec) d = a d * g.x.get ((dIx g q).pt g.bvec) d
  rw [h.bvec]
  exact h.x _ (dpt_lt hg q) d hd

/-- The factors of the rows. -/
def unitVec (a : ℕ → ℝ) (g : Gp) : Vec g.nData := fun q => unitFac a (dco g q)

theorem unitVec_ne (hg : GpOk g) (h : CoordUnits a g D) (q : Fin g.nData) : unitVec a g q ≠ 0 := by
  unfold unitVec
  cases hx : dco g q with
  | none => simp [unitFac]
  | some i => simpa [unitFac] using h.ne i (dco_lt hg q i hx)

theorem thF_units (a : ℕ → ℝ) (w : Option ℝ) (hp : HpVals) (hh : hp.theta ≠ none) (d : ℕ) : thF (coordHp a w hp) d = thF hp d / a d ^ 2 := by
  obtain ⟨th, hth⟩ := Option.ne_none_iff_exists'.mp hh
  simp [thF, coordHp, hth]

theorem coordHp_adm (h : CoordUnits a g D) {hp : HpVals} (hh : HpAdm g hp) {w : Option ℝ} (hw : NoiseFollows a g.dim hp.varFgrad w) :
    HpAdm (withData g D) (coordHp a w hp) where
  theta := by
    obtain ⟨th, h1, h2, h3⟩ := hh.theta
    refine ⟨⟨th.n, fun d => th.get d / a d ^ 2⟩, by simp [coordHp, h1], h2, fun d hd => ?_⟩
    have hd' : d < g.dim := hd
    have := h.ne d hd'
    have := h3 d hd'
    show 0 < th.get d / a d ^ 2
    positivity
  kernel := hh.kernel
  vf_none := hh.vf_none
  vf_some := hh.vf_some
  vg_none h1 h2 := by
    have := hh.vg_none h1 h2
    rw [this] at hw
    cases hw
    rfl
  vg_some h1 h2 := by
    obtain ⟨v, hv, -⟩ := hh.vg_some h1 h2
    rw [hv] at hw
    cases hw with
    | some hw => exact ⟨_, rfl, hw.1⟩

section
variable (hg : GpOk g) {hp : HpVals} (hh : HpAdm g hp) {w : Option ℝ} (h : CoordUnits a g D)
include hg hh h

theorem kk_units (p q : Fin g.nData) : kk (withData g D) (coordHp a w hp) p q = unitVec a g p * unitVec a g q * kk g hp p q := by
  obtain ⟨th, hth, -⟩ := hh.theta
  refine radKG_units h.ne (fun d _ => thF_units a w hp (by rw [hth]; simp) d) (fun d hd => ?_) (dco_lt hg p) (dco_lt hg q)
  rw [dpt_units hg h p hd, dpt_units hg h q hd]
  ring

theorem kv_units {x x' : Pt} (hx : ∀ d < g.dim, x' d = a d * x d) :
    kv (withData g D) (coordHp a w hp) x' = diagonal (unitVec a g) *ᵥ kv g hp x := by
  obtain ⟨th, hth, -⟩ := hh.theta
  refine funext fun (q : Fin g.nData) => ?_
  rw [mulVec_diagonal]
  have key := radKG_units (φ := prφ g.kernel (alphaOf g.kernel hp.kernel)) (φ1 := prφ1 g.kernel (alphaOf g.kernel hp.kernel))
    (φ2 := prφ2 g.kernel (alphaOf g.kernel hp.kernel)) (oy := none) (r := fun d => dpt g q d - x d)
    (r' := fun d => dpt (withData g D) q d - x' d) h.ne
    (fun d _ => thF_units a w hp (by rw [hth]; simp) d) (fun d hd => by
      show dpt (withData g D) q d - x' d = _
      rw [dpt_units hg h q hd, hx d hd]
      ring) (dco_lt hg q) (by simp)
  refine Eq.trans key ?_
  show unitVec a g q * 1 * _ = _
  rw [mul_one]
  rfl

theorem kd_units {x x' : Pt} (hx : ∀ d < g.dim, x' d = a d * x d) {i : ℕ} (hi : i < g.dim) :
    kd (withData g D) (coordHp a w hp) x' i = diagonal (unitVec a g) *ᵥ ((a i)⁻¹ • kd g hp x i) := by
  obtain ⟨th, hth, -⟩ := hh.theta
  refine funext fun (q : Fin g.nData) => ?_
  rw [mulVec_diagonal]
  have key := radKG_units (φ := prφ g.kernel (alphaOf g.kernel hp.kernel)) (φ1 := prφ1 g.kernel (alphaOf g.kernel hp.kernel))
    (φ2 := prφ2 g.kernel (alphaOf g.kernel hp.kernel)) (oy := some i) (r := fun d => dpt g q d - x d)
    (r' := fun d => dpt (withData g D) q d - x' d) h.ne
    (fun d _ => thF_units a w hp (by rw [hth]; simp) d) (fun d hd => by
      show dpt (withData g D) q d - x' d = _
      rw [dpt_units hg h q hd, hx d hd]
      ring) (dco_lt hg q) (by rintro j hj; cases hj; exact hi)
  refine Eq.trans key ?_
  show unitVec a g q * (a i)⁻¹ * kd g hp x i q = unitVec a g q * ((a i)⁻¹ * kd g hp x i q)
  ring

theorem kh_units {x x' : Pt} (hx : ∀ d < g.dim, x' d = a d * x d) {e i : ℕ} (he : e < g.dim) (hi : i < g.dim) :
    kh (withData g D) (coordHp a w hp) x' e i = diagonal (unitVec a g) *ᵥ (((a e)⁻¹ * (a i)⁻¹) • kh g hp x e i) := by
  obtain ⟨th, hth, -⟩ := hh.theta
  refine funext fun (q : Fin g.nData) => ?_
  rw [mulVec_diagonal]
  have key := radKGx_units (φ1 := prφ1 g.kernel (alphaOf g.kernel hp.kernel))
    (φ2 := prφ2 g.kernel (alphaOf g.kernel hp.kernel)) (φ3 := prφ3 g.kernel (alphaOf g.kernel hp.kernel)) (r := fun d => x d - dpt g q d)
    (r' := fun d => x' d - dpt (withData g D) q d) h.ne
    (fun d _ => thF_units a w hp (by rw [hth]; simp) d) (fun d hd => by
      show x' d - dpt (withData g D) q d = _
      rw [dpt_units hg h q hd, hx d hd]
      ring) he hi (dco_lt hg q)
  refine Eq.trans key ?_
  show (a e)⁻¹ * (a i)⁻¹ * unitVec a g q * kh g hp x e i q = unitVec a g q * ((a e)⁻¹ * (a i)⁻¹ * kh g hp x e i q)
  ring

theorem kern_units (hg' : GpOk (withData g D)) (hw : NoiseFollows a g.dim hp.varFgrad w)
    {K K' : Mat g.nData g.nData} (hK : IsKern g hp K) (hK' : IsKern (withData g D) (coordHp a w hp) K') : K' = signed (unitVec a g) K := by
  ext p q
  have e1 := isKern_entry hg hh hK p q
  have e2 : K' p q = _ := isKern_entry hg' (coordHp_adm h hh hw) hK' p q
  rw [e2, signed, of_apply, e1]
  exact kk_units hg hh h p q

theorem noise_units (hg' : GpOk (withData g D)) (hw : NoiseFollows a g.dim hp.varFgrad w)
    {Na Na' : Arr1} (hN : NoiseSpec g hp Na) (hN' : NoiseSpec (withData g D) (coordHp a w hp) Na') (q : Fin g.nData) :
    Na'.get q = unitVec a g q ^ 2 * Na.get q := by
  have hval : ∀ p < g.nEval, valVar (withData g D) (coordHp a w hp) p = valVar g hp p := by
    intro p hp'
    unfold valVar
    show (if g.fvalZero && g.fgradZero then (0 : ℝ) else if g.knownFval then ((D.stdFval.getD _).get p) ^ 2 else _) = _
    cases hk : g.knownFval with
    | false => simp [coordHp]
    | true =>
      obtain ⟨s, hs, -⟩ := hg.std_fval hk
      obtain ⟨s', hs', -⟩ := hg'.std_fval hk
      have hs'' : D.stdFval = some s' := hs'
      rw [hs, hs'']
      simp only [Option.getD_some, h.stdF s s' hs hs'' p hp', if_true]
  have hgr : ∀ b < g.nGrad, ∀ i < g.dim, gradVar (withData g D) (coordHp a w hp) b i = (a i)⁻¹ ^ 2 * gradVar g hp b i := by
    intro b hb i hi
    have hug : g.useGrad = true := by
      by_contra hc
      have := hg.nGrad
      rw [if_neg hc] at this
      omega
    have hai := h.ne i hi
    unfold gradVar
    show (if g.fvalZero && g.fgradZero then (0 : ℝ) else if g.knownFgrad then ((D.stdGrad.getD _).get b i) ^ 2 else _) = _
    split_ifs with h1 hk
    · simp
    · obtain ⟨s, hs, -⟩ := hg.std_fgrad hk
      obtain ⟨s', hs', -⟩ := hg'.std_fgrad hk
      have hs'' : D.stdGrad = some s' := hs'
      rw [hs, hs'']
      simp only [Option.getD_some]
      rw [← h.stdG s s' hs hs'' b hb i hi, mul_pow, sq_abs]
      field_simp
    · obtain ⟨v, hv, -⟩ := hh.vg_some hug (by simpa using hk)
      rw [hv] at hw
      cases hw with
      | some hw =>
        simp only [coordHp, hv, Option.getD_some]
        rw [← hw.2 i hi]
        field_simp
  obtain ⟨hs, hq⟩ := dIx_spec hg q
  cases hx : dIx g q with
  | v p =>
    rw [hx] at hs hq
    have hsg : unitVec a g q = 1 := by rw [unitVec, dco, hx]; rfl
    rw [← hq, hsg]
    show Na'.get p = 1 ^ 2 * Na.get p
    rw [hN.val p hs, hN'.val p hs, hval p hs, one_pow, one_mul]
  | g i b =>
    rw [hx] at hs hq
    have hsg : unitVec a g q = (a i)⁻¹ := by rw [unitVec, dco, hx]; rfl
    rw [← hq, hsg]
    show Na'.get (g.nEval + i * g.nGrad + b) = _ * Na.get (g.nEval + i * g.nGrad + b)
    have h2 : Na'.get (g.nEval + i * g.nGrad + b) = _ := hN'.grad i hs.1 b hs.2
    rw [hN.grad i hs.1 b hs.2, h2, hgr b hs.2 i hs.1]

omit hh in
/-- The data vector and the basis. -/
theorem vec_units (hg' : GpOk (withData g D)) {y y' : Vec g.nData} (hy : DataSpec g y) (hy' : DataSpec (withData g D) y')
    {V : Mat g.nData nBetaCoeff} (hV : ∀ (q : Fin g.nData) (j : Fin nBetaCoeff), V q j = if (q : ℕ) < g.nEval then 1 else 0) :
    V = diagonal (unitVec a g) * V ∧ y' = diagonal (unitVec a g) *ᵥ y := by
  have main : ∀ q : Fin g.nData, (∀ j, V q j = unitVec a g q * V q j) ∧ y' q = unitVec a g q * y q := by
    intro q
    obtain ⟨hs, hq⟩ := dIx_spec hg q
    cases hx : dIx g q with
    | v p =>
      rw [hx] at hs hq
      have hp' : p < g.nEval := hs
      have hqp : (q : ℕ) = p := hq.symm
      have hsg : unitVec a g q = 1 := by rw [unitVec, dco, hx]; rfl
      refine ⟨fun j => by rw [hsg, one_mul], ?_⟩
      rw [hsg, one_mul, hy.val q (by omega), hy'.val q (by rw [hqp]; exact hp'), hqp]
      exact h.fval p hp'
    | g i b =>
      rw [hx] at hs hq
      have hq' : (q : ℕ) = g.nEval + i * g.nGrad + b := hq.symm
      have hsg : unitVec a g q = (a i)⁻¹ := by rw [unitVec, dco, hx]; rfl
      have hug : g.useGrad = true := by
        by_contra hc
        have := hg.nGrad
        rw [if_neg hc] at this
        have := hs.2
        omega
      obtain ⟨G, hG, -⟩ := hg.grad_some hug
      obtain ⟨G', hG', -⟩ := hg'.grad_some hug
      refine ⟨fun j => ?_, ?_⟩
      · rw [hV, hq', if_neg (by omega)]; simp
      · have hai := h.ne i hs.1
        rw [hsg, hy.grad G hG q i hs.1 b hs.2 hq', hy'.grad G' hG' q i hs.1 b hs.2 hq',
          ← h.grad G G' hG hG' b hs.2 i hs.1]
        field_simp
  refine ⟨?_, ?_⟩
  · ext q j
    rw [diagonal_mul]
    exact (main q).1 j
  · funext q
    rw [mulVec_diagonal]
    exact (main q).2

end

end

end GP
