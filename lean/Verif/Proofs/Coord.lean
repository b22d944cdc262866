import Verif.Spec.CoordSpec
import Verif.Proofs.Restate

/-! Relabelled and turned coordinates: the covariance matrix is rearranged and some rows and columns change sign. -/

open Np Spec Matrix

noncomputable section

namespace GP

section
variable {n n' k : ℕ}

/-- Rows and columns multiplied by signs. -/
def signed (s : Vec n) (K : Mat n n) : Mat n n := of fun i j => s i * s j * K i j

theorem signed_eq (s : Vec n) (K : Mat n n) : signed s K = diagonal s * K * diagonal s := by
  ext i j
  rw [mul_diagonal, diagonal_mul, signed, of_apply]
  ring

variable {s : Vec n} (hs : ∀ i, s i * s i = 1)
include hs

theorem sign_sq : diagonal s * diagonal s = (1 : Mat n n) := by
  rw [diagonal_mul_diagonal]
  simp only [hs]
  exact diagonal_one

theorem sign_vec (u : Vec n) : diagonal s *ᵥ (diagonal s *ᵥ u) = u := by
  rw [mulVec_mulVec, sign_sq hs, one_mulVec]

theorem signed_signed (K : Mat n n) : signed s (signed s K) = K := by
  ext i j
  simp only [signed, of_apply]
  calc s i * s j * (s i * s j * K i j) = (s i * s i) * (s j * s j) * K i j := by ring
    _ = K i j := by rw [hs, hs]; ring

theorem signed_mul (A B : Mat n n) : signed s A * signed s B = signed s (A * B) := by
  simp only [signed_eq]
  calc diagonal s * A * diagonal s * (diagonal s * B * diagonal s) = diagonal s * A * (diagonal s * diagonal s) * B * diagonal s := by
        simp only [Matrix.mul_assoc]
    _ = _ := by rw [sign_sq hs, Matrix.mul_one]; simp only [Matrix.mul_assoc]

theorem signed_one : signed s (1 : Mat n n) = 1 := by
  rw [signed_eq, Matrix.mul_one, sign_sq hs]

theorem signed_inv {K : Mat n n} (hd : K.det ≠ 0) : (signed s K)⁻¹ = signed s K⁻¹ := by
  apply Matrix.inv_eq_right_inv
  rw [signed_mul hs, mul_nonsing_inv _ (isUnit_iff_ne_zero.mpr hd), signed_one hs]

theorem signed_det (K : Mat n n) : (signed s K).det = K.det := by
  have h : (diagonal s : Mat n n).det * (diagonal s : Mat n n).det = 1 := by rw [← det_mul, sign_sq hs, det_one]
  rw [signed_eq, det_mul, det_mul, mul_comm (diagonal s).det, mul_assoc, h, mul_one]

theorem signed_mulVec (K : Mat n n) (u : Vec n) : signed s K *ᵥ (diagonal s *ᵥ u) = diagonal s *ᵥ (K *ᵥ u) := by
  rw [signed_eq, ← mulVec_mulVec, sign_vec hs, mulVec_mulVec]

theorem sign_dot (u r : Vec n) : (diagonal s *ᵥ u) ⬝ᵥ (diagonal s *ᵥ r) = u ⬝ᵥ r := by
  simp only [dotProduct, mulVec_diagonal]
  refine Finset.sum_congr rfl fun i _ => ?_
  calc s i * u i * (s i * r i) = (s i * s i) * (u i * r i) := by ring
    _ = _ := by rw [hs, one_mul]

theorem signed_quad {M : Mat n n} (hd : M.det ≠ 0) (u r : Vec n) :
    (diagonal s *ᵥ u) ⬝ᵥ (signed s M)⁻¹ *ᵥ (diagonal s *ᵥ r) = u ⬝ᵥ M⁻¹ *ᵥ r := by
  rw [signed_inv hs hd, signed_mulVec hs, sign_dot hs]

theorem signed_posDef {K : Mat n n} (h : K.PosDef) : (signed s K).PosDef := by
  have hdet : (diagonal s : Mat n n).det ≠ 0 := by
    intro h0
    have h1 : (diagonal s : Mat n n).det * (diagonal s : Mat n n).det = 1 := by rw [← det_mul, sign_sq hs, det_one]
    rw [h0] at h1; simp at h1
  have := h.conjTranspose_mul_mul_same (B := diagonal s) (mulVec_injective_iff_isUnit.mpr ((isUnit_iff_isUnit_det _).mpr hdet.isUnit))
  rw [diagonal_conjTranspose] at this
  rw [signed_eq]
  simpa using this

theorem signed_gls {K : Mat n n} (hd : K.det ≠ 0) (V : Mat n k) (y : Vec n) : gls (signed s K) (diagonal s * V) (diagonal s *ᵥ y) = gls K V y := by
  have e1 : signed s K⁻¹ * (diagonal s * V) = diagonal s * (K⁻¹ * V) := by
    rw [signed_eq, Matrix.mul_assoc, ← Matrix.mul_assoc (diagonal s) (diagonal s) V, sign_sq hs, Matrix.one_mul, Matrix.mul_assoc]
  have e2 : (diagonal s * V)ᵀ = Vᵀ * diagonal s := by rw [transpose_mul, diagonal_transpose]
  unfold gls
  rw [signed_inv hs hd, e1, e2, signed_mulVec hs, Matrix.mul_assoc, ← Matrix.mul_assoc (diagonal s) (diagonal s), sign_sq hs, Matrix.one_mul,
    ← mulVec_mulVec, sign_vec hs]

theorem signed_rss {K : Mat n n} (hd : K.det ≠ 0) (V : Mat n k) (y : Vec n) : rss (signed s K) (diagonal s * V) (diagonal s *ᵥ y) = rss K V y := by
  unfold rss
  rw [signed_gls hs hd, ← mulVec_mulVec, ← mulVec_sub]
  unfold maha
  exact signed_quad hs hd _ _

theorem signed_rank {V : Mat n k} (h : FullRank V) : FullRank (diagonal s * V) := by
  intro x hx
  rw [← mulVec_mulVec] at hx
  apply h
  rw [← sign_vec hs (V *ᵥ x), hx, mulVec_zero]

theorem signed_rowSup (A : Mat n n) : (⨆ i, ∑ j, |signed s A i j|) = ⨆ i, ∑ j, |A i j| := by
  have ha : ∀ i, |s i| = 1 := fun i => by
    have : |s i| * |s i| = 1 := by rw [← abs_mul, hs, abs_one]
    nlinarith [abs_nonneg (s i)]
  congr 1
  funext i
  refine Finset.sum_congr rfl fun j _ => ?_
  rw [signed, of_apply, abs_mul, abs_mul, ha, ha]; ring

theorem signed_kwn (v : ℝ) (K : Mat n n) (N : Vec n) : kwn v (signed s K) N = signed s (kwn v K N) := by
  ext i j
  simp only [kwn, signed, Matrix.add_apply, of_apply, diagonal_apply]
  by_cases h : i = j
  · subst h; simp only [if_true, hs]; ring
  · simp only [if_neg h]; ring

theorem signed_diag (K : Mat n n) (i : Fin n) : signed s K i i = K i i := by
  rw [signed, of_apply, hs, one_mul]

theorem signed_corr (A : Mat n n) : corr (signed s A) = signed s (corr A) := by
  ext i j
  simp only [corr, of_apply, signed_diag hs]
  simp only [signed, of_apply]
  ring

theorem signed_diagonal (d : Vec n) : signed s (diagonal d) = diagonal d := by
  ext i j
  simp only [signed, of_apply, diagonal_apply]
  by_cases h : i = j
  · subst h; simp only [if_true, hs]; ring
  · simp [h]

omit hs in
theorem signed_add (A B : Mat n n) : signed s (A + B) = signed s A + signed s B := by
  ext i j; simp only [signed, of_apply, Matrix.add_apply]; ring

omit hs in
theorem signed_smul (c : ℝ) (A : Mat n n) : signed s (c • A) = c • signed s A := by
  ext i j; simp only [signed, of_apply, Matrix.smul_apply, smul_eq_mul]; ring

theorem isCondNum_signed {fro : Bool} {A : Mat n n} {κ : ℝ} (h : IsCondNum fro A κ) : IsCondNum fro (signed s A) κ := by
  unfold IsCondNum at h ⊢
  cases fro with
  | true =>
    simp only [if_true] at h ⊢
    obtain ⟨B, h1, h2, h3⟩ := h
    have e : ∀ C : Mat n n, ∑ i, ∑ j, signed s C i j ^ 2 = ∑ i, ∑ j, C i j ^ 2 := fun C => by
      refine Finset.sum_congr rfl fun i _ => Finset.sum_congr rfl fun j _ => ?_
      calc (s i * s j * C i j) ^ 2 = (s i * s i) * (s j * s j) * C i j ^ 2 := by ring
        _ = _ := by rw [hs, hs]; ring
    exact ⟨signed s B, by rw [signed_mul hs, h1, signed_one hs], by rw [signed_mul hs, h2, signed_one hs], by rw [e, e, h3]⟩
  | false =>
    simp only [Bool.false_eq_true, if_false] at h ⊢
    obtain ⟨lo, hi, h1, h2, h3, h4⟩ := h
    have hq : ∀ x : Vec n, x ⬝ᵥ signed s A *ᵥ x = (diagonal s *ᵥ x) ⬝ᵥ A *ᵥ (diagonal s *ᵥ x) := fun x => by
      conv_lhs => rw [← sign_vec hs x]
      rw [signed_mulVec hs, sign_dot hs]
    have hss : ∀ x : Vec n, x ⬝ᵥ x = (diagonal s *ᵥ x) ⬝ᵥ (diagonal s *ᵥ x) := fun x => (sign_dot hs x x).symm
    have he : ∀ l : ℝ, (∃ x : Vec n, x ≠ 0 ∧ A *ᵥ x = l • x) → ∃ x : Vec n, x ≠ 0 ∧ signed s A *ᵥ x = l • x := by
      rintro l ⟨x, hx, he⟩
      refine ⟨diagonal s *ᵥ x, fun h0 => hx (by rw [← sign_vec hs x, h0, mulVec_zero]), ?_⟩
      rw [signed_mulVec hs, he, mulVec_smul]
    exact ⟨lo, hi, ⟨he _ h1.1, fun x => by rw [hq, hss]; exact h1.2 _⟩, ⟨he _ h2.1, fun x => by rw [hq, hss]; exact h2.2 _⟩, h3, h4⟩

end

/-- The symbolic row of `D` that corresponds to one of `g`. -/
def coIx (σ : Equiv.Perm ℕ) : Ix → Ix
  | .v p => .v p
  | .g i a => .g (σ i) a

/-- Its sign. -/
def coSign (ε : ℕ → ℝ) : Option ℕ → ℝ
  | none => 1
  | some i => ε i

theorem coIx_inj (σ : Equiv.Perm ℕ) : Function.Injective (coIx σ) := by
  intro x y h
  cases x <;> cases y <;> simp_all [coIx]

section
variable {σ : Equiv.Perm ℕ} {ε : ℕ → ℝ} {g : Gp} {D : DataSet}

theorem sum_relabel {n : ℕ} (hlt : ∀ d < n, σ d < n) (f : ℕ → ℝ) : ∑ d ∈ Finset.range n, f (σ d) = ∑ d ∈ Finset.range n, f d := by
  refine Finset.sum_bij (fun d _ => σ d) (fun d hd => Finset.mem_range.mpr (hlt d (Finset.mem_range.mp hd))) (fun _ _ _ _ h => σ.injective h) ?_
    (fun _ _ => rfl)
  have hmaps : Set.MapsTo σ (Finset.range n) (Finset.range n : Set ℕ) := fun i hi => by simpa using hlt i (by simpa using hi)
  intro d hd
  obtain ⟨p, hp, he⟩ := Finset.surjOn_of_injOn_of_card_le σ hmaps (σ.injective.injOn) le_rfl hd
  exact ⟨p, by simpa using hp, he⟩

theorem ssq_relabel {n : ℕ} (hlt : ∀ d < n, σ d < n) (hs : ∀ d < n, ε d = 1 ∨ ε d = -1) {θ θ' r r' : ℕ → ℝ} (hθ : ∀ d < n, θ' (σ d) = θ d)
    (hr : ∀ d < n, r' (σ d) = ε d * r d) : ssq n θ' r' = ssq n θ r := by
  unfold ssq
  rw [← sum_relabel hlt]
  refine Finset.sum_congr rfl fun d hd => ?_
  have hd' := Finset.mem_range.mp hd
  rw [hθ d hd', hr d hd']
  rcases hs d hd' with h | h <;> rw [h] <;> ring

theorem kron_relabel (i j : ℕ) : kron (σ i) (σ j) = kron i j := by
  unfold kron
  simp only [σ.injective.eq_iff]

theorem sign_kron {n : ℕ} (hs : ∀ d < n, ε d = 1 ∨ ε d = -1) {i : ℕ} (hi : i < n) (j : ℕ) : ε i * ε j * kron i j = kron i j := by
  unfold kron
  by_cases h : i = j
  · subst h
    rcases hs i hi with h | h <;> rw [h] <;> simp
  · simp [h]

theorem radKG_relabel {φ φ1 φ2 : ℝ → ℝ} {n : ℕ} (hlt : ∀ d < n, σ d < n) (hs : ∀ d < n, ε d = 1 ∨ ε d = -1) {θ θ' r r' : ℕ → ℝ}
    (hθ : ∀ d < n, θ' (σ d) = θ d) (hr : ∀ d < n, r' (σ d) = ε d * r d) {ox oy : Option ℕ} (hx : ∀ i ∈ ox, i < n) (hy : ∀ j ∈ oy, j < n) :
    radKG φ φ1 φ2 n θ' r' (ox.map σ) (oy.map σ) = coSign ε ox * coSign ε oy * radKG φ φ1 φ2 n θ r ox oy := by
  have e := ssq_relabel hlt hs hθ hr
  match ox, oy with
  | none, none => simp only [Option.map_none, radKG, coSign, e]; ring
  | some i, none =>
    have := hx i rfl
    simp only [Option.map_none, Option.map_some, radKG, coSign, e, hθ i this, hr i this]; ring
  | none, some j =>
    have := hy j rfl
    simp only [Option.map_none, Option.map_some, radKG, coSign, e, hθ j this, hr j this]; ring
  | some i, some j =>
    have h1 := hx i rfl
    have h2 := hy j rfl
    simp only [Option.map_some, radKG, coSign, e, hθ i h1, hr i h1, hθ j h2, hr j h2, kron_relabel]
    have := sign_kron hs h1 j
    linear_combination (2 * θ i * φ1 (ssq n θ r)) * this

theorem radKGx_relabel {φ1 φ2 φ3 : ℝ → ℝ} {n : ℕ} (hlt : ∀ d < n, σ d < n) (hs : ∀ d < n, ε d = 1 ∨ ε d = -1) {θ θ' r r' : ℕ → ℝ}
    (hθ : ∀ d < n, θ' (σ d) = θ d) (hr : ∀ d < n, r' (σ d) = ε d * r d) {k i : ℕ} (hk : k < n) (hi : i < n) {oy : Option ℕ} (hy : ∀ j ∈ oy, j < n) :
    radKGx φ1 φ2 φ3 n θ' r' (σ k) (σ i) (oy.map σ) = ε k * ε i * coSign ε oy * radKGx φ1 φ2 φ3 n θ r k i oy := by
  have e := ssq_relabel hlt hs hθ hr
  have hik := sign_kron hs hi k
  match oy with
  | none =>
    simp only [Option.map_none, radKGx, coSign, e, hθ i hi, hr i hi, hθ k hk, hr k hk, kron_relabel]
    linear_combination (-2 * θ i * φ1 (ssq n θ r)) * hik
  | some j =>
    have hj := hy j rfl
    have hij := sign_kron hs hi j
    have hjk := sign_kron hs hj k
    simp only [Option.map_some, radKGx, coSign, e, hθ i hi, hr i hi, hθ k hk, hr k hk, hθ j hj, hr j hj, kron_relabel]
    linear_combination (4 * θ i * θ j * ε j * r j * φ2 (ssq n θ r)) * hik + (4 * θ i * θ j * ε i * r i * φ2 (ssq n θ r)) * hjk +
      (4 * θ i * θ k * ε k * r k * φ2 (ssq n θ r)) * hij

theorem coIx_ok (h : Relabelled σ ε g D) {x : Ix} (hx : x.ok g.nEval g.nGrad g.dim) : (coIx σ x).ok g.nEval g.nGrad g.dim := by
  cases x with
  | v p => exact hx
  | g i a => exact ⟨h.co_lt i hx.1, hx.2⟩

theorem coRow_lt (hg : GpOk g) (h : Relabelled σ ε g D) (q : Fin g.nData) : (coIx σ (dIx g q)).pos g.nEval g.nGrad < g.nData :=
  lt_of_lt_of_eq (Ix.pos_lt (coIx_ok h (dIx_spec hg q).1)) hg.nData.symm

/-- The row of `D` that corresponds to a row of `g`. -/
def coRow (hg : GpOk g) (h : Relabelled σ ε g D) : Fin g.nData ≃ Fin (withData g D).nData :=
  Equiv.ofBijective (fun q : Fin g.nData => (⟨(coIx σ (dIx g q)).pos g.nEval g.nGrad, coRow_lt hg h q⟩ : Fin g.nData)) <| by
    refine Finite.injective_iff_bijective.mp fun q q' he => ?_
    have he' := Fin.mk.inj_iff.mp he
    have h1 := dIx_pos (coIx_ok h (dIx_spec hg q).1)
    have h2 := dIx_pos (coIx_ok h (dIx_spec hg q').1)
    rw [he', h2] at h1
    have := coIx_inj σ h1
    exact Fin.ext (by rw [← (dIx_spec hg q).2, ← (dIx_spec hg q').2, this])

/-- The signs of the rows. -/
def coVec (ε : ℕ → ℝ) (g : Gp) : Vec g.nData := fun q => coSign ε (dco g q)

theorem coVec_sq (hg : GpOk g) (h : Relabelled σ ε g D) (q : Fin g.nData) : coVec ε g q * coVec ε g q = 1 := by
  unfold coVec
  cases hx : dco g q with
  | none => simp [coSign]
  | some i =>
    have := dco_lt hg q i hx
    rcases h.sign i this with e | e <;> simp [coSign, e]

theorem dIx_coRow (hg : GpOk g) (h : Relabelled σ ε g D) (q : Fin g.nData) : dIx (withData g D) (coRow hg h q) = coIx σ (dIx g q) :=
  dIx_pos (coIx_ok h (dIx_spec hg q).1)

theorem dco_coRow (hg : GpOk g) (h : Relabelled σ ε g D) (q : Fin g.nData) : dco (withData g D) (coRow hg h q) = (dco g q).map σ := by
  rw [dco, dIx_coRow, dco]
  cases dIx g q <;> rfl

theorem dpt_coRow (hg : GpOk g) (h : Relabelled σ ε g D) (q : Fin g.nData) {d : ℕ} (hd : d < g.dim) :
    dpt (withData g D) (coRow hg h q) (σ d) = ε d * dpt g q d := by
  have hlt := dpt_lt hg q
  rw [dpt, dIx_coRow, dpt]
  cases hx : dIx g q with
  | v p =>
    rw [hx] at hlt
    exact h.x p hlt d hd
  | g i a =>
    rw [hx] at hlt
    show D.x.get (gSel D.bvec a) (σ d) = _
    rw [h.bvec]
    exact h.x _ hlt d hd

theorem thF_relabel (σ : Equiv.Perm ℕ) (hp : HpVals) (hh : hp.theta ≠ none) (d : ℕ) : thF (relabelHp σ hp) (σ d) = thF hp d := by
  obtain ⟨th, hth⟩ := Option.ne_none_iff_exists'.mp hh
  simp [thF, relabelHp, hth]

theorem relabelHp_adm (h : Relabelled σ ε g D) {hp : HpVals} (hh : HpAdm g hp) : HpAdm (withData g D) (relabelHp σ hp) where
  theta := by
    obtain ⟨th, h1, h2, h3⟩ := hh.theta
    refine ⟨⟨th.n, fun d => th.get (σ.symm d)⟩, by simp [relabelHp, h1], h2, fun d hd => ?_⟩
    have hd' : d < g.dim := hd
    have hmaps : Set.MapsTo σ (Finset.range g.dim) (Finset.range g.dim : Set ℕ) := fun i hi => by simpa using h.co_lt i (by simpa using hi)
    obtain ⟨p, hp, rfl⟩ := Finset.surjOn_of_injOn_of_card_le σ hmaps (σ.injective.injOn) le_rfl (show d ∈ (Finset.range g.dim : Set ℕ) by simpa using hd')
    simpa using h3 p (by simpa using hp)
  kernel := hh.kernel
  vf_none := hh.vf_none
  vf_some := hh.vf_some
  vg_none := hh.vg_none
  vg_some := hh.vg_some

theorem kk_coRow (hg : GpOk g) {hp : HpVals} (hh : HpAdm g hp) (h : Relabelled σ ε g D) (p q : Fin g.nData) :
    kk (withData g D) (relabelHp σ hp) (coRow hg h p) (coRow hg h q) = coVec ε g p * coVec ε g q * kk g hp p q := by
  obtain ⟨th, hth, -⟩ := hh.theta
  rw [kk, kk, dco_coRow, dco_coRow]
  refine radKG_relabel h.co_lt h.sign (fun d _ => thF_relabel σ hp (by rw [hth]; simp) d) (fun d hd => ?_) (dco_lt hg p) (dco_lt hg q)
  rw [dpt_coRow hg h p hd, dpt_coRow hg h q hd]
  ring

theorem kv_coRow (hg : GpOk g) {hp : HpVals} (hh : HpAdm g hp) (h : Relabelled σ ε g D) {x x' : Pt} (hx : ∀ d < g.dim, x' (σ d) = ε d * x d) :
    kv (withData g D) (relabelHp σ hp) x' ∘ coRow hg h = diagonal (coVec ε g) *ᵥ kv g hp x := by
  obtain ⟨th, hth, -⟩ := hh.theta
  funext q
  rw [mulVec_diagonal]
  unfold kv
  show radKG _ _ _ _ _ _ (dco (withData g D) (coRow hg h q)) none = _
  rw [dco_coRow]
  have key := radKG_relabel (φ := prφ g.kernel (alphaOf g.kernel hp.kernel)) (φ1 := prφ1 g.kernel (alphaOf g.kernel hp.kernel))
    (φ2 := prφ2 g.kernel (alphaOf g.kernel hp.kernel)) (oy := none) (r := fun d => dpt g q d - x d)
    (r' := fun d => dpt (withData g D) (coRow hg h q) d - x' d) h.co_lt h.sign
    (fun d _ => thF_relabel σ hp (by rw [hth]; simp) d) (fun d hd => by
      show dpt (withData g D) (coRow hg h q) (σ d) - x' (σ d) = _
      rw [dpt_coRow hg h q hd, hx d hd]
      ring) (dco_lt hg q) (by simp)
  refine Eq.trans key ?_
  show coVec ε g q * 1 * _ = _
  rw [mul_one]

theorem kd_coRow (hg : GpOk g) {hp : HpVals} (hh : HpAdm g hp) (h : Relabelled σ ε g D) {x x' : Pt} (hx : ∀ d < g.dim, x' (σ d) = ε d * x d)
    {i : ℕ} (hi : i < g.dim) : kd (withData g D) (relabelHp σ hp) x' (σ i) ∘ coRow hg h = diagonal (coVec ε g) *ᵥ (ε i • kd g hp x i) := by
  obtain ⟨th, hth, -⟩ := hh.theta
  funext q
  rw [mulVec_diagonal]
  show kd (withData g D) (relabelHp σ hp) x' (σ i) (coRow hg h q) = coVec ε g q * (ε i * kd g hp x i q)
  unfold kd
  rw [dco_coRow]
  have key := radKG_relabel (φ := prφ g.kernel (alphaOf g.kernel hp.kernel)) (φ1 := prφ1 g.kernel (alphaOf g.kernel hp.kernel))
    (φ2 := prφ2 g.kernel (alphaOf g.kernel hp.kernel)) (oy := some i) (r := fun d => dpt g q d - x d)
    (r' := fun d => dpt (withData g D) (coRow hg h q) d - x' d) h.co_lt h.sign
    (fun d _ => thF_relabel σ hp (by rw [hth]; simp) d) (fun d hd => by
      show dpt (withData g D) (coRow hg h q) (σ d) - x' (σ d) = _
      rw [dpt_coRow hg h q hd, hx d hd]
      ring) (dco_lt hg q) (by rintro j hj; cases hj; exact hi)
  refine Eq.trans key ?_
  show coVec ε g q * ε i * _ = _
  ring

theorem kh_coRow (hg : GpOk g) {hp : HpVals} (hh : HpAdm g hp) (h : Relabelled σ ε g D) {x x' : Pt} (hx : ∀ d < g.dim, x' (σ d) = ε d * x d)
    {e i : ℕ} (he : e < g.dim) (hi : i < g.dim) :
    kh (withData g D) (relabelHp σ hp) x' (σ e) (σ i) ∘ coRow hg h = diagonal (coVec ε g) *ᵥ ((ε e * ε i) • kh g hp x e i) := by
  obtain ⟨th, hth, -⟩ := hh.theta
  funext q
  rw [mulVec_diagonal]
  show kh (withData g D) (relabelHp σ hp) x' (σ e) (σ i) (coRow hg h q) = coVec ε g q * (ε e * ε i * kh g hp x e i q)
  unfold kh
  rw [dco_coRow]
  have key := radKGx_relabel (φ1 := prφ1 g.kernel (alphaOf g.kernel hp.kernel))
    (φ2 := prφ2 g.kernel (alphaOf g.kernel hp.kernel)) (φ3 := prφ3 g.kernel (alphaOf g.kernel hp.kernel)) (r := fun d => x d - dpt g q d)
    (r' := fun d => x' d - dpt (withData g D) (coRow hg h q) d) h.co_lt h.sign
    (fun d _ => thF_relabel σ hp (by rw [hth]; simp) d) (fun d hd => by
      show x' (σ d) - dpt (withData g D) (coRow hg h q) (σ d) = _
      rw [dpt_coRow hg h q hd, hx d hd]
      ring) he hi (dco_lt hg q)
  refine Eq.trans key ?_
  show ε e * ε i * coVec ε g q * _ = _
  ring

theorem kern_co (hg : GpOk g) (hg' : GpOk (withData g D)) (h : Relabelled σ ε g D) {hp : HpVals} (hh : HpAdm g hp)
    {K : Mat g.nData g.nData} {K' : Mat (withData g D).nData (withData g D).nData} (hK : IsKern g hp K)
    (hK' : IsKern (withData g D) (relabelHp σ hp) K') : K'.submatrix (coRow hg h) (coRow hg h) = signed (coVec ε g) K := by
  ext p q
  have e1 := isKern_entry hg hh hK p q
  have e2 : K' (coRow hg h p) (coRow hg h q) = _ := isKern_entry hg' (relabelHp_adm h hh) hK' (coRow hg h p) (coRow hg h q)
  rw [submatrix_apply, e2, kk_coRow hg hh, signed, of_apply, e1]

theorem noise_co (hg : GpOk g) (hg' : GpOk (withData g D)) (h : Relabelled σ ε g D) {hp : HpVals}
    {Na Na' : Arr1} (hN : NoiseSpec g hp Na) (hN' : NoiseSpec (withData g D) (relabelHp σ hp) Na') :
    (toVec (withData g D).nData Na') ∘ coRow hg h = toVec g.nData Na := by
  have hval : ∀ p < g.nEval, valVar (withData g D) (relabelHp σ hp) p = valVar g hp p := by
    intro p hp'
    unfold valVar
    show (if g.fvalZero && g.fgradZero then (0 : ℝ) else if g.knownFval then ((D.stdFval.getD _).get p) ^ 2 else _) = _
    cases hk : g.knownFval with
    | false => simp [relabelHp]
    | true =>
      obtain ⟨s, hs, -⟩ := hg.std_fval hk
      obtain ⟨s', hs', -⟩ := hg'.std_fval hk
      have hs'' : D.stdFval = some s' := hs'
      rw [hs, hs'']
      simp only [Option.getD_some, h.stdF s s' hs hs'' p hp', if_true]
  have hgr : ∀ a < g.nGrad, ∀ i < g.dim, gradVar (withData g D) (relabelHp σ hp) a (σ i) = gradVar g hp a i := by
    intro a ha i hi
    unfold gradVar
    show (if g.fvalZero && g.fgradZero then (0 : ℝ) else if g.knownFgrad then ((D.stdGrad.getD _).get a (σ i)) ^ 2 else _) = _
    cases hk : g.knownFgrad with
    | false => simp [relabelHp]
    | true =>
      obtain ⟨s, hs, -⟩ := hg.std_fgrad hk
      obtain ⟨s', hs', -⟩ := hg'.std_fgrad hk
      have hs'' : D.stdGrad = some s' := hs'
      rw [hs, hs'']
      simp only [Option.getD_some, h.stdG s s' hs hs'' a ha i hi, if_true]
  funext q
  obtain ⟨hs, hq⟩ := dIx_spec hg q
  show Na'.get ((coIx σ (dIx g q)).pos g.nEval g.nGrad) = Na.get q
  cases hx : dIx g q with
  | v p =>
    rw [hx] at hs hq
    rw [← hq]
    show Na'.get p = Na.get p
    rw [hN.val p hs, hN'.val p hs, hval p hs]
  | g i a =>
    rw [hx] at hs hq
    rw [← hq]
    show Na'.get (g.nEval + σ i * g.nGrad + a) = Na.get (g.nEval + i * g.nGrad + a)
    have h2 : Na'.get (g.nEval + σ i * g.nGrad + a) = _ := hN'.grad (σ i) (h.co_lt i hs.1) a hs.2
    rw [hN.grad i hs.1 a hs.2, h2, hgr a hs.2 i hs.1]

/-- The data vector and the basis. -/
theorem vec_co (hg : GpOk g) (hg' : GpOk (withData g D)) (h : Relabelled σ ε g D)
    {y : Vec g.nData} (hy : DataSpec g y) {y' : Vec (withData g D).nData} (hy' : DataSpec (withData g D) y')
    {V : Mat g.nData nBetaCoeff} (hV : ∀ (q : Fin g.nData) (j : Fin nBetaCoeff), V q j = if (q : ℕ) < g.nEval then 1 else 0)
    {V' : Mat (withData g D).nData nBetaCoeff}
    (hV' : ∀ (q : Fin (withData g D).nData) (j : Fin nBetaCoeff), V' q j = if (q : ℕ) < g.nEval then 1 else 0) :
    V'.submatrix (coRow hg h) id = diagonal (coVec ε g) * V ∧ y' ∘ coRow hg h = diagonal (coVec ε g) *ᵥ y := by
  have hrow : ∀ q : Fin g.nData, ((coRow hg h q : Fin (withData g D).nData) : ℕ) = (coIx σ (dIx g q)).pos g.nEval g.nGrad := fun q => rfl
  have main : ∀ q : Fin g.nData, (∀ j, V' (coRow hg h q) j = coVec ε g q * V q j) ∧ y' (coRow hg h q) = coVec ε g q * y q := by
    intro q
    obtain ⟨hs, hq⟩ := dIx_spec hg q
    have hval := hrow q
    cases hx : dIx g q with
    | v p =>
      rw [hx] at hs hq hval
      have hp' : p < g.nEval := hs
      have hqp : (q : ℕ) = p := hq.symm
      have hval' : ((coRow hg h q : Fin (withData g D).nData) : ℕ) = p := hval
      have hsg : coVec ε g q = 1 := by rw [coVec, dco, hx]; rfl
      refine ⟨fun j => ?_, ?_⟩
      · rw [hV', hV, hval', hqp, hsg, if_pos hp']; simp
      · rw [hsg, one_mul, hy.val q (by omega), hy'.val (coRow hg h q) (by rw [hval']; exact hp'), hval', hqp]
        exact h.fval p hp'
    | g i a =>
      rw [hx] at hs hq hval
      have hval' : ((coRow hg h q : Fin (withData g D).nData) : ℕ) = g.nEval + σ i * g.nGrad + a := hval
      have hq' : (q : ℕ) = g.nEval + i * g.nGrad + a := hq.symm
      have hsg : coVec ε g q = ε i := by rw [coVec, dco, hx]; rfl
      have hug : g.useGrad = true := by
        by_contra hc
        have := hg.nGrad
        rw [if_neg hc] at this
        have := hs.2
        omega
      obtain ⟨G, hG, -⟩ := hg.grad_some hug
      obtain ⟨G', hG', -⟩ := hg'.grad_some hug
      refine ⟨fun j => ?_, ?_⟩
      · rw [hV', hV, hval', hq', if_neg (by omega), if_neg (by omega)]; simp
      · rw [hsg, hy.grad G hG q i hs.1 a hs.2 hq', hy'.grad G' hG' (coRow hg h q) (σ i) (h.co_lt i hs.1) a hs.2 hval',
          h.grad G G' hG hG' a hs.2 i hs.1]
  refine ⟨?_, ?_⟩
  · ext q j
    rw [submatrix_apply, diagonal_mul]
    exact (main q).1 j
  · funext q
    rw [mulVec_diagonal]
    exact (main q).2

end

end GP
