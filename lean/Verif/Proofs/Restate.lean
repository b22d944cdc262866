import Verif.Proofs.Reindex
import Verif.Proofs.CondRec
import Verif.Props.Lkd
import Verif.Spec.RestateSpec

/-! Restating the data rearranges and rescales the covariance matrix; the likelihood changes by a constant. -/

open Np Spec Matrix

noncomputable section

namespace GP

section
variable {n n' b : ℕ} (ρ : Fin n ≃ Fin n')

theorem det_perm {K : Mat n n} {K' : Mat n' n'} {s : ℝ} (hK : K'.submatrix ρ ρ = s • K) : K'.det = s ^ n * K.det := by
  rw [← det_submatrix_equiv_self ρ, hK, det_smul, Fintype.card_fin]

theorem inv_perm {K : Mat n n} {K' : Mat n' n'} {s : ℝ} (hs : s ≠ 0) (hd : K.det ≠ 0) (hK : K'.submatrix ρ ρ = s • K) :
    K'⁻¹.submatrix ρ ρ = s⁻¹ • K⁻¹ := by
  rw [← inv_submatrix_equiv, hK]
  exact inv_smul' K (Units.mk0 s hs) (isUnit_iff_ne_zero.mpr hd)

theorem mulVec_perm {m m' : ℕ} {M : Mat n m} (σ : Fin m ≃ Fin m') {M' : Mat n' m'} (hM : M'.submatrix ρ σ = M) {u : Vec m} {u' : Vec m'} (hu : u' ∘ σ = u) :
    (M' *ᵥ u') ∘ ρ = M *ᵥ u := by
  rw [← hM, ← hu, submatrix_mulVec_equiv]
  congr 1
  congr 1
  funext i; simp

/-- Generalised least squares in the new units. -/
theorem gls_perm {K : Mat n n} {K' : Mat n' n'} {s : ℝ} (hs : 0 < s) (hpd : K.PosDef) (hK : K'.submatrix ρ ρ = s • K)
    {V : Mat n b} {V' : Mat n' b} (hV : V'.submatrix ρ id = V) (hr : FullRank V) {y : Vec n} {y' : Vec n'} {u : ℝ} {c : Vec b}
    (hy : y' ∘ ρ = u • y + V *ᵥ c) : gls K' V' y' = u • gls K V y + c := by
  have hi := inv_perm ρ hs.ne' (posDef_detne hpd) hK
  have e1 : (K'⁻¹ * V').submatrix ρ id = s⁻¹ • (K⁻¹ * V) := by
    rw [← submatrix_mul_equiv _ _ ρ ρ id, hi, hV, smul_mul]
  have e2 : V'ᵀ * (K'⁻¹ * V') = s⁻¹ • (Vᵀ * (K⁻¹ * V)) := by
    have : V'ᵀ * (K'⁻¹ * V') = (V'ᵀ.submatrix id ρ) * ((K'⁻¹ * V').submatrix ρ id) := by
      rw [submatrix_mul_equiv]; simp
    rw [this, e1, ← hV, Matrix.mul_smul]
    rfl
  have e3 : V'ᵀ *ᵥ (K'⁻¹ *ᵥ y') = s⁻¹ • (u • (Vᵀ *ᵥ (K⁻¹ *ᵥ y)) + (Vᵀ * (K⁻¹ * V)) *ᵥ c) := by
    have h1 : (K'⁻¹ *ᵥ y') ∘ ρ = s⁻¹ • (K⁻¹ *ᵥ (u • y + V *ᵥ c)) := by
      rw [mulVec_perm ρ ρ hi hy, smul_mulVec]
    have h2 : V'ᵀ *ᵥ (K'⁻¹ *ᵥ y') = Vᵀ *ᵥ ((K'⁻¹ *ᵥ y') ∘ ρ) := by
      have := mulVec_perm (Equiv.refl (Fin b)) ρ (M := Vᵀ) (M' := V'ᵀ) (by rw [← hV]; rfl) (u' := K'⁻¹ *ᵥ y') rfl
      simpa using this
    rw [h2, h1, mulVec_smul, mulVec_add, mulVec_smul, mulVec_add, mulVec_smul]
    simp only [mulVec_mulVec, Matrix.mul_assoc]
  have hg := gram_posDef hpd hr
  have hdet := posDef_detne hg
  unfold gls
  rw [e2, e3, show (s⁻¹ • (Vᵀ * (K⁻¹ * V)))⁻¹ = s • (Vᵀ * (K⁻¹ * V))⁻¹ from by
    have := inv_smul' (Vᵀ * (K⁻¹ * V)) (Units.mk0 s⁻¹ (inv_ne_zero hs.ne')) (isUnit_iff_ne_zero.mpr hdet)
    rw [show (Units.mk0 s⁻¹ (inv_ne_zero hs.ne'))⁻¹ = Units.mk0 s hs.ne' from Units.ext (by simp)] at this
    exact this]
  rw [smul_mulVec, mulVec_smul, smul_smul, mul_inv_cancel₀ hs.ne', one_smul, mulVec_add, mulVec_smul, mulVec_mulVec c,
    nonsing_inv_mul _ (isUnit_iff_ne_zero.mpr hdet), one_mulVec]

/-- The residual sum of squares in the new units. -/
theorem rss_perm {K : Mat n n} {K' : Mat n' n'} {s : ℝ} (hs : 0 < s) (hpd : K.PosDef) (hK : K'.submatrix ρ ρ = s • K)
    {V : Mat n b} {V' : Mat n' b} (hV : V'.submatrix ρ id = V) (hr : FullRank V) {y : Vec n} {y' : Vec n'} {u : ℝ} {c : Vec b}
    (hy : y' ∘ ρ = u • y + V *ᵥ c) : rss K' V' y' = u ^ 2 / s * rss K V y := by
  have hi := inv_perm ρ hs.ne' (posDef_detne hpd) hK
  have hres : (y' - V' *ᵥ gls K' V' y') ∘ ρ = u • (y - V *ᵥ gls K V y) := by
    rw [gls_perm ρ hs hpd hK hV hr hy]
    have h1 : (V' *ᵥ (u • gls K V y + c)) ∘ ρ = V *ᵥ (u • gls K V y + c) :=
      mulVec_perm ρ (Equiv.refl (Fin b)) (by rw [← hV]; rfl) rfl
    have : (y' - V' *ᵥ (u • gls K V y + c)) ∘ ρ = y' ∘ ρ - (V' *ᵥ (u • gls K V y + c)) ∘ ρ := rfl
    rw [this, h1, hy, mulVec_add, mulVec_smul, smul_sub]
    abel
  unfold rss maha
  rw [← comp_equiv_dotProduct_comp_equiv _ _ ρ, mulVec_perm ρ ρ hi hres, hres, smul_mulVec, mulVec_smul]
  simp only [smul_dotProduct, dotProduct_smul, smul_eq_mul]
  field_simp

theorem posDef_perm {K : Mat n n} {K' : Mat n' n'} {s : ℝ} (hs : 0 < s) (hpd : K.PosDef) (hK : K'.submatrix ρ ρ = s • K) : K'.PosDef := by
  have h1 : (s • K).PosDef := hpd.smul hs
  rw [← hK] at h1
  have := h1.submatrix (e := ρ.symm) ρ.symm.injective
  simpa using this

theorem isCondNum_perm {fro : Bool} {A : Mat n n} {A' : Mat n' n'} (hA : A'.submatrix ρ ρ = A) {κ : ℝ} (h : IsCondNum fro A κ) :
    IsCondNum fro A' κ := by
  subst hA
  have hnn : n = n' := by simpa using Fintype.card_congr ρ
  unfold IsCondNum at h ⊢
  cases fro with
  | true =>
    simp only [if_true] at h ⊢
    obtain ⟨B, h1, h2, h3⟩ := h
    refine ⟨B.submatrix ρ.symm ρ.symm, ?_, ?_, ?_⟩
    · have : A' * B.submatrix ρ.symm ρ.symm = (A'.submatrix ρ ρ * B).submatrix ρ.symm ρ.symm := by
        rw [← submatrix_mul_equiv _ _ _ ρ.symm _]; simp
      rw [this, h1]; simp
    · have : B.submatrix ρ.symm ρ.symm * A' = (B * A'.submatrix ρ ρ).submatrix ρ.symm ρ.symm := by
        rw [← submatrix_mul_equiv _ _ _ ρ.symm _]; simp
      rw [this, h2]; simp
    · rw [h3]
      congr 2
      · rw [← Equiv.sum_comp ρ]
        exact Finset.sum_congr rfl fun i _ => (Equiv.sum_comp ρ (fun j => A' (ρ i) j ^ 2))
      · rw [← Equiv.sum_comp ρ.symm]
        exact Finset.sum_congr rfl fun i _ => (Equiv.sum_comp ρ.symm (fun j => B (ρ.symm i) j ^ 2)).symm
  | false =>
    simp only [Bool.false_eq_true, if_false] at h ⊢
    obtain ⟨lo, hi, h1, h2, h3, h4⟩ := h
    have hq : ∀ x : Vec n', x ⬝ᵥ A' *ᵥ x = (x ∘ ρ) ⬝ᵥ (A'.submatrix ρ ρ) *ᵥ (x ∘ ρ) := fun x => by
      rw [← mulVec_perm ρ ρ rfl rfl, comp_equiv_dotProduct_comp_equiv]
    have hs : ∀ x : Vec n', x ⬝ᵥ x = (x ∘ ρ) ⬝ᵥ (x ∘ ρ) := fun x => (comp_equiv_dotProduct_comp_equiv _ _ ρ).symm
    have he : ∀ l : ℝ, (∃ x : Vec n, x ≠ 0 ∧ A'.submatrix ρ ρ *ᵥ x = l • x) → ∃ x : Vec n', x ≠ 0 ∧ A' *ᵥ x = l • x := by
      rintro l ⟨x, hx, he⟩
      have hxx : (x ∘ ρ.symm) ∘ ρ = x := by funext i; simp
      refine ⟨x ∘ ρ.symm, fun h0 => hx (by rw [← hxx, h0]; rfl), ?_⟩
      have h5 := mulVec_perm ρ ρ (M := A'.submatrix ρ ρ) (M' := A') rfl (u' := x ∘ ρ.symm) (u := x) hxx
      rw [he] at h5
      funext i
      have := congrFun h5 (ρ.symm i)
      simpa using this
    exact ⟨lo, hi, ⟨he _ h1.1, fun x => by rw [hq, hs]; exact h1.2 _⟩, ⟨he _ h2.1, fun x => by rw [hq, hs]; exact h2.2 _⟩, h3, h4⟩

theorem kwn_perm {K : Mat n n} {K' : Mat n' n'} (hK : K'.submatrix ρ ρ = K) {N : Vec n} {N' : Vec n'} {s v : ℝ} (hs : s ≠ 0) (hN : N' ∘ ρ = s • N) :
    (kwn (s * v) K' N').submatrix ρ ρ = kwn v K N := by
  ext i j
  have h2 : N' (ρ i) = s * N i := congrFun hN i
  rw [← hK]
  simp only [kwn, submatrix_apply, Matrix.add_apply, diagonal_apply, ρ.injective.eq_iff, h2, mul_div_mul_left _ _ hs]

theorem corr_sub {A : Mat n n} {A' : Mat n' n'} (h : A'.submatrix ρ ρ = A) : (corr A').submatrix ρ ρ = corr A := by
  ext i j
  rw [← h]
  rfl

/-- The covariance matrix of restated data. -/
theorem cov_restated {o : CondOpts} {v s : ℝ} (hv : 0 < v) (hs : 0 < s) {K : Mat n n} {K' : Mat n' n'} (hK : K'.submatrix ρ ρ = K) {N : Vec n}
    {N' : Vec n'} (hN : N' ∘ ρ = s • N) {cf cc : Bool} {out : CovOut n} {out' : CovOut n'} (h : CovSpec o v K N cf cc out)
    (h' : CovSpec o (s * v) K' N' cf cc out') : out'.etaK = out.etaK ∧ out'.Kcov.submatrix ρ ρ = s • out.Kcov := by
  have hkw := kwn_perm ρ (v := v) hK hs.ne' hN
  have hη : out'.etaK = out.etaK := by
    rw [h.eta, h'.eta, rowSup_perm ρ]
    split_ifs
    · exact corr_sub ρ hkw
    · exact hK
  refine ⟨hη, ?_⟩
  rw [h.cov, h'.cov, hη, ← hkw]
  ext i j
  split_ifs <;> simp only [submatrix_apply, Matrix.smul_apply, Matrix.add_apply, smul_eq_mul, diagonal_apply, one_apply,
    ρ.injective.eq_iff] <;> ring

theorem condNum_restated {o : CondOpts} {A : Mat n n} {A' : Mat n' n'} {s : ℝ} (hs : 0 < s) (hn : 0 < n) (hA : A.PosDef) (h : A'.submatrix ρ ρ = s • A) :
    condNum o A' = condNum o A := by
  have hnn : n = n' := by simpa using Fintype.card_congr ρ
  have h1 := isCondNum_condNum (o := o) hn hA
  have h2 := isCondNum_perm ρ h (isCondNum_smul hs h1)
  exact isCondNum_unique (isCondNum_condNum (o := o) (hnn ▸ hn) (posDef_perm ρ hs hA h)) h2

theorem condK_restated {o : CondOpts} {v s : ℝ} (hv : 0 < v) (hs : 0 < s) (hn : 0 < n) {K : Mat n n} {K' : Mat n' n'} (hK : K'.submatrix ρ ρ = K) {N : Vec n}
    {N' : Vec n'} (hN : N' ∘ ρ = s • N) {cf cc : Bool} {out : CovOut n} {out' : CovOut n'} (h : CovSpec o v K N cf cc out)
    (h' : CovSpec o (s * v) K' N' cf cc out') (hpsd : K.PosSemidef) (hd : ∀ i, 0 < K i i) (hN0 : ∀ i, 0 ≤ N i) (hη : 0 < out.etaK) :
    out'.condK = out.condK := by
  obtain ⟨e1, e2⟩ := cov_restated ρ hv hs hK hN h h'
  have hpd := h.posDef hv hpsd hd hN0 hη
  rw [h.cond, h'.cond]
  split_ifs with h1 h2
  · have hkd : ∀ i, 0 < kwn v K N i i := by
      intro i
      simp only [kwn, Matrix.add_apply, diagonal_apply_eq]
      have := hd i
      have := hN0 i
      positivity
    refine congrArg some (condNum_restated ρ (s := s) hs hn ?_ ?_)
    · have hs' : (diagonal fun i => Real.sqrt (kwn v K N i i)) * (v • (corr (kwn v K N) + out.etaK • (1 : Mat n n))) *
          (diagonal fun i => Real.sqrt (kwn v K N i i)) = out.Kcov := by
        rw [precon_conj hkd, h.cov, if_pos h2]
      exact (posDef_diag_conj (fun i => Real.sqrt_pos.mpr (hkd i))).mp (by rw [hs']; exact hpd)
    · rw [e1, ← corr_sub ρ (kwn_perm ρ (v := v) hK hs.ne' hN)]
      ext i j
      simp only [submatrix_apply, Matrix.smul_apply, Matrix.add_apply, smul_eq_mul, one_apply, ρ.injective.eq_iff]
      ring
  · exact congrArg some (condNum_restated ρ hs hn hpd e2)
  · rfl

theorem npVar_perm {π : Equiv.Perm ℕ} {f f' : Arr1} {u b : ℝ} (hn : f'.n = f.n) (hlt : ∀ p < f.n, π p < f.n)
    (hf : ∀ p < f.n, f'.get (π p) = u * f.get p + b) : npVar f' = u ^ 2 * npVar f := by
  have hbij : ∀ F : ℕ → ℝ, ∑ i ∈ Finset.range f.n, F (π i) = ∑ i ∈ Finset.range f.n, F i := by
    intro F
    refine Finset.sum_bij (fun i _ => π i) (fun i hi => Finset.mem_range.mpr (hlt i (Finset.mem_range.mp hi))) (fun i _ j _ h => π.injective h) ?_ (fun _ _ => rfl)
    have hmaps : Set.MapsTo π (Finset.range f.n) (Finset.range f.n : Set ℕ) := fun i hi => by
      simpa using hlt i (by simpa using hi)
    have := (Finset.surjOn_of_injOn_of_card_le π hmaps (π.injective.injOn) le_rfl)
    intro j hj
    obtain ⟨i, hi, h⟩ := this hj
    exact ⟨i, hi, h⟩
  by_cases h0 : f.n = 0
  · unfold npVar; rw [hn, h0]; simp
  have hnz : (f.n : ℝ) ≠ 0 := by exact_mod_cast h0
  have hmean : (∑ j ∈ Finset.range f'.n, f'.get j) / f'.n = u * ((∑ j ∈ Finset.range f.n, f.get j) / f.n) + b := by
    rw [hn, ← hbij f'.get, Finset.sum_congr rfl fun i hi => hf i (Finset.mem_range.mp hi), Finset.sum_add_distrib, ← Finset.mul_sum]
    simp only [Finset.sum_const, Finset.card_range, nsmul_eq_mul]
    field_simp
  unfold npVar
  rw [hmean, hn, ← hbij fun i => (f'.get i - _) ^ 2]
  rw [Finset.sum_congr rfl fun i hi => by rw [hf i (Finset.mem_range.mp hi)]]
  generalize (∑ j ∈ Finset.range f.n, f.get j) / (f.n : ℝ) = m
  rw [← mul_div_assoc, Finset.mul_sum]
  congr 1
  exact Finset.sum_congr rfl fun i _ => by ring

end

section
variable {π τ : Equiv.Perm ℕ} {c : Pt} {u b : ℝ} {g : Gp} {D : DataSet}

/-- The data set in the old units. -/
def unscaled (u b : ℝ) (D : DataSet) : DataSet :=
  { D with fval := D.fval.map fun v => (v - b) / u, grad := D.grad.map fun G => G.map fun v => v / u,
           stdFval := D.stdFval.map fun s => s.map fun v => v / |u|, stdGrad := D.stdGrad.map fun s => s.map fun v => v / |u| }

theorem restated_order (hu : u ≠ 0) (h : Restated π τ c u b g D) : Rearranged π τ c g (unscaled u b D) where
  pt_lt := h.pt_lt
  gr_lt := h.gr_lt
  x := h.x
  fval p hp := by
    show (D.fval.get (π p) - b) / u = _
    rw [h.fval p hp]; field_simp; ring
  gsel := h.gsel
  grad G G' hG hG' a ha i hi := by
    obtain ⟨G'', h1, rfl⟩ := Option.map_eq_some_iff.mp hG'
    show G''.get (τ a) i / u = _
    rw [h.grad G G'' hG h1 a ha i hi]; field_simp
  stdF s s' hs hs' p hp := by
    obtain ⟨s'', h1, rfl⟩ := Option.map_eq_some_iff.mp hs'
    show s''.get (π p) / |u| = _
    rw [h.stdF s s'' hs h1 p hp]; field_simp
  stdG s s' hs hs' a ha i hi := by
    obtain ⟨s'', h1, rfl⟩ := Option.map_eq_some_iff.mp hs'
    show s''.get (τ a) i / |u| = _
    rw [h.stdG s s'' hs h1 a ha i hi]; field_simp

theorem unitsHp_adm (hu : u ≠ 0) {hp : HpVals} (hh : HpAdm g hp) : HpAdm (withData g D) (unitsHp u hp) where
  theta := hh.theta
  kernel := hh.kernel
  vf_none h := by simp [unitsHp, hh.vf_none h]
  vf_some h := by
    obtain ⟨v, h1, h2⟩ := hh.vf_some h
    exact ⟨u ^ 2 * v, by simp [unitsHp, h1], by positivity⟩
  vg_none h h' := by simp [unitsHp, hh.vg_none h h']
  vg_some h h' := by
    obtain ⟨v, h1, h2⟩ := hh.vg_some h h'
    exact ⟨u ^ 2 * v, by simp [unitsHp, h1], by positivity⟩

/-- The row of the restated data that corresponds to a row. -/
def rowEq (hg : GpOk g) (hu : u ≠ 0) (h : Restated π τ c u b g D) : Fin g.nData ≃ Fin (withData g D).nData :=
  permRow (D := unscaled u b D) hg (restated_order hu h)

theorem kern_restated (hg : GpOk g) (hg' : GpOk (withData g D)) (hu : u ≠ 0) (h : Restated π τ c u b g D) {hp : HpVals} (hh : HpAdm g hp)
    {K : Mat g.nData g.nData} {K' : Mat (withData g D).nData (withData g D).nData} (hK : IsKern g hp K)
    (hK' : IsKern (withData g D) (unitsHp u hp) K') : K'.submatrix (rowEq hg hu h) (rowEq hg hu h) = K := by
  ext p q
  have e1 := isKern_entry hg hh hK p q
  have e2 : K' (rowEq hg hu h p) (rowEq hg hu h q) = _ := isKern_entry hg' (unitsHp_adm hu hh) hK' (rowEq hg hu h p) (rowEq hg hu h q)
  rw [submatrix_apply, e1, e2]
  exact kk_permRow hg (restated_order hu h) p q

theorem noise_restated (hg : GpOk g) (hg' : GpOk (withData g D)) (hu : u ≠ 0) (h : Restated π τ c u b g D) {hp : HpVals} (hh : HpAdm g hp)
    {Na Na' : Arr1} (hN : NoiseSpec g hp Na) (hN' : NoiseSpec (withData g D) (unitsHp u hp) Na') :
    (toVec (withData g D).nData Na') ∘ rowEq hg hu h = u ^ 2 • toVec g.nData Na := by
  have hval : ∀ p < g.nEval, valVar (withData g D) (unitsHp u hp) (π p) = u ^ 2 * valVar g hp p := by
    intro p hp'
    unfold valVar
    show (if g.fvalZero && g.fgradZero then (0 : ℝ) else if g.knownFval then ((D.stdFval.getD _).get (π p)) ^ 2 else _) = _
    split_ifs with h1 hk
    · simp
    · obtain ⟨s, hs, -⟩ := hg.std_fval hk
      obtain ⟨s', hs', -⟩ := hg'.std_fval hk
      have hs'' : D.stdFval = some s' := hs'
      rw [hs, hs'']
      simp only [Option.getD_some, h.stdF s s' hs hs'' p hp', mul_pow, sq_abs]
    · obtain ⟨v, hv, -⟩ := hh.vf_some (by simpa using hk)
      simp [unitsHp, hv]
  have hgr : ∀ a < g.nGrad, ∀ i < g.dim, gradVar (withData g D) (unitsHp u hp) (τ a) i = u ^ 2 * gradVar g hp a i := by
    intro a ha i hi
    have hug : g.useGrad = true := by
      by_contra hc
      have := hg.nGrad
      rw [if_neg hc] at this
      omega
    unfold gradVar
    show (if g.fvalZero && g.fgradZero then (0 : ℝ) else if g.knownFgrad then ((D.stdGrad.getD _).get (τ a) i) ^ 2 else _) = _
    split_ifs with h1 hk
    · simp
    · obtain ⟨s, hs, -⟩ := hg.std_fgrad hk
      obtain ⟨s', hs', -⟩ := hg'.std_fgrad hk
      have hs'' : D.stdGrad = some s' := hs'
      rw [hs, hs'']
      simp only [Option.getD_some, h.stdG s s' hs hs'' a ha i hi, mul_pow, sq_abs]
    · obtain ⟨v, hv, -⟩ := hh.vg_some hug (by simpa using hk)
      simp [unitsHp, hv]
  funext q
  obtain ⟨hs, hq⟩ := dIx_spec hg q
  show Na'.get ((mapIx π τ (dIx g q)).pos g.nEval g.nGrad) = u ^ 2 * Na.get q
  cases hx : dIx g q with
  | v p =>
    rw [hx] at hs hq
    rw [← hq]
    have hp' : p < g.nEval := hs
    show Na'.get (π p) = u ^ 2 * Na.get p
    rw [hN.val p hp', hN'.val (π p) (h.pt_lt p hp'), hval p hp']
  | g i a =>
    rw [hx] at hs hq
    rw [← hq]
    show Na'.get (g.nEval + i * g.nGrad + τ a) = u ^ 2 * Na.get (g.nEval + i * g.nGrad + a)
    have h1 := hN.grad i hs.1 a hs.2
    have h2 : Na'.get (g.nEval + i * g.nGrad + τ a) = _ := hN'.grad i hs.1 (τ a) (h.gr_lt a hs.2)
    rw [h1, h2, hgr a hs.2 i hs.1]

theorem vec_restated (hg : GpOk g) (hg' : GpOk (withData g D)) (hu : u ≠ 0) (h : Restated π τ c u b g D)
    {y : Vec g.nData} (hy : DataSpec g y) {y' : Vec (withData g D).nData} (hy' : DataSpec (withData g D) y')
    {V : Mat g.nData nBetaCoeff} (hV : ∀ (q : Fin g.nData) (j : Fin nBetaCoeff), V q j = if (q : ℕ) < g.nEval then 1 else 0)
    {V' : Mat (withData g D).nData nBetaCoeff}
    (hV' : ∀ (q : Fin (withData g D).nData) (j : Fin nBetaCoeff), V' q j = if (q : ℕ) < g.nEval then 1 else 0) :
    V'.submatrix (rowEq hg hu h) id = V ∧ y' ∘ rowEq hg hu h = u • y + V *ᵥ (fun _ => b) := by
  have hrow : ∀ q : Fin g.nData, ((rowEq hg hu h q : Fin (withData g D).nData) : ℕ) = (mapIx π τ (dIx g q)).pos g.nEval g.nGrad := fun q => rfl
  have hside : ∀ q : Fin g.nData, ((rowEq hg hu h q : Fin (withData g D).nData) : ℕ) < g.nEval ↔ (q : ℕ) < g.nEval := by
    intro q
    obtain ⟨hs, hq⟩ := dIx_spec hg q
    rw [hrow]
    cases hx : dIx g q with
    | v p =>
      rw [hx] at hs hq
      have h1 : (q : ℕ) = p := hq.symm
      have h2 : p < g.nEval := hs
      rw [h1]
      exact ⟨fun _ => h2, fun _ => h.pt_lt p h2⟩
    | g i a =>
      rw [hx] at hs hq
      have h1 : (q : ℕ) = g.nEval + i * g.nGrad + a := hq.symm
      show g.nEval + i * g.nGrad + τ a < g.nEval ↔ _
      omega
  have hVV : V'.submatrix (rowEq hg hu h) id = V := by
    ext q j
    rw [submatrix_apply, hV', hV]
    simp only [hside]
  refine ⟨hVV, ?_⟩
  funext q
  have hVb : (V *ᵥ fun _ => b) q = if (q : ℕ) < g.nEval then b else 0 := by
    simp only [mulVec, dotProduct, hV]
    have : (Finset.univ : Finset (Fin nBetaCoeff)).card = 1 := rfl
    simp [this]
  show y' (rowEq hg hu h q) = u * y q + (V *ᵥ fun _ => b) q
  rw [hVb]
  obtain ⟨hs, hq⟩ := dIx_spec hg q
  have hval := hrow q
  cases hx : dIx g q with
  | v p =>
    rw [hx] at hs hq hval
    have hp' : p < g.nEval := hs
    have hqp : (q : ℕ) = p := hq.symm
    have hval' : ((rowEq hg hu h q : Fin (withData g D).nData) : ℕ) = π p := hval
    have hlt := h.pt_lt p hp'
    rw [hy.val q (by omega), hy'.val (rowEq hg hu h q) (by rw [hval']; exact hlt), hval', hqp, if_pos hp']
    exact h.fval p hp'
  | g i a =>
    rw [hx] at hs hq hval
    have hval' : ((rowEq hg hu h q : Fin (withData g D).nData) : ℕ) = g.nEval + i * g.nGrad + τ a := hval
    have hq' : (q : ℕ) = g.nEval + i * g.nGrad + a := hq.symm
    have hug : g.useGrad = true := by
      by_contra hc
      have := hg.nGrad
      rw [if_neg hc] at this
      have := hs.2
      omega
    obtain ⟨G, hG, -⟩ := hg.grad_some hug
    obtain ⟨G', hG', -⟩ := hg'.grad_some hug
    rw [if_neg (by omega), hy.grad G hG q i hs.1 a hs.2 hq',
      hy'.grad G' hG' (rowEq hg hu h q) i hs.1 (τ a) (h.gr_lt a hs.2) hval', h.grad G G' hG hG' a hs.2 i hs.1, add_zero]

end

end GP
