import Verif.Proofs.CondVal
import Verif.Proofs.CovGp
import Verif.Props.Cond
import Verif.Props.Eval

/-! The condition number that `calc_all_K_w_chofac` returns. -/

open Np Matrix Spec

noncomputable section

namespace GP

variable {n : ℕ}

theorem unitDiag_smul {A : Mat n n} {c : ℝ} (hc : 0 < c) : unitDiag (c • A) = unitDiag A := by
  ext i j
  simp only [unitDiag, of_apply, Matrix.smul_apply, smul_eq_mul]
  rw [Real.sqrt_mul hc.le, Real.sqrt_mul hc.le]
  have : Real.sqrt c * Real.sqrt (A i i) * (Real.sqrt c * Real.sqrt (A j j)) = c * (Real.sqrt (A i i) * Real.sqrt (A j j)) := by
    calc _ = (Real.sqrt c * Real.sqrt c) * (Real.sqrt (A i i) * Real.sqrt (A j j)) := by ring
      _ = _ := by rw [Real.mul_self_sqrt hc.le]
  rw [this, mul_div_mul_left _ _ hc.ne']

/-- The covariance matrix in terms of the noisy kernel matrix. -/
theorem noisyCov_kwn {p : Bool} {v : ℝ} (hv : v ≠ 0) (K : Mat n n) (N : Vec n) (η : ℝ) :
    noisyCov p v K N η = v • (kwn v K N + η • (if p then diagonal (fun i => kwn v K N i i) else 1)) := by
  ext i j
  simp only [noisyCov, of_apply, Matrix.smul_apply, Matrix.add_apply, smul_eq_mul, kwn, diagonal_apply]
  cases p <;> by_cases hij : i = j <;> simp [hij, one_apply, diagonal_apply] <;> field_simp <;> ring

theorem cov_noisyCov {o : CondOpts} {v : ℝ} (hv : 0 < v) {K : Mat n n} {N : Vec n} {cf cc : Bool} {out : CovOut n}
    (h : CovSpec o v K N cf cc out) : out.Kcov = noisyCov o.precon v K N out.etaK := by
  rw [h.cov, noisyCov_kwn hv.ne']

/-- The nugget of the model is that of the specification. -/
theorem cov_nugget {o : CondOpts} {v : ℝ} (hv : 0 < v) (hn : 0 < n) {K : Mat n n} {N : Vec n} {cf cc : Bool} {out : CovOut n}
    (h : CovSpec o v K N cf cc out) : IsNugget o v K N out.etaK := by
  have he := h.eta
  unfold IsNugget
  cases hc : o.etaConst with
  | true => rw [hc] at he; simpa using he
  | false =>
    rw [hc] at he
    simp only [Bool.false_eq_true, if_false] at he ⊢
    have e : (if o.precon = true then unitDiag (noisyCov true v K N 0) else K) = (if o.precon = true then corr (kwn v K N) else K) := by
      split_ifs
      · rw [noisyCov_kwn hv.ne', zero_smul, add_zero, unitDiag_smul hv]; rfl
      · rfl
    rw [e]
    refine ⟨_, he, ?_⟩
    haveI : Nonempty (Fin n) := ⟨⟨0, hn⟩⟩
    obtain ⟨i, hi⟩ := exists_eq_ciSup_of_finite (f := fun i => ∑ j, |(if o.precon = true then corr (kwn v K N) else K) i j|)
    refine ⟨⟨i, hi⟩, ?_⟩
    rintro _ ⟨j, rfl⟩
    exact le_ciSup (f := fun i => ∑ j, |(if o.precon = true then corr (kwn v K N) else K) i j|) (Set.finite_range _).bddAbove j

/-- The recorded condition number is that of the covariance matrix. -/
theorem cov_cond {o : CondOpts} {v : ℝ} (hv : 0 < v) (hn : 0 < n) {K : Mat n n} {N : Vec n} {cf : Bool} {out : CovOut n}
    (h : CovSpec o v K N cf true out) (hK : K.PosSemidef) (hd : ∀ i, 0 < K i i) (hN : ∀ i, 0 ≤ N i) (hη : 0 < out.etaK) :
    ∃ κ, out.condK = some κ ∧ IsCondNum o.fro (condMat o.precon v K N out.etaK) κ := by
  have hpd := h.posDef hv hK hd hN hη
  have hc := h.cond
  simp only [if_true] at hc
  refine ⟨_, hc, ?_⟩
  unfold condMat
  cases hp : o.precon with
  | false =>
    simp only [Bool.false_eq_true, if_false]
    have := cov_noisyCov hv h
    rw [hp] at this
    rw [← this]
    exact isCondNum_condNum hn hpd
  | true =>
    simp only [if_true]
    have hA : ∀ i, 0 < kwn v K N i i := fun i => by
      simp only [kwn, Matrix.add_apply, diagonal_apply_eq]
      have := div_nonneg (hN i) hv.le
      linarith [hd i]
    have hcov := cov_noisyCov hv h
    rw [hp] at hcov
    have hu : unitDiag (noisyCov true v K N out.etaK) = (1 / (v * (1 + out.etaK))) • (v • (corr (kwn v K N) + out.etaK • (1 : Mat n n))) := by
      rw [noisyCov_kwn hv.ne']
      simp only [if_true]
      rw [Props.unitDiag_cov hA hv hη.le, smul_smul]
      congr 1
      have : 1 + out.etaK ≠ 0 := by positivity
      field_simp
    rw [hu]
    refine isCondNum_smul (by positivity) (isCondNum_condNum hn ?_)
    have hs : (diagonal fun i => Real.sqrt (kwn v K N i i)) * (v • (corr (kwn v K N) + out.etaK • (1 : Mat n n))) *
        (diagonal fun i => Real.sqrt (kwn v K N i i)) = out.Kcov := by
      rw [precon_conj hA, h.cov, hp, if_pos rfl]
    exact (posDef_diag_conj (fun i => Real.sqrt_pos.mpr (hA i))).mp (by rw [hs]; exact hpd)


theorem nugget_pos {o : CondOpts} {v : ℝ} (hv : 0 < v) (hn : 0 < n) {K : Mat n n} {N : Vec n} (hd : ∀ i, 0 < K i i) (hN : ∀ i, 0 ≤ N i)
    (hη : if o.etaConst then 0 < o.etaK else 1 < o.condMaxTarget) {η : ℝ} (h : IsNugget o v K N η) : 0 < η := by
  unfold IsNugget at h
  cases hc : o.etaConst with
  | true => rw [hc] at h hη; simp only [if_true] at h hη; rw [h]; exact hη
  | false =>
    rw [hc] at h hη
    simp only [Bool.false_eq_true, if_false] at h hη
    obtain ⟨m, h1, -, h2⟩ := h
    rw [h1]
    refine div_pos ?_ (by linarith)
    set M : Mat n n := if o.precon = true then unitDiag (noisyCov true v K N 0) else K with hM
    have hdiag : M ⟨0, hn⟩ ⟨0, hn⟩ ≠ 0 := by
      rw [hM]
      split_ifs
      · rw [noisyCov_kwn hv.ne', zero_smul, add_zero, unitDiag_smul hv]
        have : corr (kwn v K N) ⟨0, hn⟩ ⟨0, hn⟩ = 1 := corr_diag (fun i => by
          simp only [kwn, Matrix.add_apply, diagonal_apply_eq]
          have := div_nonneg (hN i) hv.le
          linarith [hd i]) _
        exact fun h0 => one_ne_zero (this.symm.trans h0)
      · exact (hd _).ne'
    calc (0 : ℝ) < |M ⟨0, hn⟩ ⟨0, hn⟩| := abs_pos.mpr hdiag
      _ ≤ ∑ j, |M ⟨0, hn⟩ j| := Finset.single_le_sum (f := fun j => |M ⟨0, hn⟩ j|) (fun j _ => abs_nonneg _) (Finset.mem_univ _)
      _ ≤ m := h2 ⟨_, rfl⟩

/-- The condition number that `calc_all_K_w_chofac` returns for an object, with the effective variance `w`. -/
theorem condK_ok {g : Gp} (hg : GpOk g) {hp : HpVals} (hh : HpAdm g hp) (hk : g.useGrad = true ∨ g.knownFval = true)
    (hprec : g.o.precon = true → g.useGrad = true) (hne : 0 < g.nEval) (hη : if g.o.etaConst then 0 < g.o.etaK else 1 < g.o.condMaxTarget)
    {R : Arr3} (hR : calcRtensor g.x g.x = .ok R) {cf : Bool} {varKin : Option ℝ} {w : ℝ} (hw : 0 < w) (hvk : varKin.or hp.varK = some w)
    {out : CovOut g.nData} (ho : calcAllK g R hp none cf true varKin false = .ok out) :
    ∃ κ η, out.condK = some κ ∧ 0 < η ∧ ∀ K N, IsKern g hp K → IsNoise g hp N →
      IsNugget g.o w K N η ∧ IsCondNum g.o.fro (condMat g.o.precon w K N η) κ := by
  obtain ⟨Na, K, out', h1, h2, h3, h4, h5, h6, h7, h8⟩ := calcAllK_ok hg hh hk hprec hne hR cf true varKin false hw
    ⟨⟨w, hvk, fun _ => rfl⟩, fun h => by cases h⟩
  rw [ho] at h7
  cases h7
  have hn : 0 < g.nData := by rw [hg.nData]; omega
  have hNn := NoiseSpec.nonneg hg hh h2
  have hnug := cov_nugget hw hn h8
  have hpos := nugget_pos hw hn h5 hNn hη hnug
  obtain ⟨κ, k1, k2⟩ := cov_cond hw hn h8 h4 h5 hNn hpos
  refine ⟨κ, out.etaK, k1, hpos, fun K' N' hK' hN' => ?_⟩
  obtain rfl := isKern_unique hg hh hK' h3
  obtain rfl := isNoise_unique hg hN' (⟨Na, h2, fun i => rfl⟩ : IsNoise g hp (toVec g.nData Na))
  exact ⟨hnug, k2⟩

/-- Without noise the prior variance is only a factor. -/
theorem condMat_free {p : Bool} {v : ℝ} (hv : 0 < v) (K : Mat n n) (η : ℝ) :
    ∃ c : ℝ, 0 < c ∧ condMat p v K (fun _ => 0) η = c • condMat p 1 K (fun _ => 0) η := by
  have e : noisyCov p v K (fun _ => 0) η = v • noisyCov p 1 K (fun _ => 0) η := by
    ext i j
    simp only [noisyCov, of_apply, Matrix.smul_apply, smul_eq_mul]
    cases p <;> by_cases hij : i = j <;> simp [hij] <;> ring
  unfold condMat
  cases p with
  | true => exact ⟨1, one_pos, by simp only [if_true]; rw [e, unitDiag_smul hv, one_smul]⟩
  | false => exact ⟨v, hv, by simp only [Bool.false_eq_true, if_false]; exact e⟩

theorem nugget_free {o : CondOpts} {v : ℝ} (hv : 0 < v) {K : Mat n n} {η : ℝ} (h : IsNugget o 1 K (fun _ => 0) η) :
    IsNugget o v K (fun _ => 0) η := by
  have e : unitDiag (noisyCov true v K (fun _ => 0) 0) = unitDiag (noisyCov true 1 K (fun _ => 0) 0) := by
    have : noisyCov true v K (fun _ => 0) 0 = v • noisyCov true 1 K (fun _ => 0) 0 := by
      ext i j
      simp only [noisyCov, of_apply, Matrix.smul_apply, smul_eq_mul]
      by_cases hij : i = j <;> simp [hij]
    rw [this, unitDiag_smul hv]
  unfold IsNugget at *
  rw [e]
  exact h


theorem isNugget_unique {o : CondOpts} {v : ℝ} {K : Mat n n} {N : Vec n} {η η' : ℝ} (h : IsNugget o v K N η) (h' : IsNugget o v K N η') :
    η = η' := by
  unfold IsNugget at *
  split_ifs at * with hc
  · rw [h, h']
  · obtain ⟨m, h1, h2⟩ := h
    obtain ⟨m', h1', h2'⟩ := h'
    rw [h1, h1', h2.unique h2']
  · obtain ⟨m, h1, h2⟩ := h
    obtain ⟨m', h1', h2'⟩ := h'
    rw [h1, h1', h2.unique h2']

/-- The bound `CondLe` bounds the spectral condition number. -/
theorem isCondNum_le {A : Mat n n} {κ c : ℝ} (h : IsCondNum false A κ) (hc : CondLe A c) : κ ≤ c := by
  unfold IsCondNum at h
  simp only [Bool.false_eq_true, if_false] at h
  obtain ⟨lo, hi, ⟨⟨x, hx, ex⟩, -⟩, ⟨⟨y, hy, ey⟩, h4⟩, h5, h6⟩ := h
  obtain ⟨-, l, hl, hb⟩ := hc
  have pos : ∀ {z : Vec n}, z ≠ 0 → 0 < z ⬝ᵥ z := fun {z} hz => by
    simpa using (dotProduct_star_self_pos_iff (v := z)).mpr hz
  have l1 : l ≤ lo := by
    have := (hb x).1
    rw [ex, dotProduct_smul, smul_eq_mul] at this
    exact le_of_mul_le_mul_right this (pos hx)
  have l2 : hi ≤ c * l := by
    have := (hb y).2
    rw [ey, dotProduct_smul, smul_eq_mul] at this
    exact le_of_mul_le_mul_right this (pos hy)
  have l3 : lo ≤ hi := by
    have := h4 x
    rw [ex, dotProduct_smul, smul_eq_mul] at this
    exact le_of_mul_le_mul_right this (pos hx)
  have hc0 : 0 ≤ c := by
    by_contra h0
    push Not at h0
    have := mul_neg_of_neg_of_pos h0 hl
    linarith
  rw [h6, div_le_iff₀ h5]
  exact l2.trans (mul_le_mul_of_nonneg_left l1 hc0)

end GP
