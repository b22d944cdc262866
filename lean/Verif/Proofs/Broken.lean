import Verif.Proofs.KernelLink

/-! The calls that raise: masked derivative functions. -/

open Np Spec

noncomputable section

namespace Np

theorem Arr3.modSlice_error_c {f : ℝ → ℝ → ℝ} {A : Arr3} {V : Arr2} {k r1 r2 c1 c2 : ℕ} (hk : k < A.d)
    (h1 : V.c ≠ min c2 A.c - min c1 A.c) (h2 : V.c ≠ 1) : A.modSlice f k r1 r2 c1 c2 V = .error .shape := by
  unfold Arr3.modSlice
  rw [Arr3.slab_ok hk]
  simp only [ok_bind, Arr2.modSlice, Arr3.slabD_c]
  rw [if_neg (by tauto)]
  rfl

end Np

namespace GP

theorem ratQuadKernGrad_mask1_error {R : Arr3} {theta : Arr1} {α : ℝ} {m : List Bool} (hθ : R.d ≤ theta.n)
    (hd : 0 < R.d) (hm : m.length = R.r) (h1 : nTrue m ≠ R.r) (h2 : R.r ≠ 1) (h3 : nTrue m ≠ 1) :
    ratQuadKernGrad R theta α (some m) none = .error .shape := by
  unfold ratQuadKernGrad
  dsimp only
  rw [ratQuadSum_ok hθ]
  simp only [ok_bind]
  unfold ratQuadTerms
  simp only [Arr3.maskRows_ok hm, Arr3.maskRows_ok (A := R.map _) hm,
    Arr2.maskRows_ok (A := Arr2.map _ (Arr2.map _ (⟨R.r, R.c, rqS R theta⟩ : Arr2))) hm, ok_bind, pure_eq_ok]
  unfold Arr2.setSlice
  rw [Arr2.modSlice_ok (by simp) (by simp) (by simp) (by simp)]
  simp only [ok_bind]
  apply forRange_error_first hd
  simp only [Arr1.at'_ok (show 0 < theta.n by omega), Arr3.slab_ok, hd, ok_bind, Arr2.mul_ok,
      Arr2.smul_r, Arr2.smul_c, Arr3.slabD_r, Arr3.slabD_c, Arr2.map_r, Arr2.map_c, Arr3.map_d]
  rw [Arr2.modSlice_ok (by simp) (by
      simp only [Arr2.upd_r, Arr2.zeros_r]
      have := blk_le (g := nTrue m) hd; omega) (by simp) (by simp)]
  simp only [ok_bind]
  have : (Arr2.smul (2 * theta.get 0) (R.slabD 0)).mul
      (⟨nTrue m, R.c, fun i j => (Arr2.map (fun b => b ^ (-α - 1)) (Arr2.map (fun s => 1 + s / α)
        ⟨R.r, R.c, rqS R theta⟩)).get (sel m i) j⟩ : Arr2) = .error .shape := by
    unfold Arr2.mul Arr2.bop
    have : bdim R.r (nTrue m) = none := by unfold bdim; simp [h1.symm, h2, h3]
    simp only [Arr2.smul_r, Arr3.slabD_r, this]
  rw [this]
  rfl

theorem sqExpKernGradGradTh_mask_error {R : Arr3} {theta : Arr1} {m : List Bool} (hθ : R.d ≤ theta.n)
    (hd : 0 < R.d) (hs : R.r = R.c) (hm : m.length = R.r) (h1 : nTrue m ≠ R.r) (h2 : R.r ≠ 1) :
    sqExpKernGradGradTh R theta (some m) = .error .shape := by
  have hmo : maskOk (some m) R.r := by intro l h; simp at h; subst h; exact hm
  obtain ⟨KG, hKG, rKG⟩ := sqExpKernGrad_ok (m1 := some m) (m2 := some m) hθ hmo (hs ▸ hmo)
  unfold sqExpKernGradGradTh
  rw [hKG]
  simp only [ok_bind]
  unfold sqExpKernGradGradThJit
  dsimp only
  rw [pyAssert_true hs]
  have hr := rKG.r
  have hc := rKG.c
  simp only [gN, ← hs] at hr hc
  obtain ⟨R0, Rr, Rc, Rget⟩ := R
  simp only at hs hd hθ hm h1 h2 hr hc ⊢
  subst hs
  have hsl : ∀ a b c d, KG.slice a b c d = ⟨min b KG.r - min a KG.r, min d KG.c - min c KG.c,
    fun i j => KG.get (i + min a KG.r) (j + min c KG.c)⟩ := fun _ _ _ _ => rfl
  have e1 : min Rr KG.r - min 0 KG.r = Rr := by rw [hr]; omega
  have e2 : min Rr KG.c - min 0 KG.c = Rr := by rw [hc]; omega
  have hb := blk_le (g := nTrue m) hd
  have e3 : min (Rr + 0 * nTrue m + nTrue m) KG.r - min (Rr + 0 * nTrue m) KG.r = nTrue m := by rw [hr]; omega
  simp only [hsl, e1, e2, sqExpThTerms, ok_bind, pure_eq_ok, Arr3.maskRows,
    Arr3.maskCols, Arr2.maskCols, Arr2.maskRows, hm, if_true, Arr3.map_r, Arr3.map_c, Arr3.map_d]
  apply forRange_error_first hd
  simp only [Arr3.slab_ok, hd, ok_bind, Arr2.mul_ok, Arr2.smul_r, Arr2.smul_c, Arr3.slabD_r, Arr3.slabD_c,
    Arr2.map_r, Arr2.map_c, Arr3.map_d, Arr3.map_r, Arr3.map_c]
  unfold Arr3.setSlice Arr3.addSlice
  rw [Arr3.modSlice_ok (by simpa using hd) (by simp) (by simp) (by simp) (by simp)]
  simp only [ok_bind]
  rw [Arr3.modSlice_ok (by simpa using hd) (by simp) (by simp; omega) (by simp) (by simp)]
  simp only [ok_bind]
  rw [Arr3.modSlice_ok (by simpa using hd) (by simp) (by simp) (by simp) (by simp; omega)]
  simp only [ok_bind]
  rw [Arr3.modSlice_ok (by simpa using hd) (by simp) (by simp; omega) (by simp) (by simp; omega)]
  simp only [ok_bind]
  apply forRange_error_first hd
  simp only [Arr1.at'_ok (show 0 < theta.n by omega), ok_bind, e3, Arr2.mul_ok, Arr2.map_r, Arr2.map_c,
    Arr3.slabD_r, Arr3.slabD_c]
  rw [Arr3.modSlice_ok (by simpa using hd) (by simp) (by simp; omega) (by simp) (by simp)]
  simp only [ok_bind]
  rw [Arr3.modSlice_ok (by simpa using hd) (by simp) (by simp) (by simp) (by simp; omega)]
  simp only [ok_bind, Arr3.slab_ok, hd, Arr2.mul_ok, Arr2.smul_r, Arr2.smul_c, Arr3.slabD_r, Arr3.slabD_c]
  rw [Arr3.modSlice_error_c (by simpa using hd) (by simp; omega) h2]
  rfl

theorem maternKernGradGradTh_mask_error {R : Arr3} {theta : Arr1} {m : List Bool} (hθ : R.d ≤ theta.n)
    (hd : 0 < R.d) (hs : R.r = R.c) (hm : m.length = R.r) (h1 : nTrue m ≠ R.r) (h2 : R.r ≠ 1) :
    maternKernGradGradTh R theta (some m) = .error .shape := by
  unfold maternKernGradGradTh
  dsimp only
  rw [pyAssert_true hs, materNu_ok hθ]
  obtain ⟨R0, Rr, Rc, Rget⟩ := R
  simp only at hs hd hθ hm h1 h2 ⊢
  subst hs
  have hb := blk_le (g := nTrue m) hd
  simp only [ok_bind, Arr2.mul_ok, Arr2.map_r, Arr2.map_c, maternThTerms, pure_eq_ok, Arr3.maskRows, Arr3.maskCols,
    Arr2.maskCols, Arr2.maskRows, hm, if_true, Arr3.map_r, Arr3.map_c, Arr3.map_d]
  apply forRange_error_first hd
  simp only [Arr3.slab_ok, hd, ok_bind, Arr2.mul_ok, Arr2.smul_r, Arr2.smul_c, Arr3.slabD_r, Arr3.slabD_c,
    Arr2.map_r, Arr2.map_c, Arr3.map_d, Arr3.map_r, Arr3.map_c]
  unfold Arr3.setSlice Arr3.addSlice
  rw [Arr3.modSlice_ok (by simpa using hd) (by simp) (by simp) (by simp) (by simp)]
  simp only [ok_bind]
  rw [Arr3.modSlice_ok (by simpa using hd) (by simp) (by simp; omega) (by simp) (by simp)]
  simp only [ok_bind]
  rw [Arr3.modSlice_ok (by simpa using hd) (by simp) (by simp) (by simp) (by simp; omega)]
  simp only [ok_bind]
  rw [Arr3.modSlice_error_c (by simpa using hd) (by simp; omega) h2]
  rfl

theorem sqExpKernGradGradX_mask_error {R : Arr3} {theta : Arr1} {m : List Bool} (hθ : R.d ≤ theta.n)
    (hd : 2 ≤ R.d) (hm : m.length = R.c) (h1 : nTrue m < R.c) (h2 : 2 ≤ nTrue m) :
    sqExpKernGradGradX R theta (some m) = .error .shape := by
  unfold sqExpKernGradGradX
  rw [sqExpKernBase_ok hθ]
  simp only [ok_bind]
  obtain ⟨H, hH, rH⟩ := sqExpKernBaseHessXJit_ok (R := R) (theta := theta) hθ
  rw [show (⟨R.r, R.c, fun p q => Real.exp (-ssq R.d theta.get (diffAt R p q))⟩ : Arr2) = ⟨R.r, R.c, seK R theta⟩ from rfl, hH]
  simp only [ok_bind]
  unfold sqExpKernGradGradXJit
  dsimp only
  obtain ⟨D0, hD0, r0⟩ := setCols_zero (g2 := nTrue m) rH
  simp only [Arr3.maskCols_ok hm, Arr2.maskCols_ok (A := ⟨R.r, R.c, seK R theta⟩) hm, pure_eq_ok, ok_bind]
  rw [hD0]
  simp only [ok_bind]
  have hd0 : 0 < R.d := by omega
  apply forRange_error_first hd0
  apply forRange_error_first hd0
  apply forRange_error_first hd0
  simp only [Arr1.at'_ok (show 0 < theta.n by omega), Arr3.slab_ok, hd0, ok_bind, Arr2.mul_ok, Arr2.add_ok, Arr2.sub_ok,
      Arr2.smul_r, Arr2.smul_c, Arr3.slabD_r, Arr3.slabD_c, Arr2.map_r, Arr2.map_c, Arr3.map_d]
  unfold Arr3.setSlice
  have hc := r0.c
  have : nTrue m * 2 ≤ nTrue m * R.d := Nat.mul_le_mul_left _ hd
  rw [Arr3.modSlice_error_c (by rw [r0.d]; exact hd0) (by simp; omega) (by simp; omega)]

theorem maternKernGradGradX_mask_error {R : Arr3} {theta : Arr1} {m : List Bool} (hθ : R.d ≤ theta.n)
    (hd : 2 ≤ R.d) (hm : m.length = R.c) (h1 : nTrue m < R.c) (h2 : 2 ≤ nTrue m) :
    maternKernGradGradX R theta (some m) = .error .shape := by
  unfold maternKernGradGradX
  obtain ⟨H, hH, rH⟩ := maternKernBaseHessX_ok (R := R) (theta := theta) hθ
  rw [hH]
  simp only [ok_bind]
  unfold maternKernGradGradXJit
  dsimp only
  rw [materNu_ok hθ]
  obtain ⟨D0, hD0, r0⟩ := setCols_zero (g2 := nTrue m) rH
  simp only [Arr3.maskCols_ok hm, Arr2.maskCols_ok (A := ⟨R.r, R.c, maNu R theta⟩) hm, pure_eq_ok, ok_bind]
  rw [hD0]
  simp only [ok_bind]
  have hd0 : 0 < R.d := by omega
  apply forRange_error_first hd0
  simp only [Arr1.at'_ok (show 0 < theta.n by omega), Arr3.slab_ok, hd0, ok_bind]
  apply forRange_error_first hd0
  simp only [Arr1.at'_ok (show 0 < theta.n by omega), Arr3.slab_ok, hd0, ok_bind]
  apply forRange_error_first hd0
  simp only [Arr1.at'_ok (show 0 < theta.n by omega), Arr3.slab_ok, hd0, ok_bind, Arr2.mul_ok, Arr2.add_ok, Arr2.sub_ok,
      Arr2.smul_r, Arr2.smul_c, Arr3.slabD_r, Arr3.slabD_c, Arr2.map_r, Arr2.map_c, Arr3.map_d]
  unfold Arr3.setSlice
  have hc := r0.c
  have : nTrue m * 2 ≤ nTrue m * R.d := Nat.mul_le_mul_left _ hd
  rw [Arr3.modSlice_error_c (by rw [r0.d]; exact hd0) (by simp; omega) (by simp; omega)]

theorem ratQuadKernGradGradX_mask_error {R : Arr3} {theta : Arr1} {α : ℝ} {m : List Bool} (hθ : R.d ≤ theta.n)
    (hd : 2 ≤ R.d) (hm : m.length = R.c) (h1 : nTrue m < R.c) (h2 : 2 ≤ nTrue m) :
    ratQuadKernGradGradX R theta α (some m) = .error .shape := by
  unfold ratQuadKernGradGradX
  dsimp only
  rw [ratQuadSum_ok hθ]
  simp only [Arr3.maskCols_ok hm, Arr2.maskCols_ok (A := Arr2.map _ (Arr2.map _ (⟨R.r, R.c, rqS R theta⟩ : Arr2))) hm,
    pure_eq_ok, ok_bind]
  have hd0 : 0 < R.d := by omega
  have hb := blk_le (g := R.r) hd0
  apply forRange_error_first hd0
  simp only [Arr1.at'_ok (show 0 < theta.n by omega), Arr3.slab_ok, hd0, ok_bind]
  unfold Arr3.subSlice Arr3.addSlice
  rw [Arr3.modSlice_ok (by simpa using hd0) (by simp) (by simp; omega) (by simp) (by simp)]
  simp only [ok_bind]
  apply forRange_error_first hd0
  simp only [Arr1.at'_ok (show 0 < theta.n by omega), Arr3.slab_ok, hd0, ok_bind, Arr2.mul_ok, Arr2.add_ok, Arr2.sub_ok,
      Arr2.smul_r, Arr2.smul_c, Arr3.slabD_r, Arr3.slabD_c, Arr2.map_r, Arr2.map_c, Arr3.map_d]
  rw [Arr3.modSlice_ok (by simpa using hd0) (by simp) (by simp; omega) (by simp) (by simp)]
  simp only [ok_bind]
  have : nTrue m * 2 ≤ nTrue m * R.d := Nat.mul_le_mul_left _ hd
  rw [Arr3.modSlice_error_c (by simpa using hd0) (by simp; omega) (by simp; omega)]
  rfl

end GP
