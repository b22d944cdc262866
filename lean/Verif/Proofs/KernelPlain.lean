import Verif.Model.KernelPlain
import Verif.Proofs.SqExp2
import Verif.Proofs.Matern2
import Verif.Proofs.RatQuad2

/-! The unmasked gradient-kernel classes compute the same arrays as the masked ones without a mask. -/

open Np Spec

noncomputable section

namespace GP

theorem shift1 (i n : ℕ) : (i + 1) * n = n + i * n := by ring
theorem shift1' (i n : ℕ) : n * (i + 1) = n + i * n := by ring
theorem shift2 (i n : ℕ) : n * (i + 2) = n + i * n + n := by ring
theorem shift2' (i n : ℕ) : (i + 2) * n = n + i * n + n := by ring
theorem shift1c (i n : ℕ) : n * (1 + i) = n + n * i := by ring
theorem shift1s (i n : ℕ) : n * (i + 1) = n + n * i := by ring

theorem sqExpPlainKernGrad_eq {R : Arr3} {theta : Arr1} (hθ : R.d ≤ theta.n) :
    sqExpPlainKernGrad R theta = sqExpKernGrad R theta none none := by
  unfold sqExpPlainKernGrad sqExpKernGrad
  dsimp only
  rw [sqExpSum2_ok hθ]
  simp only [ok_bind, sqExpTerms, pure_eq_ok]
  rw [shift1s R.d R.r, shift1s R.d R.c]
  refine congrArg _ (funext fun A0 => ?_)
  apply forRange_congr
  intro i A1 _ hi
  have hiθ : i < theta.n := by omega
  simp only [Arr1.at'_ok hiθ, Arr3.slab_ok, hi, ok_bind, Arr2.mul_ok, Arr2.map_r, Arr2.map_c, Arr2.smul_r, Arr2.smul_c,
    Arr3.slabD_r, Arr3.slabD_c, shift1 i R.r, shift1 i R.c]
  refine congrArg₂ _ ?_ (funext fun A2 => congrArg _ (funext fun A3 => congrArg _ (funext fun A4 => ?_)))
  · congr 1
    simp only [Arr2.map, Arr2.smul, Arr2.mk.injEq, true_and]
    funext p q
    ring
  · apply forRange_congr
    intro j A5 _ hj
    have hjθ : j < theta.n := by omega
    simp only [Arr1.at'_ok hjθ, Arr3.slab_ok, hi, hj, ok_bind, Arr2.mul_ok, Arr2.map_r, Arr2.map_c, Arr2.smul_r, Arr2.smul_c,
      Arr3.slabD_r, Arr3.slabD_c, shift1' j R.r, shift1' j R.c, shift1' i R.c, shift2]

theorem sqExpPlainGradX_eq {R : Arr3} {theta : Arr1} (hθ : R.d ≤ theta.n) :
    sqExpPlainGradX R theta = sqExpKernGradGradX R theta none := by
  unfold sqExpPlainGradX sqExpKernGradGradX
  refine congrArg _ (funext fun KB => congrArg _ (funext fun H => ?_))
  unfold sqExpPlainGradXJit sqExpKernGradGradXJit
  simp only [pure_eq_ok, ok_bind]
  rw [shift1c R.d R.c]
  refine congrArg _ (funext fun A0 => ?_)
  apply forRange_congr
  intro k A1 _ hk
  have hkθ : k < theta.n := by omega
  simp only [Arr1.at'_ok hkθ, Arr3.slab_ok, hk, ok_bind]
  apply forRange_congr
  intro i A2 _ hi
  have hiθ : i < theta.n := by omega
  simp only [Arr1.at'_ok hiθ, Arr3.slab_ok, hi, ok_bind]
  apply forRange_congr
  intro j A3 _ hj
  simp only [shift1 j R.c]

theorem maternPlainKernGrad_eq {R : Arr3} {theta : Arr1} (hθ : R.d ≤ theta.n) :
    maternPlainKernGrad R theta = maternKernGrad R theta none none := by
  unfold maternPlainKernGrad maternKernGrad
  dsimp only
  rw [materNu_ok hθ]
  simp only [ok_bind, Arr2.mul_ok, Arr2.map_r, Arr2.map_c, maternTerms, pure_eq_ok]
  rw [shift1s R.d R.r, shift1s R.d R.c]
  refine congrArg _ (funext fun A0 => ?_)
  apply forRange_congr
  intro i A1 _ hi
  have hiθ : i < theta.n := by omega
  simp only [Arr1.at'_ok hiθ, Arr3.slab_ok, hi, ok_bind, Arr2.mul_ok, Arr2.sub_ok, Arr2.map_r, Arr2.map_c, Arr2.smul_r, Arr2.smul_c,
    Arr3.slabD_r, Arr3.slabD_c, shift1 i R.r, shift1 i R.c]
  refine congrArg₂ _ ?_ (funext fun A2 => congrArg₂ _ ?_ (funext fun A3 => congrArg₂ _ ?_ (funext fun A4 => ?_)))
  · congr 1
    simp only [Arr2.map, Arr2.smul, Arr2.mk.injEq, true_and, Arr3.slabD]
    funext p q
    ring
  · congr 1
    simp only [Arr2.map, Arr2.smul, Arr2.mk.injEq, true_and, Arr3.slabD]
    funext p q
    ring
  · congr 1
    simp only [Arr2.map, Arr2.smul, Arr2.mk.injEq, true_and, Arr3.slabD]
    funext p q
    ring
  · apply forRange_congr
    intro j A5 _ hj
    have hjθ : j < theta.n := by omega
    simp only [Arr1.at'_ok hjθ, Arr3.slab_ok, hi, hj, ok_bind, Arr2.mul_ok, Arr2.map_r, Arr2.map_c, Arr2.smul_r, Arr2.smul_c,
      Arr3.slabD_r, Arr3.slabD_c, shift1' j R.r, shift1' j R.c, shift1' i R.c, shift2]

theorem maternPlainGradX_eq (R : Arr3) (theta : Arr1) :
    maternPlainGradX R theta = maternKernGradGradX R theta none := rfl

theorem maternPlainGradXJit_eq {R : Arr3} {theta : Arr1} (H : Arr3) :
    maternPlainGradXJit R theta H = maternKernGradGradXJit R theta H none := by
  unfold maternPlainGradXJit maternKernGradGradXJit
  simp only [pure_eq_ok, ok_bind]
  rw [shift1c R.d R.c]
  refine congrArg _ (funext fun nu => congrArg _ (funext fun A0 => ?_))
  apply forRange_congr
  intro k A1 _ hk
  refine congrArg _ (funext fun thk => congrArg _ (funext fun Tk => ?_))
  apply forRange_congr
  intro i A2 _ hi
  refine congrArg _ (funext fun thi => congrArg _ (funext fun Ti => ?_))
  apply forRange_congr
  intro j A3 _ hj
  simp only [shift1 j R.c]

theorem ratQuadPlainKernGrad_eq {R : Arr3} {theta : Arr1} (hθ : R.d ≤ theta.n) (α : ℝ) :
    ratQuadPlainKernGrad R theta α = ratQuadKernGrad R theta α none none := by
  unfold ratQuadPlainKernGrad ratQuadKernGrad
  dsimp only
  rw [ratQuadSum_ok hθ]
  simp only [ok_bind, Arr2.mul_ok, Arr2.map_r, Arr2.map_c, ratQuadTerms, pure_eq_ok]
  rw [shift1s R.d R.r, shift1s R.d R.c]
  refine congrArg _ (funext fun A0 => ?_)
  apply forRange_congr
  intro i A1 _ hi
  have hiθ : i < theta.n := by omega
  simp only [Arr1.at'_ok hiθ, Arr3.slab_ok, hi, ok_bind, Arr2.mul_ok, Arr2.sub_ok, Arr2.map_r, Arr2.map_c, Arr2.smul_r, Arr2.smul_c,
    Arr3.slabD_r, Arr3.slabD_c, Arr3.map_d, Arr3.map_r, Arr3.map_c, shift1 i R.r, shift1 i R.c]
  refine congrArg₂ _ ?_ (funext fun A2 => congrArg _ (funext fun A3 => congrArg _ (funext fun A4 => ?_)))
  · congr 1
    simp only [Arr2.map, Arr2.smul, Arr2.mk.injEq, true_and, Arr3.slabD]
    funext p q
    ring
  · apply forRange_congr
    intro j A5 _ hj
    have hjθ : j < theta.n := by omega
    simp only [Arr1.at'_ok hjθ, Arr3.slab_ok, hi, hj, ok_bind, Arr2.mul_ok, Arr2.map_r, Arr2.map_c, Arr2.smul_r, Arr2.smul_c,
      Arr3.slabD_r, Arr3.slabD_c, shift1' j R.r, shift1' j R.c, shift1' i R.c, shift2]

theorem ratQuadPlainGradX_eq {R : Arr3} {theta : Arr1} (hθ : R.d ≤ theta.n) (α : ℝ) :
    ratQuadPlainGradX R theta α = ratQuadKernGradGradX R theta α none := by
  unfold ratQuadPlainGradX ratQuadKernGradGradX
  dsimp only
  rw [ratQuadSum_ok hθ]
  simp only [ok_bind, pure_eq_ok]
  rw [shift1c R.d R.c]
  apply forRange_congr
  intro k A1 _ hk
  have hkθ : k < theta.n := by omega
  simp only [Arr1.at'_ok hkθ, Arr3.slab_ok, hk, ok_bind, Nat.succ_mul k R.r, shift1 k R.c, shift2' k R.c]
  refine congrArg _ (funext fun A2 => ?_)
  apply forRange_congr
  intro i A3 _ hi
  have hiθ : i < theta.n := by omega
  simp only [Arr1.at'_ok hiθ, Arr3.slab_ok, hi, hk, ok_bind, Arr2.mul_ok, Arr2.sub_ok, Arr2.map_r, Arr2.map_c, Arr2.smul_r, Arr2.smul_c,
    Arr3.slabD_r, Arr3.slabD_c, Arr3.map_d, Arr3.map_r, Arr3.map_c, Arr3.subSlice_eq, shift1 i R.c, shift2' i R.c]
  have hneg : ∀ (A B : Arr2) (s : ℝ) (m n : ℕ), (⟨m, n, fun p q => (A.smul (-s)).get p q * B.get p q⟩ : Arr2)
      = (⟨m, n, fun p q => (A.smul s).get p q * B.get p q⟩ : Arr2).map fun x => -x := by
    intro A B s m n
    simp only [Arr2.map, Arr2.smul, Arr2.mk.injEq, true_and]
    funext p q; ring
  refine congrArg _ (funext fun A4 => congrArg _ (funext fun A5 => congrArg₂ _ ?_ (funext fun A6 => congrArg₂ _ ?_ (funext fun A7 => ?_))))
  · congr 1
    simp only [Arr2.map, Arr2.smul, Arr2.mk.injEq, true_and, Arr3.slabD]
    funext p q; ring
  · congr 1
    simp only [Arr2.map, Arr2.smul, Arr2.mk.injEq, true_and, Arr3.slabD]
    funext p q; ring
  · apply forRange_congr
    intro j A8 _ hj
    simp only [shift1 j R.c, shift2' j R.c]

theorem ratQuadPlainGradTh_eq {R : Arr3} {theta : Arr1} (α : ℝ) :
    ratQuadPlainGradTh R theta α = ratQuadKernGradGradTh R theta α none := by
  unfold ratQuadPlainGradTh ratQuadKernGradGradTh
  simp only [ratQuadThTerms, pure_eq_ok, ok_bind]
  simp only [shift1s, shift1]

theorem addSlice_err_index {A : Arr3} {k r1 r2 c1 c2 : ℕ} {V : Arr2} (hk : ¬ k < A.d) :
    A.addSlice k r1 r2 c1 c2 V = .error .index := by
  simp only [Arr3.addSlice, Arr3.modSlice, Arr3.slab, hk, if_false]; rfl

/-- `D[..] -= V1; D[..] += V2` is one update. -/
theorem add_add_slice (A : Arr3) (k r1 r2 c1 c2 : ℕ) (V W : Arr2) (hr : V.r = W.r) (hc : V.c = W.c) :
    ((A.addSlice k r1 r2 c1 c2 V) >>= fun B => B.addSlice k r1 r2 c1 c2 W)
      = A.addSlice k r1 r2 c1 c2 ⟨V.r, V.c, fun p q => V.get p q + W.get p q⟩ := by
  by_cases hk : k < A.d
  · by_cases h : (V.r = min r2 A.r - min r1 A.r ∨ V.r = 1) ∧ (V.c = min c2 A.c - min c1 A.c ∨ V.c = 1)
    · have h' := h
      rw [hr, hc] at h'
      simp only [Arr3.addSlice, Arr3.modSlice, Arr3.slab_ok hk, ok_bind, Arr2.modSlice, Arr3.slabD_r, Arr3.slabD_c, if_pos h, pure_eq_ok,
        Arr3.slab_ok (A := Arr3.putSlab _ _ _) (i := k) hk, Arr3.putSlab_r, Arr3.putSlab_c, if_pos h']
      simp only [Arr3.putSlab, Arr3.slabD, Except.ok.injEq, Arr3.mk.injEq, true_and, hr, hc]
      funext d i j
      by_cases hd : d = k
      · subst hd
        simp only [if_true]
        split_ifs <;> ring
      · simp only [hd, if_false]
    · simp only [Arr3.addSlice, Arr3.modSlice, Arr3.slab_ok hk, ok_bind, Arr2.modSlice, Arr3.slabD_r, Arr3.slabD_c, if_neg h]
      rfl
  · rw [addSlice_err_index hk, addSlice_err_index hk]; rfl

/-- Slice updates read the right-hand side only inside its shape. -/
theorem addSlice_congr (A : Arr3) (k r1 r2 c1 c2 : ℕ) {V W : Arr2} (hr : V.r = W.r) (hc : V.c = W.c)
    (h1 : r1 + V.r = r2) (h3 : c1 + V.c = c2)
    (h : ∀ p < V.r, ∀ q < V.c, V.get p q = W.get p q) :
    A.addSlice k r1 r2 c1 c2 V = A.addSlice k r1 r2 c1 c2 W := by
  have hb : ∀ n l x, x < n → bidx n l x < n := by
    intro n l x hx
    unfold bidx
    split_ifs <;> omega
  simp only [Arr3.addSlice, Arr3.modSlice, Arr2.modSlice, ← hr, ← hc]
  refine congrArg _ (funext fun S => congrArg₂ _ ?_ rfl)
  split_ifs with hc'
  swap
  · rfl
  congr 2
  funext i j
  split_ifs with h0
  · rw [h _ (hb _ _ _ (by omega)) _ (hb _ _ _ (by omega))]
  · rfl

theorem maNu_symm {R : Arr3} (hS : SelfR R) (theta : Arr1) (p q : ℕ) : maNu R theta p q = maNu R theta q p := by
  unfold maNu
  rw [hS.ssq]

theorem maternPlainGradTh_eq {R : Arr3} {theta : Arr1} (hθ : R.d ≤ theta.n) (hS : SelfR R) :
    maternPlainGradTh R theta = maternKernGradGradTh R theta none := by
  unfold maternPlainGradTh maternKernGradGradTh
  dsimp only
  rw [materNu_ok hθ, pyAssert_true hS.1]
  have hS1 := hS.1
  simp only [ok_bind, Arr2.mul_ok, Arr2.map_r, Arr2.map_c, maternThTerms, pure_eq_ok, shift1s, shift1]
  apply forRange_congr
  intro d A1 _ hd
  simp only [Arr3.slab_ok, hd, ok_bind, Arr2.mul_ok, Arr2.map_r, Arr2.map_c, Arr2.smul_r, Arr2.smul_c,
    Arr3.slabD_r, Arr3.slabD_c, Arr3.map_d, Arr3.map_r, Arr3.map_c, Arr3.subSlice_eq]
  refine congrArg _ (funext fun A2 => congrArg₂ _ ?_ (funext fun A3 => congrArg₂ _ ?_ (funext fun A4 => congrArg _ (funext fun A5 => ?_))))
  · congr 1
    simp only [Arr2.map, Arr2.mk.injEq, true_and, Arr3.slabD]
    funext p q; ring
  · congr 1
    simp only [Arr2.map, Arr2.mk.injEq, Arr3.slabD, Arr2.T]
    refine ⟨hS1, hS1.symm, ?_⟩
    funext p q
    rw [maNu_symm hS theta p q, hS.2 d p q]; ring
  apply forRange_congr
  intro i A6 _ hi
  have hiθ : i < theta.n := by omega
  simp only [Arr1.at'_ok hiθ, Arr3.slab_ok, hi, hd, ok_bind, Arr2.mul_ok, Arr2.add_ok, Arr2.map_r, Arr2.map_c, Arr2.smul_r, Arr2.smul_c,
    Arr3.slabD_r, Arr3.slabD_c, Arr3.map_d, Arr3.map_r, Arr3.map_c, Arr3.subSlice_eq]
  refine congrArg₂ _ ?_ (funext fun A7 => congrArg₂ _ ?_ (funext fun A8 => congrArg _ (funext fun A9 => congrArg₂ _ ?_ (funext fun A10 => ?_))))
  · congr 1
    simp only [Arr2.map, Arr2.smul, Arr2.mk.injEq, true_and, Arr3.slabD]
    funext p q; ring
  · congr 1
    simp only [Arr2.map, Arr2.smul, Arr2.mk.injEq, Arr3.slabD, Arr2.T, Arr3.map]
    refine ⟨hS1, hS1.symm, ?_⟩
    funext p q
    rw [maNu_symm hS theta p q, hS.2 d p q, hS.2 i p q]; ring
  · congr 1
    simp only [Arr2.map, Arr2.smul, Arr2.mk.injEq, Arr3.slabD, Arr2.T]
    refine ⟨hS1, hS1.symm, ?_⟩
    funext p q
    rw [maNu_symm hS theta p q, hS.2 d p q, hS.2 i p q]; ring
  rw [← bind_assoc, add_add_slice _ _ _ _ _ _ _ _ (by rfl) (by rfl)]
  refine congrArg₂ _ ?_ (funext fun A11 => ?_)
  · congr 1
    simp only [Arr2.map, Arr2.smul, Arr2.mk.injEq, true_and, Arr3.slabD, Arr3.map]
    funext p q; ring
  rfl

theorem rqS_symm {R : Arr3} (hS : SelfR R) (theta : Arr1) (p q : ℕ) : rqS R theta p q = rqS R theta q p := by
  unfold rqS
  rw [hS.ssq]

theorem ratQuadPlainGradAlpha_eq {R : Arr3} {theta : Arr1} (hθ : R.d ≤ theta.n) (hS : SelfR R) (α : ℝ) :
    ratQuadPlainGradAlpha R theta α = ratQuadKernGradGradAlpha R theta α none := by
  unfold ratQuadPlainGradAlpha ratQuadKernGradGradAlpha
  dsimp only
  rw [ratQuadSum_ok hθ, pyAssert_true hS.1]
  have hS1 := hS.1
  simp only [ok_bind, Arr2.mul_ok, Arr2.add_ok, Arr2.sub_ok, Arr2.map_r, Arr2.map_c, Arr2.smul_r, Arr2.smul_c, ratQuadAlphaTerms, pure_eq_ok,
    shift1s, shift1]
  refine congrArg _ (funext fun A0 => ?_)
  apply forRange_congr
  intro i A1 _ hi
  have hiθ : i < theta.n := by omega
  simp only [Arr1.at'_ok hiθ, Arr3.slab_ok, hi, ok_bind, Arr2.mul_ok, Arr2.add_ok, Arr2.map_r, Arr2.map_c, Arr2.smul_r, Arr2.smul_c,
    Arr3.slabD_r, Arr3.slabD_c, Arr3.map_d, Arr3.map_r, Arr3.map_c, Arr3.subSlice_eq]
  refine congrArg _ (funext fun A2 => congrArg₂ _ ?_ (funext fun A3 => ?_))
  · congr 1
    simp only [Arr2.map, Arr2.smul, Arr2.mk.injEq, Arr3.slabD, Arr2.T]
    refine ⟨hS1, hS1.symm, ?_⟩
    funext p q
    rw [rqS_symm hS theta p q, hS.2 i p q]; ring
  rfl

theorem sqExpPlainGradTh_eq {R : Arr3} {theta : Arr1} (hθ : R.d ≤ theta.n) (hS : SelfR R) :
    sqExpPlainGradTh R theta = sqExpKernGradGradTh R theta none := by
  unfold sqExpPlainGradTh sqExpKernGradGradTh
  rw [sqExpPlainKernGrad_eq hθ]
  obtain ⟨KG, hKG, rKG⟩ := sqExpKernGrad_ok (m1 := none) (m2 := none) hθ (by simp [maskOk]) (by simp [maskOk])
  rw [hKG]
  simp only [ok_bind]
  unfold sqExpPlainGradThJit sqExpKernGradGradThJit
  dsimp only
  rw [pyAssert_true hS.1]
  have hS1 := hS.1
  simp only [← hS1, gN] at rKG
  have kb := rKG.slice (s := .v) (t := .v) trivial trivial
  simp only [Sl.lo, Sl.hi, Sl.len] at kb
  have k1 := fun i (hi : i < R.d) => rKG.slice (s := .g i) (t := .v) hi trivial
  simp only [Sl.lo, Sl.hi, Sl.len] at k1
  have k1' := fun i (hi : i < R.d) => rKG.slice (s := .v) (t := .g i) trivial hi
  simp only [Sl.lo, Sl.hi, Sl.len] at k1'
  have k2 := fun i (hi : i < R.d) j (hj : j < R.d) => rKG.slice (s := .g i) (t := .g j) hi hj
  simp only [Sl.lo, Sl.hi, Sl.len] at k2
  simp only [ok_bind, sqExpThTerms, pure_eq_ok, shift1s, shift1]
  apply forRange_congr
  intro d A1 _ hd
  simp only [Arr3.slab_ok, hd, ok_bind, Arr2.mul_ok, kb.1, kb.2.1, Arr2.map_r, Arr2.map_c, Arr2.smul_r, Arr2.smul_c,
    Arr3.slabD_r, Arr3.slabD_c, Arr3.map_d, Arr3.map_r, Arr3.map_c, Arr3.subSlice_eq, ← hS1]
  have hKB : ∀ p < R.r, ∀ q < R.r, (KG.slice 0 R.r 0 R.r).get p q = (KG.slice 0 R.r 0 R.r).get q p := by
    intro p hp q hq
    rw [kb.2.2 (.v p) (.v q) p q hp hq rfl rfl, kb.2.2 (.v q) (.v p) q p hq hp rfl rfl]
    simp only [kgF, sqExpF, radKG, Ix.pt_v, Ix.coord_v, hS.ssq _ _ p q]
  refine congrArg _ (funext fun A2 => congrArg₂ _ ?_ (funext fun A3 => congrArg₂ _ ?_ (funext fun A4 => congrArg _ (funext fun A5 => ?_))))
  · congr 1
    simp only [Arr2.map, Arr2.smul, Arr2.mk.injEq, true_and, Arr3.slabD]
    funext p q; ring
  · refine addSlice_congr _ _ _ _ _ _ (by rfl) (by rfl) (by simp) (by simp) ?_
    intro p hp q hq
    simp only [Arr2.T_get, Arr2.map, Arr2.smul, Arr3.slabD]
    rw [hKB p hp q hq, hS.2 d p q]; ring
  apply forRange_congr
  intro i A6 _ hi
  have hiθ : i < theta.n := by omega
  simp only [Arr1.at'_ok hiθ, Arr3.slab_ok, hi, hd, ok_bind, Arr2.mul_ok, Arr2.add_ok, Arr2.map_r, Arr2.map_c, Arr2.smul_r, Arr2.smul_c,
    Arr3.slabD_r, Arr3.slabD_c, Arr3.map_d, Arr3.map_r, Arr3.map_c, Arr3.subSlice_eq, ← hS1, kb.1, kb.2.1, (k1 i hi).1, (k1 i hi).2.1,
      (k2 i hi i hi).1, (k2 i hi i hi).2.1, (k1' i hi).1, (k1' i hi).2.1]
  refine congrArg₂ _ ?_ (funext fun A7 => congrArg₂ _ ?_ (funext fun A8 => congrArg _ (funext fun A9 => congrArg _ (funext fun A10 => 
    congrArg _ (funext fun A11 => ?_)))))
  · congr 1
    simp only [Arr2.map, Arr2.smul, Arr2.mk.injEq, true_and, Arr3.slabD]
    funext p q; ring
  · refine addSlice_congr _ _ _ _ _ _ (by rfl) (by rfl) (by simp) (by simp) ?_
    intro p hp q hq
    have e1 := (k1' i hi).2.2 (.v p) (.g i q) p q hp ⟨hi, hq⟩ rfl (by simp)
    have e2 := (k1 i hi).2.2 (.g i q) (.v p) q p ⟨hi, hq⟩ hp (by simp) rfl
    simp only [Arr2.map, Arr2.T_get, Arr2.smul, Arr3.slabD, Arr3.map]
    rw [e1, e2]
    simp only [kgF, sqExpF, radKG, Ix.pt_v, Ix.pt_g, Ix.coord_v, Ix.coord_g, gSel, hS.ssq _ _ p q, diffAt, hS.2 d p q, hS.2 i p q]
    ring
  rfl

end GP
