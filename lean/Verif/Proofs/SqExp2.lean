import Verif.Proofs.SqExp
import Verif.Proofs.AssembleTh
import Verif.Proofs.AssembleX

/-! Closed forms of the derivative functions of the squared-exponential kernel. -/

open Np Spec

noncomputable section

namespace Np
theorem Arr3.subSlice_eq (A : Arr3) (k r1 r2 c1 c2 : ℕ) (V : Arr2) :
    A.subSlice k r1 r2 c1 c2 V = A.addSlice k r1 r2 c1 c2 (V.map fun x => -x) := by
  simp only [Arr3.subSlice, Arr3.addSlice, Arr3.modSlice, Arr2.modSlice, Arr2.map, sub_eq_add_neg]
  rfl
end Np

namespace GP

/-- Kernel matrix of the squared exponential. -/
def seK (R : Arr3) (theta : Arr1) (p q : ℕ) : ℝ := Real.exp (-ssq R.d theta.get (diffAt R p q))

theorem sqExpKernBaseGradTh_ok {R : Arr3} {theta : Arr1} (hθ : R.d = theta.n) :
    ∃ A, sqExpKernBaseGradTh R theta = .ok A ∧ A.d = R.d ∧ A.r = R.r ∧ A.c = R.c ∧
      ∀ d p q, d < R.d → p < R.r → q < R.c → A.get d p q = -(R.get d p q) ^ 2 * seK R theta p q := by
  unfold sqExpKernBaseGradTh
  dsimp only
  rw [sqExpSum2_ok hθ.le]
  simp only [ok_bind]
  obtain ⟨A, hA, h1, h2, h3, h4⟩ := forRange_inv (lo := 0) (hi := theta.n) (init := Arr3.zeros R.d R.r R.c)
    (body := fun i D => do
      let Ri ← (R.map fun x => x ^ 2).slab i
      let V ← (Ri.map fun x => -x).mul (Arr2.map Real.exp ⟨R.r, R.c, fun p q => -ssq R.d theta.get (diffAt R p q)⟩)
      D.setSlice i 0 R.r 0 R.c V)
    (fun i A => A.d = R.d ∧ A.r = R.r ∧ A.c = R.c ∧
      ∀ d p q, d < i → p < R.r → q < R.c → A.get d p q = -(R.get d p q) ^ 2 * seK R theta p q) (Nat.zero_le _)
    ⟨rfl, rfl, rfl, by intro d p q h; omega⟩
    (by
      rintro i A _ hi ⟨e1, e2, e3, e4⟩
      have hi' : i < R.d := by omega
      simp only [Arr3.slab_ok, Arr3.map_d, hi', ok_bind, Arr2.mul_ok, Arr2.map_r, Arr2.map_c, Arr3.slabD_r,
        Arr3.slabD_c, Arr3.map_r, Arr3.map_c]
      refine ⟨_, Arr3.modSlice_ok (by omega) (by simp) (by omega) (by simp) (by omega), e1, e2, e3, ?_⟩
      intro d p q hd hp hq
      rw [Arr3.upd_get]
      by_cases h : d = i
      · subst h; simp [hp, hq, seK]
      · simp only [h, false_and, if_false]
        exact e4 d p q (by omega) hp hq)
  refine ⟨A, hA, h1, h2, h3, ?_⟩
  rw [hθ]; exact h4

theorem sqExpKernBaseHessXJit_ok {R : Arr3} {theta : Arr1} (hθ : R.d ≤ theta.n) :
    ∃ A, sqExpKernBaseHessXJit R theta ⟨R.r, R.c, seK R theta⟩ = .ok A ∧
      Rep3 R.d 0 R.r R.c 0 R.d A (kgXF seφ1 seφ2 seφ3 R theta none) := by
  unfold sqExpKernBaseHessXJit
  let V : ℕ → ℕ → Arr2 := fun k i => ⟨R.r, R.c, fun p q => (-2 * theta.get i * delta i k +
    4 * theta.get i * theta.get k * R.get i p q * R.get k p q) * seK R theta p q⟩
  obtain ⟨A, hA, hR⟩ := set2_spec (g := R.r) (n2 := R.c) (dim := R.d) (V := V) (fun k _ i _ => ⟨rfl, rfl⟩)
  refine ⟨A, ?_, hR.congr ?_⟩
  · rw [← hA]
    apply forRange_congr
    intro k A' _ hk
    apply forRange_congr
    intro i A'' _ hi
    have hiθ : i < theta.n := by omega
    have hkθ : k < theta.n := by omega
    simp only [Arr1.at'_ok hiθ, Arr1.at'_ok hkθ, ok_bind, Arr3.slab_ok, hi, hk, Arr2.mul_ok, Arr2.smul_r, Arr2.smul_c,
      Arr3.slabD_r, Arr3.slabD_c, Arr2.map_r, Arr2.map_c]
    rfl
  · intro k x y hk hx hy
    cases x with
    | v p => simp at hx
    | g i a => cases y with
      | g j b => simp at hy
      | v q =>
        simp only [hxTarget, kgXF, radKGx, Ix.pt_v, Ix.coord_v, V, seφ1, seφ2, seK, delta, kron]
        simp only [diffAt]
        split_ifs <;> ring

theorem sqExpKernBaseHessX_ok {R : Arr3} {theta : Arr1} (hθ : R.d ≤ theta.n) :
    ∃ A, sqExpKernBaseHessX R theta = .ok A ∧
      Rep3 R.d 0 R.r R.c 0 R.d A (kgXF seφ1 seφ2 seφ3 R theta none) := by
  unfold sqExpKernBaseHessX
  rw [sqExpKernBase_ok hθ]
  exact sqExpKernBaseHessXJit_ok hθ

theorem sqExpKernGradGradX_ok {R : Arr3} {theta : Arr1} (hθ : R.d ≤ theta.n) :
    ∃ A, sqExpKernGradGradX R theta none = .ok A ∧
      Rep3 R.d 0 R.r R.c R.c R.d A (kgXF seφ1 seφ2 seφ3 R theta none) := by
  unfold sqExpKernGradGradX
  rw [sqExpKernBase_ok hθ]
  simp only [ok_bind]
  obtain ⟨H, hH, rH⟩ := sqExpKernBaseHessXJit_ok (R := R) (theta := theta) hθ
  rw [show (⟨R.r, R.c, fun p q => Real.exp (-ssq R.d theta.get (diffAt R p q))⟩ : Arr2) = ⟨R.r, R.c, seK R theta⟩ from rfl, hH]
  simp only [ok_bind]
  unfold sqExpKernGradGradXJit
  dsimp only
  simp only [pure_eq_ok, ok_bind]
  obtain ⟨D0, hD0, r0⟩ := setCols_zero (g2 := R.c) rH
  rw [hD0]
  simp only [ok_bind]
  let V : ℕ → ℕ → ℕ → Arr2 := fun k i j => ⟨R.r, R.c, fun p q =>
    ((-4 * theta.get i * theta.get j * (delta i k * R.get j p q + delta j k * R.get i p q)
      - 4 * delta i j * theta.get i * theta.get k * R.get k p q) +
      8 * theta.get i * theta.get j * theta.get k * R.get i p q * R.get j p q * R.get k p q) * seK R theta p q⟩
  obtain ⟨A, hA, hR⟩ := set3_spec r0 (V := V) (fun k _ i _ j _ => ⟨rfl, rfl⟩)
  refine ⟨A, ?_, hR.congr ?_⟩
  · rw [← hA]
    apply forRange_congr
    intro k A1 _ hk
    apply forRange_congr
    intro i A2 _ hi
    apply forRange_congr
    intro j A3 _ hj
    have hiθ : i < theta.n := by omega
    have hjθ : j < theta.n := by omega
    have hkθ : k < theta.n := by omega
    simp only [Arr1.at'_ok hiθ, Arr1.at'_ok hkθ, Arr1.at'_ok hjθ, ok_bind, Arr3.slab_ok, hi, hk, hj, Arr2.mul_ok,
      Arr2.add_ok, Arr2.sub_ok, Arr2.smul_r, Arr2.smul_c,
      Arr3.slabD_r, Arr3.slabD_c, Arr2.map_r, Arr2.map_c]
    rfl
  · intro k x y hk hx hy
    cases x with
    | v p => simp at hx
    | g i a => cases y with
      | v q => simp only [gxTarget, kgXF, Ix.pt_v, Ix.coord_v]
      | g j b =>
        simp only [gxTarget, kgXF, radKGx, Ix.pt_g, gSel, Ix.coord_g, V, seφ2, seφ3, seK, delta, kron]
        simp only [diffAt]
        split_ifs <;> ring

theorem sqExpThTerms_ok {R Rsq : Arr3} {K : Arr2} {m : Option (List Bool)}
    (hd : Rsq.d = R.d) (hrs : Rsq.r = R.r) (hcs : Rsq.c = R.c) (hsq : R.r = R.c)
    (hr : K.r = R.r) (hc : K.c = R.c) (h1 : maskOk m R.r) :
    sqExpThTerms R Rsq K m = .ok
      { ng := gN m R.r
        Rg1 := ⟨R.d, gN m R.r, R.c, fun d a q => R.get d (gSel m a) q⟩
        Rsqg1 := ⟨R.d, gN m R.r, R.c, fun d a q => Rsq.get d (gSel m a) q⟩
        Rsqgg := ⟨R.d, gN m R.r, gN m R.c, fun d a b => Rsq.get d (gSel m a) (gSel m b)⟩
        Kg1 := ⟨gN m R.r, R.c, fun a q => K.get (gSel m a) q⟩
        Kgg := ⟨gN m R.r, gN m R.c, fun a b => K.get (gSel m a) (gSel m b)⟩ } := by
  obtain ⟨Kr, Kc, Kget⟩ := K
  obtain ⟨Sd, Sr, Sc, Sget⟩ := Rsq
  obtain ⟨Rd, Rr, Rc, Rget⟩ := R
  simp only at hr hc hd hrs hcs hsq
  subst hr hc hd hrs hcs
  subst hsq
  cases m with
  | none => rfl
  | some l =>
    have e1 := h1 l rfl
    simp only at e1
    simp only [sqExpThTerms, pure_eq_ok, gN, gSel, Arr3.maskRows_ok (A := ⟨_, _, _, _⟩) e1,
      Arr2.maskRows_ok (A := ⟨_, _, _⟩) e1,
      Arr3.maskCols_ok (A := ⟨_, _, _, _⟩) e1,
      Arr2.maskCols_ok (A := ⟨_, _, _⟩) e1, ok_bind]

theorem sqExpKernGradGradTh_ok {R : Arr3} {theta : Arr1} {m : Option (List Bool)} (hθ : R.d ≤ theta.n)
    (hS : SelfR R) (hm : maskOk m R.r) (hf : fullMask m R.r) :
    ∃ A, sqExpKernGradGradTh R theta m = .ok A ∧
      Rep3 R.d R.r (gN m R.r) R.c (gN m R.c) R.d A (kgThF seφ1 seφ2 seφ3 R theta m) := by
  unfold sqExpKernGradGradTh
  obtain ⟨KG, hKG, rKG⟩ := sqExpKernGrad_ok (m1 := m) (m2 := m) hθ hm (hS.1 ▸ hm)
  rw [hKG]
  simp only [ok_bind]
  unfold sqExpKernGradGradThJit
  dsimp only
  rw [pyAssert_true hS.1]
  have hS1 := hS.1
  have hfn : gN m R.r = R.r := hf
  simp only [← hS1, hfn] at rKG
  have kb := rKG.slice (s := .v) (t := .v) trivial trivial
  simp only [Sl.lo, Sl.hi, Sl.len] at kb
  rw [sqExpThTerms_ok (by rfl) (by rfl) (by rfl) hS1 kb.1 (by rw [← hS1]; exact kb.2.1) hm]
  simp only [ok_bind]
  simp only [← hS1, hfn]
  let e := gSel m
  let n := R.r
  let KB := KG.slice 0 n 0 n
  have k1 := fun i (hi : i < R.d) => rKG.slice (s := .g i) (t := .v) hi trivial
  simp only [Sl.lo, Sl.hi, Sl.len] at k1
  have k2 := fun i (hi : i < R.d) j (hj : j < R.d) => rKG.slice (s := .g i) (t := .g j) hi hj
  simp only [Sl.lo, Sl.hi, Sl.len] at k2
  let K1 : ℕ → Arr2 := fun i => KG.slice (n + i * n) (n + i * n + n) 0 n
  let K2 : ℕ → ℕ → Arr2 := fun i j => KG.slice (n + i * n) (n + i * n + n) (n + j * n) (n + j * n + n)
  obtain ⟨A, hA, hR⟩ := gradTh_spec (n := n) (g := n) (dim := R.d)
    (W0 := fun d => ⟨n, n, fun p q => -(R.get d p q ^ 2) * KB.get p q⟩)
    (W1 := fun d => ⟨n, n, fun p q => -2 * R.get d (e p) q * KB.get (e p) q⟩)
    (W2 := fun d => ⟨n, n, fun p q => 2 * KB.get (e p) (e q)⟩)
    (X1 := fun d i => ⟨n, n, fun p q => -(R.get d (e p) q ^ 2) * (K1 i).get p q⟩)
    (Y := fun d i => ⟨n, n, fun p q => -4 * theta.get i * R.get d p q * R.get i p q * KB.get p q⟩)
    (Y' := fun d i => ⟨n, n, fun p q => -4 * theta.get i * R.get d p q * R.get i p q * KB.get p q⟩)
    (Z := fun d i => ⟨n, n, fun p q => -(R.get d (e p) (e q) ^ 2 * (K2 i i).get p q)⟩)
    (U := fun d i j => ⟨n, n, fun p q => -(R.get d (e p) (e q) ^ 2) * (K2 i j).get p q⟩)
    (fun d hd => ⟨rfl, rfl⟩) (fun d hd => ⟨rfl, rfl⟩) (fun d hd => ⟨rfl, rfl⟩) (fun d _ i _ => ⟨rfl, rfl⟩)
    (fun d _ i _ => ⟨rfl, rfl⟩) (fun d _ i _ => ⟨rfl, rfl⟩) (fun d _ i _ => ⟨rfl, rfl⟩) (fun d _ i _ j _ => ⟨rfl, rfl⟩)
  refine ⟨A, ?_, hR.congr ?_⟩
  · rw [← hA]
    apply forRange_congr
    intro d A1 _ hd
    simp only [Arr3.slab_ok, hd, Arr3.map_d, ok_bind, Arr2.mul_ok, kb.1, kb.2.1, Arr2.map_r, Arr2.map_c, Arr2.smul_r,
      Arr2.smul_c, Arr3.slabD_r, Arr3.slabD_c, Arr3.map_r, Arr3.map_c, ← hS1]
    refine congrArg _ (funext fun A1 => congrArg _ (funext fun A2 => congrArg _ (funext fun A3 => congrArg _ (funext fun A4 => ?_))))
    apply forRange_congr
    intro i A5 _ hi
    have hiθ : i < theta.n := by omega
    simp only [Arr1.at'_ok hiθ, Arr3.slab_ok, hd, hi, Arr3.map_d, ok_bind, Arr2.mul_ok, kb.1, kb.2.1, (k1 i hi).1, (k1 i hi).2.1,
      (k2 i hi i hi).1, (k2 i hi i hi).2.1,
      Arr2.map_r, Arr2.map_c, Arr2.smul_r,
      Arr2.smul_c, Arr3.slabD_r, Arr3.slabD_c, Arr3.map_r, Arr3.map_c, ← hS1, Arr3.subSlice_eq]
    refine congrArg _ (funext fun A1 => congrArg _ (funext fun A2 => congrArg _ (funext fun A3 => congrArg _ (funext fun A4 => congrArg _ (funext fun A5 => ?_)))))
    apply forRange_congr
    intro j A6 _ hj
    simp only [Arr3.slab_ok, hd, Arr3.map_d, ok_bind, Arr2.mul_ok, (k2 i hi j hj).1, (k2 i hi j hj).2.1,
      Arr2.map_r, Arr2.map_c, Arr3.slabD_r, Arr3.slabD_c, Arr3.map_r, Arr3.map_c, ← hS1]
    rfl
  · intro d x y hd hx hy
    have hKB : ∀ p q, p < n → q < n → KB.get p q = seK R theta p q := by
      intro p q hp hq
      have := kb.2.2 (.v p) (.v q) p q hp hq rfl rfl
      exact this
    have hK1 : ∀ i p q, i < R.d → p < n → q < n → (K1 i).get p q = sqExpF R theta m m (.g i p) (.v q) := by
      intro i p q hi hp hq
      exact (k1 i hi).2.2 (.g i p) (.v q) p q ⟨hi, hp⟩ hq (by simp) rfl
    have hK2 : ∀ i j p q, i < R.d → j < R.d → p < n → q < n →
        (K2 i j).get p q = sqExpF R theta m m (.g i p) (.g j q) := by
      intro i j p q hi hj hp hq
      exact (k2 i hi j hj).2.2 (.g i p) (.g j q) p q ⟨hi, hp⟩ ⟨hj, hq⟩ (by simp) (by simp)
    have he : ∀ a < R.r, e a = a := fun a ha => gSel_full hm hf ha
    have he' : ∀ a < R.r, gSel m a = a := he
    cases x with
    | v p =>
      simp only [Ix.ok_v] at hx
      cases y with
      | v q =>
        simp only [Ix.ok_v] at hy
        simp only [thTarget, hKB p q hx hy, kgThF, radKGth, Ix.pt_v, Ix.coord_v, seK, seφ1]
        simp only [diffAt]; ring
      | g J b =>
        simp only [Ix.ok_g] at hy
        simp only [thTarget, he b hy.2, hKB b p hy.2 hx, hK1 J b p hy.1 hy.2 hx, kgF, kgThF, radKG, radKGth, Ix.pt_v, Ix.pt_g, he' b hy.2,
          Ix.coord_v, Ix.coord_g, seK, seφ1, seφ2, hS.ssq _ _ b p, kron]
        have e1 := hS.2 d b p
        have e2 := hS.2 J b p
        simp only [diffAt]
        by_cases h : J = d
        · subst h; simp only [if_true, e1]; ring
        · simp only [h, if_false, e1, e2]; ring
    | g I a =>
      simp only [Ix.ok_g] at hx
      cases y with
      | v q =>
        simp only [Ix.ok_v] at hy
        simp only [thTarget, he a hx.2, hKB a q hx.2 hy, hK1 I a q hx.1 hx.2 hy, kgF, kgThF, radKG, radKGth, Ix.pt_v, Ix.pt_g, he' a hx.2,
          Ix.coord_v, Ix.coord_g, seK, seφ1, seφ2, kron]
        simp only [diffAt]
        by_cases h : I = d
        · subst h; simp only [if_true]; ring
        · simp only [h, if_false]; ring
      | g J b =>
        simp only [Ix.ok_g] at hy
        simp only [thTarget, he a hx.2, he b hy.2, hKB a b hx.2 hy.2, hK2 I I a b hx.1 hx.1 hx.2 hy.2, hK2 I J a b hx.1 hy.1 hx.2 hy.2,
          hK2 J I a b hy.1 hx.1 hx.2 hy.2, kgF, kgThF, radKG, radKGth, Ix.pt_g, he' a hx.2, he' b hy.2,
          Ix.coord_g, seK, seφ1, seφ2, seφ3, kron]
        simp only [diffAt]
        rcases lt_trichotomy I J with h | h | h
        · have h1 : I ≠ J := by omega
          have h2 : J ≠ I := by omega
          simp only [h, h1, if_true, if_false]
          by_cases hI : I = d
          · have hJ : J ≠ d := by omega
            subst hI; simp only [h2, if_true, if_false, and_false]; ring
          · by_cases hJ : J = d
            · subst hJ; simp only [h1, if_true, if_false, false_and]; ring
            · simp only [hI, hJ, if_false, false_and]; ring
        · subst h
          simp only [lt_irrefl, if_true, if_false]
          by_cases hI : I = d
          · subst hI; simp only [if_true, and_self]; ring
          · simp only [hI, if_false, false_and]; ring
        · have h1 : I ≠ J := by omega
          have h2 : J ≠ I := by omega
          have h3 : ¬ I < J := by omega
          simp only [h, h1, h2, h3, if_true, if_false]
          by_cases hI : I = d
          · have hJ : J ≠ d := by omega
            subst hI; simp only [h2, if_true, if_false, and_false]; ring
          · by_cases hJ : J = d
            · subst hJ; simp only [h1, if_true, if_false, false_and]; ring
            · simp only [hI, hJ, if_false, false_and]; ring

end GP
