import Verif.Proofs.Matern
import Verif.Proofs.AssembleX2

/-! Closed forms of the derivative functions of the Matérn 5/2 kernel. -/

open Np Spec

noncomputable section

namespace GP

theorem maternKernBaseHessX_ok {R : Arr3} {theta : Arr1} (hθ : R.d ≤ theta.n) :
    ∃ A, maternKernBaseHessX R theta = .ok A ∧
      Rep3 R.d 0 R.r R.c 0 R.d A (kgXF maφ1 maφ2 maφ3 R theta none) := by
  unfold maternKernBaseHessX
  rw [materNu_ok hθ]
  simp only [ok_bind, Arr2.mul_ok, Arr2.map_r, Arr2.map_c, Nat.succ_mul]
  let ν := maNu R theta
  let W : ℕ → Arr2 := fun k => ⟨R.r, R.c, fun p q => theta.get k *
    ((5 / 3) * (1 + sqrt5 * ν p q) * Real.exp (-sqrt5 * ν p q))⟩
  let V : ℕ → ℕ → Arr2 := fun k i => ⟨R.r, R.c, fun p q =>
    (25 / 3) * (R.get i p q * theta.get i) * (R.get k p q * theta.get k) * Real.exp (-sqrt5 * ν p q)⟩
  obtain ⟨A, hA, hR⟩ := hxAcc_spec (g := R.r) (n2 := R.c) (dim := R.d) (W := W) (V := V)
    (fun k _ => ⟨rfl, rfl⟩) (fun k _ i _ => ⟨rfl, rfl⟩)
  refine ⟨A, ?_, hR.congr ?_⟩
  · rw [← hA]
    apply forRange_congr
    intro k A' _ hk
    have hkθ : k < theta.n := by omega
    simp only [Arr1.at'_ok hkθ, ok_bind, Arr3.slab_ok, hk]
    refine congrArg _ (funext fun A1 => ?_)
    apply forRange_congr
    intro i A'' _ hi
    have hiθ : i < theta.n := by omega
    simp only [Arr1.at'_ok hiθ, ok_bind, Arr3.slab_ok, hi, Arr2.mul_ok, Arr2.smul_r, Arr2.smul_c,
      Arr3.slabD_r, Arr3.slabD_c, Arr2.map_r, Arr2.map_c]
    rfl
  · intro k x y hk hx hy
    cases x with
    | v p => simp at hx
    | g i a => cases y with
      | g j b => simp at hy
      | v q =>
        simp only [hxAccTarget, kgXF, radKGx, Ix.pt_v, Ix.coord_v, V, W, maφ1, maφ2, ν, maNu, sqrt5, kron]
        simp only [diffAt]
        split_ifs with h
        · subst h; ring
        · ring

/-- The regularised reciprocal `1/max(ν, 1e-16)` is exact for this pair. -/
def NuOk (R : Arr3) (theta : Arr1) (p q : ℕ) : Prop :=
  maNu R theta p q = 0 ∨ 10 ^ (-16 : ℤ) ≤ maNu R theta p q

theorem maNu_zero {R : Arr3} {theta : Arr1} (hp : ∀ d < R.d, 0 < theta.get d) {p q : ℕ}
    (h : maNu R theta p q = 0) : ∀ d < R.d, R.get d p q = 0 := by
  unfold maNu at h
  have h' : ssq R.d theta.get (diffAt R p q) = 0 :=
    (Real.sqrt_eq_zero (ssq_nonneg (fun d hd => (hp d hd).le) _)).mp h
  exact ssq_eq_zero hp h'

theorem inv_max {v : ℝ} (h : (10 : ℝ) ^ (-16 : ℤ) ≤ v) : 1 / max v (10 ^ (-16 : ℤ)) = 1 / v := by
  rw [max_eq_left h]

/-- The third derivative profile as the code evaluates it: with `max(ν, 1e-16)` in the denominator. -/
def maφ3c (s : ℝ) : ℝ :=
  -(25 * Real.sqrt 5 / 24) * (1 / max (Real.sqrt s) (10 ^ (-16 : ℤ))) * Real.exp (-Real.sqrt 5 * Real.sqrt s)

theorem maφ3c_eq {s : ℝ} (h : (10 : ℝ) ^ (-16 : ℤ) ≤ Real.sqrt s) : maφ3c s = maφ3 s := by
  unfold maφ3c maφ3
  rw [inv_max h]

theorem maternKernGradGradX_raw {R : Arr3} {theta : Arr1} (hθ : R.d ≤ theta.n) :
    ∃ A, maternKernGradGradX R theta none = .ok A ∧
      Rep3 R.d 0 R.r R.c R.c R.d A (kgXF maφ1 maφ2 maφ3c R theta none) := by
  unfold maternKernGradGradX
  obtain ⟨H, hH, rH⟩ := maternKernBaseHessX_ok (R := R) (theta := theta) hθ
  rw [hH]
  simp only [ok_bind]
  unfold maternKernGradGradXJit
  dsimp only
  rw [materNu_ok hθ]
  simp only [pure_eq_ok, ok_bind]
  obtain ⟨D0, hD0, r0⟩ := setCols_zero (g2 := R.c) rH
  rw [hD0]
  simp only [ok_bind]
  let ν := maNu R theta
  let V : ℕ → ℕ → ℕ → Arr2 := fun k i j => ⟨R.r, R.c, fun p q =>
    (-(25 / 3)) * ((theta.get i * delta i k * (R.get j p q * theta.get j) + theta.get j * delta j k * (R.get i p q * theta.get i)
      + theta.get i * delta i j * (R.get k p q * theta.get k))
      - sqrt5 * (1 / max (ν p q) (10 ^ (-16 : ℤ))) * (R.get i p q * theta.get i) * (R.get j p q * theta.get j) *
        (R.get k p q * theta.get k)) * Real.exp (-sqrt5 * ν p q)⟩
  obtain ⟨A, hA, hR⟩ := set3_spec r0 (V := V) (fun k _ i _ j _ => ⟨rfl, rfl⟩)
  refine ⟨A, ?_, hR.congr ?_⟩
  · rw [← hA]
    apply forRange_congr
    intro k A1 _ hk
    have hkθ : k < theta.n := by omega
    simp only [Arr1.at'_ok hkθ, ok_bind, Arr3.slab_ok, hk]
    apply forRange_congr
    intro i A2 _ hi
    have hiθ : i < theta.n := by omega
    simp only [Arr1.at'_ok hiθ, ok_bind, Arr3.slab_ok, hi]
    apply forRange_congr
    intro j A3 _ hj
    have hjθ : j < theta.n := by omega
    simp only [Arr1.at'_ok hjθ, ok_bind, Arr3.slab_ok, hj, Arr2.mul_ok,
      Arr2.add_ok, Arr2.sub_ok, Arr2.smul_r, Arr2.smul_c,
      Arr3.slabD_r, Arr3.slabD_c, Arr2.map_r, Arr2.map_c]
    rfl
  · intro k x y hk hx hy
    cases x with
    | v p => simp at hx
    | g i a => cases y with
      | v q => simp only [gxTarget, kgXF, radKGx, Ix.pt_v, Ix.coord_v]
      | g j b =>
        simp only [Ix.ok_g] at hx hy
        simp only [gxTarget, kgXF, radKGx, Ix.pt_g, gSel, Ix.coord_g, V, maφ2, maφ3c, ν, delta, kron, sqrt5]
        simp only [maNu, diffAt]
        split_ifs <;> ring

theorem maternKernGradGradX_ok {R : Arr3} {theta : Arr1} (hθ : R.d ≤ theta.n) (hp : ∀ d < R.d, 0 < theta.get d)
    (hν : ∀ p < R.r, ∀ q < R.c, NuOk R theta p q) :
    ∃ A, maternKernGradGradX R theta none = .ok A ∧
      Rep3 R.d 0 R.r R.c R.c R.d A (kgXF maφ1 maφ2 maφ3 R theta none) := by
  obtain ⟨A, hA, hR⟩ := maternKernGradGradX_raw (R := R) (theta := theta) hθ
  refine ⟨A, hA, hR.congr ?_⟩
  intro k x y hk hx hy
  cases x with
  | v p => simp at hx
  | g i a =>
    simp only [Ix.ok_g] at hx
    cases y with
    | v q => simp only [kgXF, radKGx, Ix.pt_v, Ix.coord_v]
    | g j b =>
      simp only [Ix.ok_g] at hy
      simp only [kgXF, radKGx, Ix.pt_g, gSel, Ix.coord_g]
      rcases hν a hx.2 b hy.2 with h | h
      · have hz := maNu_zero hp h
        simp only [diffAt, hz i hx.1, hz j hy.1, hz k hk]
        ring
      · rw [maφ3c_eq (by exact h)]

theorem maternThTerms_ok {R Rsq : Arr3} {A M N : Arr2} {m : Option (List Bool)}
    (hd : Rsq.d = R.d) (hrs : Rsq.r = R.r) (hcs : Rsq.c = R.c) (hsq : R.r = R.c)
    (hr : A.r = R.r) (hc : A.c = R.c)
    (hr' : M.r = R.r) (hc' : M.c = R.c) (hr'' : N.r = R.r) (hc'' : N.c = R.c) (h1 : maskOk m R.r) :
    maternThTerms R Rsq A M N m = .ok
      { ng := gN m R.r
        Rg1 := ⟨R.d, gN m R.r, R.c, fun d a q => R.get d (gSel m a) q⟩
        Rgg := ⟨R.d, gN m R.r, gN m R.c, fun d a b => R.get d (gSel m a) (gSel m b)⟩
        Rsqg1 := ⟨R.d, gN m R.r, R.c, fun d a q => Rsq.get d (gSel m a) q⟩
        Rsqgg := ⟨R.d, gN m R.r, gN m R.c, fun d a b => Rsq.get d (gSel m a) (gSel m b)⟩
        Ag1 := ⟨gN m R.r, R.c, fun a q => A.get (gSel m a) q⟩
        Agg := ⟨gN m R.r, gN m R.c, fun a b => A.get (gSel m a) (gSel m b)⟩
        Mg1 := ⟨gN m R.r, R.c, fun a q => M.get (gSel m a) q⟩
        nugg := ⟨gN m R.r, gN m R.c, fun a b => N.get (gSel m a) (gSel m b)⟩ } := by
  obtain ⟨Kr, Kc, Kget⟩ := A
  obtain ⟨Mr, Mc, Mget⟩ := M
  obtain ⟨Nr, Nc, Nget⟩ := N
  obtain ⟨Sd, Sr, Sc, Sget⟩ := Rsq
  obtain ⟨Rd, Rr, Rc, Rget⟩ := R
  simp only at hr hc hr' hc' hr'' hc'' hd hrs hcs hsq
  subst hr hc hr' hc' hr'' hc'' hd hrs hcs
  subst hsq
  cases m with
  | none => rfl
  | some l =>
    have e1 := h1 l rfl
    simp only at e1
    simp only [maternThTerms, pure_eq_ok, gN, gSel, Arr3.maskRows_ok (A := ⟨_, _, _, _⟩) e1,
      Arr2.maskRows_ok (A := ⟨_, _, _⟩) e1,
      Arr3.maskCols_ok (A := ⟨_, _, _, _⟩) e1,
      Arr2.maskCols_ok (A := ⟨_, _, _⟩) e1, ok_bind]

theorem maternKernGradGradTh_raw {R : Arr3} {theta : Arr1} {m : Option (List Bool)} (hθ : R.d ≤ theta.n)
    (hS : SelfR R) (hm : maskOk m R.r) (hf : fullMask m R.r) :
    ∃ A, maternKernGradGradTh R theta m = .ok A ∧
      Rep3 R.d R.r (gN m R.r) R.c (gN m R.c) R.d A (kgThF maφ1 maφ2 maφ3c R theta m) := by
  unfold maternKernGradGradTh
  dsimp only
  rw [pyAssert_true hS.1, materNu_ok hθ]
  simp only [ok_bind, Arr2.mul_ok, Arr2.map_r, Arr2.map_c]
  have hS1 := hS.1
  rw [maternThTerms_ok (by rfl) (by rfl) (by rfl) hS1 (by rfl) (by rfl) (by rfl) (by rfl) (by rfl) (by rfl) hm]
  simp only [ok_bind]
  have hfn : gN m R.r = R.r := hf
  simp only [← hS1, hfn]
  let e := gSel m
  let n := R.r
  let ν := maNu R theta
  let E : ℕ → ℕ → ℝ := fun p q => Real.exp (-sqrt5 * ν p q)
  let M : ℕ → ℕ → ℝ := fun p q => (5 / 3) * (1 + sqrt5 * ν p q) * E p q
  let I : ℕ → ℕ → ℝ := fun p q => 1 / max (ν p q) (10 ^ (-16 : ℤ))
  let t := theta.get
  obtain ⟨A, hA, hR⟩ := gradTh_spec (n := n) (g := n) (dim := R.d)
    (W0 := fun d => ⟨n, n, fun p q => (-0.5) * (R.get d p q ^ 2 * M p q)⟩)
    (W1 := fun d => ⟨n, n, fun p q => -R.get d (e p) q * M (e p) q⟩)
    (W2 := fun _ => ⟨n, n, M⟩)
    (X1 := fun d i => ⟨n, n, fun p q => 25 / 6 * t i * R.get i (e p) q * (R.get d (e p) q ^ 2) * E (e p) q⟩)
    (Y := fun d i => ⟨n, n, fun p q => -(25 / 3 * t i) * R.get i (e p) q * R.get d (e p) q * E (e p) q⟩)
    (Y' := fun d i => ⟨n, n, fun q p => -(25 / 3 * t i) * R.get i (e p) q * R.get d (e p) q * E (e p) q⟩)
    (Z := fun d i => ⟨n, n, fun p q => -(25 / 6 * t i) * R.get d (e p) (e q) ^ 2 * E (e p) (e q) +
      25 * sqrt5 / 6 * t i ^ 2 * R.get i (e p) (e q) ^ 2 * R.get d (e p) (e q) ^ 2 * I (e p) (e q) * E (e p) (e q)⟩)
    (U := fun d i j => ⟨n, n, fun p q => 25 * sqrt5 / 6 * t i * t j * R.get i (e p) (e q) * R.get j (e p) (e q) *
      R.get d (e p) (e q) ^ 2 * I (e p) (e q) * E (e p) (e q)⟩)
    (fun d hd => ⟨rfl, rfl⟩) (fun d hd => ⟨rfl, rfl⟩) (fun d hd => ⟨rfl, rfl⟩) (fun d _ i _ => ⟨rfl, rfl⟩)
    (fun d _ i _ => ⟨rfl, rfl⟩) (fun d _ i _ => ⟨rfl, rfl⟩) (fun d _ i _ => ⟨rfl, rfl⟩) (fun d _ i _ j _ => ⟨rfl, rfl⟩)
  refine ⟨A, ?_, hR.congr ?_⟩
  · rw [← hA]
    apply forRange_congr
    intro d A1 _ hd
    simp only [Arr3.slab_ok, hd, Arr3.map_d, ok_bind, Arr2.mul_ok, Arr2.map_r, Arr2.map_c, Arr2.smul_r,
      Arr2.smul_c, Arr3.slabD_r, Arr3.slabD_c, Arr3.map_r, Arr3.map_c, ← hS1]
    refine congrArg _ (funext fun A1 => congrArg _ (funext fun A2 => congrArg _ (funext fun A3 => congrArg _ (funext fun A4 => ?_))))
    apply forRange_congr
    intro i A5 _ hi
    have hiθ : i < theta.n := by omega
    simp only [Arr1.at'_ok hiθ, Arr3.slab_ok, hd, hi, Arr3.map_d, ok_bind, Arr2.mul_ok, Arr2.add_ok,
      Arr2.map_r, Arr2.map_c, Arr2.smul_r,
      Arr2.smul_c, Arr3.slabD_r, Arr3.slabD_c, Arr3.map_r, Arr3.map_c, ← hS1]
    refine congrArg _ (funext fun A1 => congrArg _ (funext fun A2 => congrArg _ (funext fun A3 => congrArg _ (funext fun A4 => congrArg _ (funext fun A5 => ?_)))))
    apply forRange_congr
    intro j A6 _ hj
    have hjθ : j < theta.n := by omega
    simp only [Arr1.at'_ok hjθ, Arr3.slab_ok, hd, hi, hj, Arr3.map_d, ok_bind, Arr2.mul_ok,
      Arr2.map_r, Arr2.map_c, Arr2.smul_r, Arr2.smul_c, Arr3.slabD_r, Arr3.slabD_c, Arr3.map_r, Arr3.map_c, ← hS1]
    rfl
  · intro d x y hd hx hy
    have hνs : ∀ p q, ν p q = ν q p := by intro p q; simp only [ν, maNu, hS.ssq _ _ p q]
    have he : ∀ a < R.r, e a = a := fun a ha => gSel_full hm hf ha
    have he' : ∀ a < R.r, gSel m a = a := he
    cases x with
    | v p =>
      simp only [Ix.ok_v] at hx
      cases y with
      | v q =>
        simp only [Ix.ok_v] at hy
        simp only [thTarget, kgThF, radKGth, Ix.pt_v, Ix.coord_v, M, E, ν, maNu, maφ1, sqrt5]
        simp only [diffAt]; ring
      | g J b =>
        simp only [Ix.ok_g] at hy
        simp only [thTarget, he b hy.2, M, E, hνs b p]
        simp only [ν, maNu, kgThF, radKGth, Ix.pt_v, Ix.pt_g, he' b hy.2,
          Ix.coord_v, Ix.coord_g, maφ1, maφ2, kron, sqrt5, t]
        have e1 := hS.2 d b p
        have e2 := hS.2 J b p
        simp only [diffAt]
        by_cases h : J = d
        · subst h; simp only [if_true, e1]; ring
        · simp only [h, if_false, e1, e2]; ring
    | g I' a =>
      simp only [Ix.ok_g] at hx
      cases y with
      | v q =>
        simp only [Ix.ok_v] at hy
        simp only [thTarget, he a hx.2, M, E, ν, maNu, kgThF, radKGth, Ix.pt_v, Ix.pt_g, he' a hx.2,
          Ix.coord_v, Ix.coord_g, maφ1, maφ2, kron, sqrt5, t]
        simp only [diffAt]
        by_cases h : I' = d
        · subst h; simp only [if_true]; ring
        · simp only [h, if_false]; ring
      | g J b =>
        simp only [Ix.ok_g] at hy
        have e1 : ∀ k, R.get k b a = - R.get k a b := fun k => hS.2 k b a
        have hEs : E b a = E a b := by simp only [E, hνs b a]
        simp only [thTarget, he a hx.2, he b hy.2, hEs, e1, M]
        simp only [E, I, ν, maNu, kgThF, radKGth, Ix.pt_g, he' a hx.2, he' b hy.2,
          Ix.coord_g, maφ1, maφ2, maφ3c, kron, sqrt5, t]
        simp only [diffAt]
        rcases lt_trichotomy I' J with h | h | h
        · have h1 : I' ≠ J := by omega
          have h2 : J ≠ I' := by omega
          simp only [h, h1, if_true, if_false]
          by_cases hI : I' = d
          · subst hI; simp only [h2, if_true, if_false, and_false]; ring
          · by_cases hJ : J = d
            · subst hJ; simp only [h1, if_true, if_false, false_and]; ring
            · simp only [hI, hJ, if_false, false_and]; ring
        · subst h
          simp only [lt_irrefl, if_true, if_false]
          by_cases hI : I' = d
          · subst hI; simp only [if_true, and_self]; ring
          · simp only [hI, if_false, false_and]; ring
        · have h1 : I' ≠ J := by omega
          have h2 : J ≠ I' := by omega
          have h3 : ¬ I' < J := by omega
          simp only [h, h1, h3, if_true, if_false]
          by_cases hI : I' = d
          · subst hI; simp only [h2, if_true, if_false, and_false]; ring
          · by_cases hJ : J = d
            · subst hJ; simp only [h1, if_true, if_false, false_and]; ring
            · simp only [hI, hJ, if_false, false_and]; ring

theorem maternKernGradGradTh_ok {R : Arr3} {theta : Arr1} {m : Option (List Bool)} (hθ : R.d ≤ theta.n)
    (hp : ∀ d < R.d, 0 < theta.get d) (hS : SelfR R) (hm : maskOk m R.r) (hf : fullMask m R.r)
    (hν : ∀ p < R.r, ∀ q < R.c, NuOk R theta p q) :
    ∃ A, maternKernGradGradTh R theta m = .ok A ∧
      Rep3 R.d R.r (gN m R.r) R.c (gN m R.c) R.d A (kgThF maφ1 maφ2 maφ3 R theta m) := by
  obtain ⟨A, hA, hR⟩ := maternKernGradGradTh_raw (R := R) (theta := theta) hθ hS hm hf
  refine ⟨A, hA, hR.congr ?_⟩
  intro d x y hd hx hy
  have hS1 := hS.1
  have hfn : gN m R.r = R.r := hf
  simp only [← hS1, hfn] at hx hy
  cases x with
  | v p => cases y <;> simp only [kgThF, radKGth, Ix.pt_v, Ix.coord_v, Ix.coord_g]
  | g i a =>
    simp only [Ix.ok_g] at hx
    cases y with
    | v q => simp only [kgThF, radKGth, Ix.pt_v, Ix.coord_v, Ix.coord_g]
    | g j b =>
      simp only [Ix.ok_g] at hy
      simp only [kgThF, radKGth, Ix.pt_g, gSel_full hm hf hx.2, gSel_full hm hf hy.2, Ix.coord_g]
      rcases hν a hx.2 b (by omega) with h | h
      · have hz := maNu_zero hp h
        simp only [diffAt, hz i hx.1, hz j hy.1, hz d hd]
        ring
      · rw [maφ3c_eq (by exact h)]

theorem maternKernBaseGradTh_ok {R : Arr3} {theta : Arr1} (hθ : R.d ≤ theta.n) (hs : R.r = R.c) :
    ∃ A, maternKernBaseGradTh R theta = .ok A ∧ A.d = R.d ∧ A.r = R.r ∧ A.c = R.c ∧
      ∀ d p q, d < R.d → p < R.r → q < R.c → A.get d p q =
        -sqrt5 * (R.get d p q) ^ 2 * (1 / (2 * max (maNu R theta p q) (10 ^ (-16 : ℤ)))) *
          maφ (ssq R.d theta.get (diffAt R p q)) := by
  unfold maternKernBaseGradTh
  dsimp only
  rw [pyAssert_true hs, materNu_ok hθ]
  simp only [ok_bind]
  obtain ⟨A, hA, h1, h2, h3, h4⟩ := forRange_inv (lo := 0) (hi := R.d) (init := Arr3.zeros R.d R.r R.r)
    (body := fun d D => do
      let x ← (R.map fun x => x ^ 2).slab d
      let y ← (x.smul (-sqrt5)).mul (Arr2.map (fun v => 1 / (2 * max v (10 ^ (-16 : ℤ)))) ⟨R.r, R.c, maNu R theta⟩)
      let V ← y.mul (Arr2.map (fun v => (1 + sqrt5 * v + (5 / 3) * v ^ 2) * Real.exp (-sqrt5 * v)) ⟨R.r, R.c, maNu R theta⟩)
      D.setSlice d 0 R.r 0 R.r V)
    (fun i A => A.d = R.d ∧ A.r = R.r ∧ A.c = R.c ∧
      ∀ d p q, d < i → p < R.r → q < R.c → A.get d p q =
        -sqrt5 * (R.get d p q) ^ 2 * (1 / (2 * max (maNu R theta p q) (10 ^ (-16 : ℤ)))) *
          maφ (ssq R.d theta.get (diffAt R p q))) (Nat.zero_le _)
    ⟨rfl, rfl, hs, by intro d p q h; omega⟩
    (by
      rintro i A _ hi ⟨e1, e2, e3, e4⟩
      simp only [Arr3.slab_ok, Arr3.map_d, hi, ok_bind, Arr2.mul_ok, Arr2.map_r, Arr2.map_c, Arr3.slabD_r,
        Arr3.slabD_c, Arr3.map_r, Arr3.map_c, Arr2.smul_r, Arr2.smul_c]
      refine ⟨_, Arr3.modSlice_ok (by omega) (by simp) (by omega) (by simp [hs]) (by omega), e1, e2, e3, ?_⟩
      intro d p q hd hp hq
      rw [Arr3.upd_get]
      by_cases h : d = i
      · subst h
        have hq' : q < R.r := by omega
        simp only [Nat.zero_le, hp, hq', true_and, and_self, if_true, Nat.sub_zero]
        rfl
      · simp only [h, false_and, if_false]
        exact e4 d p q (by omega) hp hq)
  exact ⟨A, hA, h1, h2, h3, h4⟩

end GP
