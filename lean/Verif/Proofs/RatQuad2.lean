import Verif.Proofs.RatQuad

/-! Shape (`alpha`) and gradient-free derivatives of the rational quadratic kernel. -/

open Np Spec

noncomputable section

namespace Spec

/-- Derivatives wrt `α` of the profile and its two `s`-derivatives. -/
def rqα (α s : ℝ) : ℝ := (1 + s / α) ^ (-α - 1) * (s / α - (1 + s / α) * Real.log (1 + s / α))
def rqα1 (α s : ℝ) : ℝ := -((1 + s / α) ^ (-α - 2) * ((α + 1) / α ^ 2 * s - (1 + s / α) * Real.log (1 + s / α)))
def rqα2 (α s : ℝ) : ℝ := -(1 / α ^ 2 * (1 + s / α) ^ (-α - 2)) +
  (1 + 1 / α) * ((1 + s / α) ^ (-α - 3) * ((α + 2) / α ^ 2 * s - (1 + s / α) * Real.log (1 + s / α)))

theorem rq_alpha_pow {α s : ℝ} (c : ℝ) (hα : 0 < α) (hs : 0 ≤ s) :
    HasDerivAt (fun a => (1 + s / a) ^ (-a - c))
      ((1 + s / α) ^ (-α - (c + 1)) * ((α + c) / α ^ 2 * s - (1 + s / α) * Real.log (1 + s / α))) α := by
  have hB := rq_base_pos hα hs
  have h1 : HasDerivAt (fun a => 1 + s / a) (-(s / α ^ 2)) α := by
    have := ((hasDerivAt_inv hα.ne').const_mul s).const_add 1
    simp only [← div_eq_mul_inv] at this
    exact this.congr_deriv (by ring)
  have h2 : HasDerivAt (fun a : ℝ => -a - c) (-1) α := ((hasDerivAt_id' α).fun_neg).sub_const c
  refine (h1.rpow h2 hB).congr_deriv ?_
  have e1 : (1 + s / α) ^ (-α - c) = (1 + s / α) ^ (-α - (c + 1)) * (1 + s / α) := by
    rw [← Real.rpow_add_one hB.ne']; congr 1; ring
  have e2 : -α - c - 1 = -α - (c + 1) := by ring
  rw [e1, e2]
  field_simp
  ring

theorem rqφ_alpha {α s : ℝ} (hα : 0 < α) (hs : 0 ≤ s) : HasDerivAt (fun a => rqφ a s) (rqα α s) α := by
  have := rq_alpha_pow 0 hα hs
  simp only [sub_zero, zero_add, add_zero] at this
  unfold rqφ rqα
  refine this.congr_deriv ?_
  congr 2
  field_simp

theorem rqφ1_alpha {α s : ℝ} (hα : 0 < α) (hs : 0 ≤ s) : HasDerivAt (fun a => rqφ1 a s) (rqα1 α s) α := by
  have := (rq_alpha_pow 1 hα hs).fun_neg
  unfold rqφ1 rqα1
  refine this.congr_deriv ?_
  norm_num

theorem rqφ2_alpha {α s : ℝ} (hα : 0 < α) (hs : 0 ≤ s) : HasDerivAt (fun a => rqφ2 a s) (rqα2 α s) α := by
  have h1 := rq_alpha_pow 2 hα hs
  have h2 : HasDerivAt (fun a : ℝ => 1 + 1 / a) (-(1 / α ^ 2)) α := by
    have := (hasDerivAt_inv hα.ne').const_add 1
    simp only [← one_div] at this
    exact this.congr_deriv (by ring)
  unfold rqφ2 rqα2
  refine (h2.fun_mul h1).congr_deriv ?_
  norm_num

/-- The covariances are linear in the profile, hence so is their `α`-derivative. -/
theorem radKG_alpha {α : ℝ} (hα : 0 < α) {dim : ℕ} {θ r : ℕ → ℝ} (hs : 0 ≤ ssq dim θ r) (ox oy : Option ℕ) :
    HasDerivAt (fun a => radKG (rqφ a) (rqφ1 a) (rqφ2 a) dim θ r ox oy)
      (radKG (rqα α) (rqα1 α) (rqα2 α) dim θ r ox oy) α := by
  match ox, oy with
  | none, none => exact rqφ_alpha hα hs
  | some i, none => exact (rqφ1_alpha hα hs).const_mul _
  | none, some j => exact ((rqφ1_alpha hα hs).const_mul _).fun_neg
  | some i, some j => exact ((rqφ1_alpha hα hs).const_mul _).fun_neg.fun_sub ((rqφ2_alpha hα hs).const_mul _)

end Spec

namespace GP

theorem ratQuadKernBaseGradTh_ok {R : Arr3} {theta : Arr1} {α : ℝ} (hθ : R.d ≤ theta.n) (hs : R.r = R.c) :
    ∃ A, ratQuadKernBaseGradTh R theta α = .ok A ∧ A.d = R.d ∧ A.r = R.r ∧ A.c = R.c ∧
      ∀ d p q, d < R.d → p < R.r → q < R.c → A.get d p q =
        (R.get d p q) ^ 2 * rqφ1 α (ssq R.d theta.get (diffAt R p q)) := by
  unfold ratQuadKernBaseGradTh
  dsimp only
  rw [pyAssert_true hs, ratQuadSum_ok hθ]
  simp only [ok_bind]
  obtain ⟨A, hA, h1, h2, h3, h4⟩ := forRange_inv (lo := 0) (hi := R.d) (init := Arr3.zeros R.d R.r R.r)
    (body := fun d D => do
      let x ← (R.map fun x => x ^ 2).slab d
      let V ← (x.map fun x => -x).mul (Arr2.map (fun s => (1 + s / α) ^ (-α - 1)) ⟨R.r, R.c, rqS R theta⟩)
      D.setSlice d 0 R.r 0 R.r V)
    (fun i A => A.d = R.d ∧ A.r = R.r ∧ A.c = R.c ∧
      ∀ d p q, d < i → p < R.r → q < R.c → A.get d p q =
        (R.get d p q) ^ 2 * rqφ1 α (ssq R.d theta.get (diffAt R p q))) (Nat.zero_le _)
    ⟨rfl, rfl, hs, by intro d p q h; omega⟩
    (by
      rintro i A _ hi ⟨e1, e2, e3, e4⟩
      simp only [Arr3.slab_ok, Arr3.map_d, hi, ok_bind, Arr2.mul_ok, Arr2.map_r, Arr2.map_c, Arr3.slabD_r,
        Arr3.slabD_c, Arr3.map_r, Arr3.map_c]
      refine ⟨_, Arr3.modSlice_ok (by omega) (by simp) (by omega) (by simp [hs]) (by omega), e1, e2, e3, ?_⟩
      intro d p q hd hp hq
      rw [Arr3.upd_get]
      by_cases h : d = i
      · subst h
        have hq' : q < R.r := by omega
        simp only [Nat.zero_le, hp, hq', true_and, and_self, if_true, Nat.sub_zero]
        simp only [Arr2.map_get, Arr3.slabD_get, Arr3.map_get, rqS, rqφ1]; ring
      · simp only [h, false_and, if_false]
        exact e4 d p q (by omega) hp hq)
  exact ⟨A, hA, h1, h2, h3, h4⟩

theorem ratQuadKernBaseGradAlpha_ok {R : Arr3} {theta : Arr1} {α : ℝ} (hθ : R.d ≤ theta.n) (hs : R.r = R.c) :
    ∃ A, ratQuadKernBaseGradAlpha R theta α = .ok A ∧ A.d = 1 ∧ A.r = R.r ∧ A.c = R.c ∧
      ∀ p q, p < R.r → q < R.c → A.get 0 p q = rqα α (ssq R.d theta.get (diffAt R p q)) := by
  unfold ratQuadKernBaseGradAlpha
  have := ratQuadSum_ok (R := R) (theta := theta) hθ
  unfold ratQuadSum at this
  dsimp only at this ⊢
  rw [← hs] at this
  rw [this]
  simp only [ok_bind, Arr2.sub_ok, Arr2.mul_ok, Arr2.map_r, Arr2.map_c]
  refine ⟨_, Arr3.modSlice_ok (by simp) (by simp) (by simp) (by simp) (by simp), rfl, rfl, hs, ?_⟩
  intro p q hp hq
  rw [Arr3.upd_get]
  have hq' : q < R.r := by omega
  simp only [Nat.zero_le, hp, hq', true_and, and_self, if_true, Nat.sub_zero]
  simp only [Arr2.map_get, rqS, rqα]

theorem ratQuadAlphaTerms_ok {R Rsq : Arr3} {T0 T1 T2 : Arr2} {m : Option (List Bool)}
    (hd : Rsq.d = R.d) (hrs : Rsq.r = R.r) (hcs : Rsq.c = R.c) (hsq : R.r = R.c)
    (hr : T0.r = R.r) (hc : T0.c = R.c)
    (hr' : T1.r = R.r) (hc' : T1.c = R.c) (hr'' : T2.r = R.r) (hc'' : T2.c = R.c) (h1 : maskOk m R.r) :
    ratQuadAlphaTerms R Rsq T0 T1 T2 m = .ok
      { ng := gN m R.r
        Rg1 := ⟨R.d, gN m R.r, R.c, fun d a q => R.get d (gSel m a) q⟩
        Rgg := ⟨R.d, gN m R.r, gN m R.c, fun d a b => R.get d (gSel m a) (gSel m b)⟩
        Rsqgg := ⟨R.d, gN m R.r, gN m R.c, fun d a b => Rsq.get d (gSel m a) (gSel m b)⟩
        T0g1 := ⟨gN m R.r, R.c, fun a q => T0.get (gSel m a) q⟩
        T1gg := ⟨gN m R.r, gN m R.c, fun a b => T1.get (gSel m a) (gSel m b)⟩
        T2gg := ⟨gN m R.r, gN m R.c, fun a b => T2.get (gSel m a) (gSel m b)⟩ } := by
  obtain ⟨Kr, Kc, Kget⟩ := T0
  obtain ⟨Mr, Mc, Mget⟩ := T1
  obtain ⟨Nr, Nc, Nget⟩ := T2
  obtain ⟨Sd, Sr, Sc, Sget⟩ := Rsq
  obtain ⟨Rd, Rr, Rc, Rget⟩ := R
  simp only at hr hc hr' hc' hr'' hc'' hd hrs hcs hsq
  subst hr hc hr' hc' hr'' hc'' hd hrs hcs
  subst hsq
  cases m with
  | none => rfl
  | some l =>
    have e1 := h1 l rfl
    simp only at e1
    simp only [ratQuadAlphaTerms, pure_eq_ok, gN, gSel, Arr3.maskRows_ok (A := ⟨_, _, _, _⟩) e1,
      Arr2.maskRows_ok (A := ⟨_, _, _⟩) e1,
      Arr3.maskCols_ok (A := ⟨_, _, _, _⟩) e1,
      Arr2.maskCols_ok (A := ⟨_, _, _⟩) e1, ok_bind]

/-- Target of the `grad_alpha` assembly. -/
def alTarget (W0 : ℕ → ℕ → ℝ) (X Z : ℕ → ℕ → ℕ → ℝ) (U : ℕ → ℕ → ℕ → ℕ → ℝ) : Ix → Ix → ℝ
  | .v p, .v q => W0 p q
  | .g I a, .v q => X I a q
  | .v p, .g J b => X J b p
  | .g I a, .g J b => if I = J then Z I a b else if I < J then U I J a b else U J I a b

theorem gradAl_spec {n g dim : ℕ} {W0 : Arr2} {X Z : ℕ → Arr2} {U : ℕ → ℕ → Arr2}
    (hW0 : W0.r = n ∧ W0.c = n)
    (hX : ∀ i < dim, (X i).r = g ∧ (X i).c = n)
    (hZ : ∀ i < dim, (Z i).r = g ∧ (Z i).c = g)
    (hU : ∀ i < dim, ∀ j < dim, (U i j).r = g ∧ (U i j).c = g) :
    ∃ A, (do
        let D ← (Arr3.zeros 1 (n + g * dim) (n + g * dim)).setSlice 0 0 n 0 n W0
        forRange 0 dim D fun i D => do
          let D ← D.addSlice 0 (n + i * g) (n + i * g + g) 0 n (X i)
          let D ← D.addSlice 0 0 n (n + i * g) (n + i * g + g) (X i).T
          let D ← D.addSlice 0 (n + i * g) (n + i * g + g) (n + i * g) (n + i * g + g) (Z i)
          forRange (i + 1) dim D fun j D => do
            let D ← D.addSlice 0 (n + i * g) (n + i * g + g) (n + j * g) (n + j * g + g) (U i j)
            D.addSlice 0 (n + j * g) (n + j * g + g) (n + i * g) (n + i * g + g) (U i j) : Py Arr3) = .ok A ∧
      Rep3 1 n g n g dim A (fun _ => alTarget W0.get (fun i => (X i).get) (fun i => (Z i).get) (fun i j => (U i j).get)) := by
  have h1 : (0 : ℕ) < 1 := one_pos
  obtain ⟨A1, e1, r1⟩ := (Rep3.zeros 1 n g n g dim).set_zero 0 h1 .v .v (V := W0) trivial trivial hW0.1 hW0.2
      (by intro x y _ _; rfl)
  have b1 := fun i (hi : i < dim) => Adds.add (D := 1) (n1 := n) (g1 := g) (n2 := n) (g2 := g) (dim := dim)
    (V := X i) 0 h1 (.g i) .v hi trivial (hX i hi).1 (hX i hi).2
  have b2 := fun i (hi : i < dim) => Adds.add (D := 1) (n1 := n) (g1 := g) (n2 := n) (g2 := g) (dim := dim)
    (V := (X i).T) 0 h1 .v (.g i) trivial hi (hX i hi).2 (hX i hi).1
  have b3 := fun i (hi : i < dim) => Adds.add (D := 1) (n1 := n) (g1 := g) (n2 := n) (g2 := g) (dim := dim)
    (V := Z i) 0 h1 (.g i) (.g i) hi hi (hZ i hi).1 (hZ i hi).2
  have c1 := fun i (hi : i < dim) j (hj : j < dim) =>
    (Adds.add (D := 1) (n1 := n) (g1 := g) (n2 := n) (g2 := g) (dim := dim)
    (V := U i j) 0 h1 (.g i) (.g j) hi hj (hU i hi j hj).1 (hU i hi j hj).2).bind
    (Adds.add (D := 1) (n1 := n) (g1 := g) (n2 := n) (g2 := g) (dim := dim)
    (V := U i j) 0 h1 (.g j) (.g i) hj hi (hU i hi j hj).1 (hU i hi j hj).2)
  have bj := fun i (hi : i < dim) => Adds.forRange (Nat.succ_le_of_lt hi)
    (fun j (_ : i.succ ≤ j) (hj : j < dim) => c1 i hi j hj)
  have bi := Adds.forRange (Nat.zero_le dim) (fun i (_ : 0 ≤ i) (hi : i < dim) =>
    (b1 i hi).bind ((b2 i hi).bind ((b3 i hi).bind (bj i hi))))
  obtain ⟨A2, e2, r2⟩ := bi A1 _ r1
  refine ⟨A2, ?_, r2.congr ?_⟩
  · rw [show (Arr3.zeros 1 (n + g * dim) (n + g * dim)).setSlice 0 0 n 0 n W0 = .ok A1 from e1, ok_bind]
    exact e2
  · intro k x y hk hx hy
    have hk0 : k = 0 := by omega
    subst hk0
    simp only [contrib, if_true, zero_add]
    cases x with
    | v p => cases y with
      | v q => simp [alTarget]
      | g J b =>
        simp only [Ix.ok_g] at hy
        simp only [Sl.hit_vv, Sl.hit_gv, Sl.hit_vg, Sl.hit_gg, pairVal_none_left, pairVal_none_right,
          pairVal_sg, add_zero, zero_add, Finset.sum_const_zero, Finset.sum_ite_eq, Finset.mem_Ico,
          Nat.zero_le, hy.1, and_true, if_true, alTarget, Arr2.T_get]
    | g I a =>
      simp only [Ix.ok_g] at hx
      have hImem : I ∈ Finset.Ico 0 dim := Finset.mem_Ico.mpr ⟨Nat.zero_le _, hx.1⟩
      cases y with
      | v q =>
        simp only [Sl.hit_vv, Sl.hit_gv, Sl.hit_vg, Sl.hit_gg, pairVal_none_left, pairVal_none_right,
          pairVal_gs, add_zero, zero_add, Finset.sum_const_zero, Finset.sum_ite_eq, Finset.mem_Ico,
          Nat.zero_le, hx.1, and_true, if_true, alTarget]
      | g J b =>
        simp only [Ix.ok_g] at hy
        have hJmem : J ∈ Finset.Ico 0 dim := Finset.mem_Ico.mpr ⟨Nat.zero_le _, hy.1⟩
        simp only [Sl.hit_vg, Sl.hit_gg, pairVal_gg, pairVal_none_left, pairVal_none_right, zero_add]
        have hU1 : ∀ i ∈ Finset.Ico 0 dim, ∑ j ∈ Finset.Ico i.succ dim,
            ((if I = i ∧ J = j then (U i j).get a b else 0) +
              if I = j ∧ J = i then (U i j).get a b else 0) =
            (if I = i then (if I < J then (U I J).get a b else 0) else 0) +
            (if J = i then (if J < I then (U J I).get a b else 0) else 0) := by
          intro i hi
          rw [Finset.sum_add_distrib]
          congr 1
          · by_cases h : I = i
            · subst h
              simp only [true_and, if_true]
              rw [Finset.sum_ite_eq]
              simp only [Finset.mem_Ico, Nat.succ_le_iff, hy.1, and_true]
            · simp [h]
          · by_cases h : J = i
            · subst h
              simp only [and_true, if_true]
              rw [Finset.sum_ite_eq]
              simp only [Finset.mem_Ico, Nat.succ_le_iff, hx.1, and_true]
            · simp [h]
        rw [Finset.sum_congr rfl fun i hi => by rw [hU1 i hi]]
        simp only [Finset.sum_add_distrib]
        have s3 : ∀ f : ℕ → ℝ, ∑ i ∈ Finset.Ico 0 dim, (if I = i ∧ J = i then f i else 0) =
            if I = J then f I else 0 := by
          intro f
          rw [← sum_ite_pair (Finset.Ico 0 dim) I J f hImem]
          apply Finset.sum_congr rfl
          intro i _
          by_cases h1 : I = i <;> by_cases h2 : J = i <;> simp [h1, h2]
        rw [s3, Finset.sum_ite_eq, Finset.sum_ite_eq]
        simp only [hImem, hJmem, if_true, alTarget]
        rcases lt_trichotomy I J with h | h | h
        · have h2 : ¬ J < I := by omega
          have h3 : I ≠ J := by omega
          simp [h, h2, h3]
        · subst h; simp
        · have h2 : ¬ I < J := by omega
          have h3 : I ≠ J := by omega
          simp [h, h2, h3]

theorem ratQuadKernGradGradAlpha_ok {R : Arr3} {theta : Arr1} {α : ℝ} {m : Option (List Bool)} (hθ : R.d ≤ theta.n)
    (hα : 0 < α) (hp : ∀ d < R.d, 0 ≤ theta.get d) (hS : SelfR R) (hm : maskOk m R.r) :
    ∃ A, ratQuadKernGradGradAlpha R theta α m = .ok A ∧
      Rep3 1 R.r (gN m R.r) R.c (gN m R.c) R.d A (fun _ => kgF (rqα α) (rqα1 α) (rqα2 α) R theta m m) := by
  unfold ratQuadKernGradGradAlpha
  dsimp only
  rw [pyAssert_true hS.1, ratQuadSum_ok hθ]
  simp only [ok_bind, Arr2.add_ok, Arr2.sub_ok, Arr2.mul_ok, Arr2.smul_r, Arr2.smul_c, Arr2.map_r, Arr2.map_c]
  have hS1 := hS.1
  rw [ratQuadAlphaTerms_ok (by rfl) (by rfl) (by rfl) hS1 (by rfl) (by rfl) (by rfl) (by rfl) (by rfl) (by rfl) hm]
  simp only [ok_bind]
  simp only [← hS1]
  let n := R.r
  set g := gN m R.r with hg
  let s := rqS R theta
  let t := theta.get
  let e := gSel m
  let B : ℕ → ℕ → ℝ := fun p q => 1 + s p q / α
  let L : ℕ → ℕ → ℝ := fun p q => B p q * Real.log (B p q)
  let T0 : ℕ → ℕ → ℝ := fun p q => 2 * (B p q) ^ (-α - 2) * ((-α - 1) / α ^ 2 * s p q + L p q)
  let T1 : ℕ → ℕ → ℝ := fun p q => 2 * (B p q) ^ (-α - 2) * ((α + 1) / α ^ 2 * s p q - L p q)
  let T2 : ℕ → ℕ → ℝ := fun p q => 4 * (B p q) ^ (-α - 3) *
    (B p q / α ^ 2 - (1 + 1 / α) * (α + 2) / α ^ 2 * s p q + (1 + 1 / α) * L p q)
  obtain ⟨A, hA, hR⟩ := gradAl_spec (n := n) (g := g) (dim := R.d)
    (W0 := ⟨n, n, fun p q => (B p q) ^ (-α - 1) * (s p q / α - B p q * Real.log (B p q))⟩)
    (X := fun i => ⟨g, n, fun p q => t i * R.get i (e p) q * T0 (e p) q⟩)
    (Z := fun i => ⟨g, g, fun p q => t i * T1 (e p) (e q) + t i ^ 2 * R.get i (e p) (e q) ^ 2 * T2 (e p) (e q)⟩)
    (U := fun i j => ⟨g, g, fun p q => t i * t j * R.get i (e p) (e q) * R.get j (e p) (e q) * T2 (e p) (e q)⟩)
    ⟨rfl, rfl⟩ (fun i _ => ⟨rfl, rfl⟩) (fun i _ => ⟨rfl, rfl⟩) (fun i _ j _ => ⟨rfl, rfl⟩)
  refine ⟨A, ?_, hR.congr ?_⟩
  · rw [← hA]
    refine congrArg _ (funext fun A0 => ?_)
    apply forRange_congr
    intro i A5 _ hi
    have hiθ : i < theta.n := by omega
    simp only [Arr1.at'_ok hiθ, Arr3.slab_ok, hi, ok_bind, Arr2.mul_ok, Arr2.add_ok,
      Arr2.smul_r, Arr2.smul_c, Arr3.slabD_r, Arr3.slabD_c]
    refine congrArg _ (funext fun A1 => congrArg _ (funext fun A2 => congrArg _ (funext fun A3 => ?_)))
    apply forRange_congr
    intro j A6 _ hj
    have hjθ : j < theta.n := by omega
    simp only [Arr1.at'_ok hjθ, Arr3.slab_ok, hi, hj, ok_bind, Arr2.mul_ok,
      Arr2.smul_r, Arr2.smul_c, Arr3.slabD_r, Arr3.slabD_c]
    rfl
  · intro d x y hd hx hy
    have key : ∀ p q, (B p q) ^ (-α - 2) = (B p q) ^ (-α - 3) * B p q := by
      intro p q
      have : 0 < B p q := rq_base_pos hα (ssq_nonneg hp _)
      rw [← Real.rpow_add_one this.ne']; congr 1; ring
    cases x with
    | v p => cases y with
      | v q =>
        simp only [alTarget, kgF, radKG, Ix.pt_v, Ix.coord_v, B, s, rqS, rqα]
      | g J b =>
        simp only [alTarget, kgF, radKG, Ix.pt_v, Ix.pt_g, Ix.coord_v, Ix.coord_g, T0, L, B, s, rqS, rqα1, e, t]
        rw [hS.ssq _ _ (gSel m b) p]
        have e1 := hS.2 J (gSel m b) p
        simp only [diffAt, e1]; ring
    | g I' a => cases y with
      | v q =>
        simp only [alTarget, kgF, radKG, Ix.pt_v, Ix.pt_g, Ix.coord_v, Ix.coord_g, T0, L, B, s, rqS, rqα1, e, t]
        simp only [diffAt]; ring
      | g J b =>
        have hT2 : ∀ p q, T2 p q = -4 * rqα2 α (s p q) := by
          intro p q
          have := key p q
          simp only [B] at this
          simp only [T2, rqα2, L, B, this]
          have := hα.ne'
          field_simp
          ring
        have hT1 : ∀ p q, T1 p q = -2 * rqα1 α (s p q) := by
          intro p q
          simp only [T1, rqα1, L, B]; ring
        simp only [alTarget, hT1, hT2]
        simp only [kgF, radKG, Ix.pt_g, Ix.coord_g, s, rqS, e, t]
        by_cases hIJ : I' = J
        · subst hIJ; simp only [if_true, kron_self]; simp only [diffAt]; ring
        · simp only [hIJ, if_false, kron_ne hIJ]
          split_ifs <;> simp only [diffAt] <;> ring

end GP
