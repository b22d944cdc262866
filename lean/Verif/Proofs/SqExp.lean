import Verif.Model.KernelSqExp
import Verif.Proofs.Assemble
import Verif.Proofs.Closed

/-! Closed forms of the squared-exponential kernel functions. -/

open Np Spec

noncomputable section

namespace GP

theorem sqExpSum_ok {R : Arr3} {theta : Arr1} (hθ : R.d ≤ theta.n) :
    sqExpSum R theta = .ok ⟨R.r, R.c, fun p q => -ssq R.d theta.get (diffAt R p q)⟩ := by
  have h := forRange_inv (lo := 0) (hi := R.d) (init := Arr2.zeros R.r R.c)
    (body := fun i E => do
      let th ← theta.at' i
      let Ri ← R.slab i
      E.sub (Ri.map fun x => th * x ^ 2))
    (fun i E => E = ⟨R.r, R.c, fun p q => -ssq i theta.get (diffAt R p q)⟩) (Nat.zero_le _)
    (by simp [Arr2.zeros, ssq])
    (by
      rintro i a _ hi rfl
      rw [Arr1.at'_ok (by omega), Arr3.slab_ok hi]
      simp only [ok_bind]
      rw [Arr2.sub_ok (by rfl) (by rfl)]
      refine ⟨_, rfl, ?_⟩
      simp only [Arr2.mk.injEq, true_and]
      funext p q
      simp [ssq, Finset.sum_range_succ, diffAt]; ring)
  obtain ⟨E, hE, rfl⟩ := h
  exact hE

/-- The second spelling of the sum loop, with `Rtensor_sq` (lines 109-110 and 343-344). -/
theorem sqExpSum2_ok {R : Arr3} {theta : Arr1} (hθ : R.d ≤ theta.n) :
    (forRange 0 R.d (Arr2.zeros R.r R.c) fun i E => do
      let th ← theta.at' i
      let Ri ← (R.map (· ^ 2)).slab i
      E.sub (Ri.smul th)) = .ok ⟨R.r, R.c, fun p q => -ssq R.d theta.get (diffAt R p q)⟩ := by
  rw [← sqExpSum_ok hθ]
  unfold sqExpSum
  apply forRange_congr
  intro i a _ hi
  rw [Arr1.at'_ok (by omega), Arr3.slab_ok hi, Arr3.slab_ok (A := R.map _) hi]
  rfl

theorem sqExpKernBase_ok {R : Arr3} {theta : Arr1} (hθ : R.d ≤ theta.n) :
    sqExpKernBase R theta = .ok ⟨R.r, R.c, fun p q => Real.exp (-ssq R.d theta.get (diffAt R p q))⟩ := by
  unfold sqExpKernBase
  rw [sqExpSum_ok hθ]; rfl

theorem sqExpTerms_ok {R : Arr3} {K : Arr2} {m1 m2 : Option (List Bool)} (hr : K.r = R.r) (hc : K.c = R.c)
    (h1 : maskOk m1 R.r) (h2 : maskOk m2 R.c) :
    sqExpTerms R K m1 m2 = .ok
      { n1g := gN m1 R.r, n2g := gN m2 R.c
        Rg1 := ⟨R.d, gN m1 R.r, R.c, fun d a q => R.get d (gSel m1 a) q⟩
        Rg2 := ⟨R.d, R.r, gN m2 R.c, fun d p b => R.get d p (gSel m2 b)⟩
        Rgg := ⟨R.d, gN m1 R.r, gN m2 R.c, fun d a b => R.get d (gSel m1 a) (gSel m2 b)⟩
        Kg1 := ⟨gN m1 R.r, R.c, fun a q => K.get (gSel m1 a) q⟩
        Kg2 := ⟨R.r, gN m2 R.c, fun p b => K.get p (gSel m2 b)⟩
        Kgg := ⟨gN m1 R.r, gN m2 R.c, fun a b => K.get (gSel m1 a) (gSel m2 b)⟩ } := by
  obtain ⟨Kr, Kc, Kget⟩ := K
  simp only at hr hc
  subst hr hc
  cases m1 with
  | none => cases m2 with
    | none => rfl
    | some l2 =>
      have := h2 l2 rfl
      simp only [sqExpTerms, pure_eq_ok, ok_bind, gN, gSel]
      rw [Arr3.maskCols_ok this, Arr2.maskCols_ok (by simpa using this)]
      rfl
  | some l1 =>
    have e1 := h1 l1 rfl
    cases m2 with
    | none =>
      simp only [sqExpTerms, pure_eq_ok, gN, gSel]
      rw [Arr3.maskRows_ok e1, Arr2.maskRows_ok (by simpa using e1)]
      rfl
    | some l2 =>
      have e2 := h2 l2 rfl
      simp only [sqExpTerms, pure_eq_ok, gN, gSel]
      rw [Arr3.maskRows_ok e1, Arr2.maskRows_ok (by simpa using e1)]
      simp only [ok_bind]
      rw [Arr3.maskCols_ok e2, Arr3.maskCols_ok (by simpa using e2), Arr2.maskCols_ok (by simpa using e2),
        Arr2.maskCols_ok (by simpa using e2)]
      rfl

/-- Entries of the squared-exponential gradient-enhanced matrix. -/
abbrev sqExpF := kgF seφ seφ1 seφ2

theorem sqExpKernGrad_ok {R : Arr3} {theta : Arr1} {m1 m2 : Option (List Bool)} (hθ : R.d ≤ theta.n)
    (h1 : maskOk m1 R.r) (h2 : maskOk m2 R.c) :
    ∃ A, sqExpKernGrad R theta m1 m2 = .ok A ∧
      Rep R.r (gN m1 R.r) R.c (gN m2 R.c) R.d A (sqExpF R theta m1 m2) := by
  unfold sqExpKernGrad
  dsimp only
  rw [sqExpSum2_ok hθ]
  simp only [ok_bind]
  rw [sqExpTerms_ok (by rfl) (by rfl) h1 h2]
  simp only [ok_bind]
  set g1 := gN m1 R.r with hg1
  set g2 := gN m2 R.c with hg2
  obtain ⟨A0, e0, r0⟩ := (Rep.zeros R.r g1 R.c g2 R.d).mod (fun _ v => v) .v .v
    (V := ⟨R.r, R.c, fun p q => Real.exp (-ssq R.d theta.get (diffAt R p q))⟩) trivial trivial rfl rfl
  simp only [Sl.lo, Sl.hi] at e0
  simp only [Arr2.setSlice, Arr2.map]
  rw [e0]
  simp only [ok_bind]
  let K : ℕ → ℕ → ℝ := fun p q => Real.exp (-ssq R.d theta.get (diffAt R p q))
  let V1 : ℕ → Arr2 := fun i => ⟨g1, R.c, fun a q => -2 * theta.get i * R.get i (gSel m1 a) q * K (gSel m1 a) q⟩
  let V2 : ℕ → Arr2 := fun i => ⟨R.r, g2, fun p b => 2 * theta.get i * R.get i p (gSel m2 b) * K p (gSel m2 b)⟩
  let Dg : ℕ → Arr2 := fun i => ⟨g1, g2, fun a b =>
    (2 * theta.get i - 4 * theta.get i ^ 2 * R.get i (gSel m1 a) (gSel m2 b) ^ 2) * K (gSel m1 a) (gSel m2 b)⟩
  let T : ℕ → ℕ → Arr2 := fun i j => ⟨g1, g2, fun a b =>
    -4 * theta.get i * theta.get j * (R.get i (gSel m1 a) (gSel m2 b) * R.get j (gSel m1 a) (gSel m2 b)
      * K (gSel m1 a) (gSel m2 b))⟩
  obtain ⟨A, hA, hR⟩ := asm_spec (n1 := R.r) (g1 := g1) (n2 := R.c) (g2 := g2) (dim := R.d) (A0 := A0)
    (B := K) (V1 := V1) (V2 := V2) (Dg := Dg) (T := T)
    (r0.congr (by
      intro x y _ _
      cases x <;> cases y <;> simp [symUpd, asmPartial, K]))
    (fun i _ => ⟨rfl, rfl⟩) (fun i _ => ⟨rfl, rfl⟩) (fun i _ => ⟨rfl, rfl⟩) (fun i _ j _ => ⟨rfl, rfl⟩)
  refine ⟨A, ?_, hR.congr ?_⟩
  · rw [← hA]
    apply forRange_congr
    intro i A' _ hi
    have hiθ : i < theta.n := by omega
    simp only [Arr1.at'_ok hiθ, ok_bind, Arr3.slab_ok, hi, Arr2.mul_ok, Arr2.smul_r, Arr2.smul_c,
      Arr3.slabD_r, Arr3.slabD_c]
    refine congrArg _ (funext fun A1 => congrArg _ (funext fun A2 => congrArg _ (funext fun A3 => ?_)))
    apply forRange_congr
    intro j A4 _ hj
    have hjθ : j < theta.n := by omega
    simp only [Arr1.at'_ok hjθ, ok_bind, Arr3.slab_ok, hj, Arr2.mul_ok, Arr2.smul_r, Arr2.smul_c,
      Arr3.slabD_r, Arr3.slabD_c]
    rfl
  · intro x y hx hy
    cases x with
    | v p => cases y with
      | v q => simp [asmTarget, sqExpF, kgF, seφ, seφ1, seφ2, radKG, K]
      | g J b =>
        simp only [asmTarget, sqExpF, kgF, seφ, seφ1, seφ2, radKG, K, V2, Ix.pt_v, Ix.pt_g, Ix.coord_v, Ix.coord_g]
        simp only [diffAt]; ring
    | g I a => cases y with
      | v q =>
        simp only [asmTarget, sqExpF, kgF, seφ, seφ1, seφ2, radKG, K, V1, Ix.pt_v, Ix.pt_g, Ix.coord_v, Ix.coord_g]
        simp only [diffAt]; ring
      | g J b =>
        simp only [asmTarget, sqExpF, kgF, seφ, seφ1, seφ2, radKG, K, Dg, T, Ix.pt_g, Ix.coord_g]
        by_cases hIJ : I = J
        · subst hIJ; simp only [if_true, kron_self]; simp only [diffAt]; ring
        · simp only [hIJ, if_false, kron_ne hIJ]
          split_ifs <;> simp only [diffAt] <;> ring

end GP
