import Verif.Model.KernelRatQuad
import Verif.Proofs.Matern2

/-! Closed forms of the rational quadratic kernel functions. -/

open Np Spec

noncomputable section

namespace GP

/-- `B = 1 + s/α` of a pair. -/
def rqS (R : Arr3) (theta : Arr1) (p q : ℕ) : ℝ := ssq R.d theta.get (diffAt R p q)

theorem ratQuadSum_ok {R : Arr3} {theta : Arr1} (hθ : R.d ≤ theta.n) :
    ratQuadSum R theta = .ok ⟨R.r, R.c, rqS R theta⟩ := by
  unfold rqS
  rw [← sumLoop_ok hθ]
  unfold ratQuadSum
  apply forRange_congr
  intro i a _ hi
  rw [Arr1.at'_ok (by omega), Arr3.slab_ok hi, Arr3.slab_ok (A := R.map _) hi]
  rfl

theorem ratQuadKernBase_ok {R : Arr3} {theta : Arr1} {α : ℝ} (hθ : R.d ≤ theta.n) :
    ratQuadKernBase R theta α = .ok ⟨R.r, R.c, fun p q => rqφ α (ssq R.d theta.get (diffAt R p q))⟩ := by
  unfold ratQuadKernBase
  rw [ratQuadSum_ok hθ]; rfl

/-- The masked arrays are those of the two masks, except in the call with only the first mask. -/
theorem ratQuadTerms_ok {R Rsq : Arr3} {B1 B2 : Arr2} {m1 m2 : Option (List Bool)}
    (hd : Rsq.d = R.d) (hrs : Rsq.r = R.r) (hcs : Rsq.c = R.c)
    (hr : B1.r = R.r) (hc : B1.c = R.c)
    (hr' : B2.r = R.r) (hc' : B2.c = R.c) (h1 : maskOk m1 R.r) (h2 : maskOk m2 R.c)
    (hm : m1 = none ∨ m2 ≠ none) :
    ratQuadTerms R Rsq B1 B2 m1 m2 = .ok
      { n1g := gN m1 R.r, n2g := gN m2 R.c
        Rg1 := ⟨R.d, gN m1 R.r, R.c, fun d a q => R.get d (gSel m1 a) q⟩
        Rg2 := ⟨R.d, R.r, gN m2 R.c, fun d p b => R.get d p (gSel m2 b)⟩
        Rgg := ⟨R.d, gN m1 R.r, gN m2 R.c, fun d a b => R.get d (gSel m1 a) (gSel m2 b)⟩
        Rsqgg := ⟨R.d, gN m1 R.r, gN m2 R.c, fun d a b => Rsq.get d (gSel m1 a) (gSel m2 b)⟩
        B1g1 := ⟨gN m1 R.r, R.c, fun a q => B1.get (gSel m1 a) q⟩
        B1g2 := ⟨R.r, gN m2 R.c, fun p b => B1.get p (gSel m2 b)⟩
        B1gg := ⟨gN m1 R.r, gN m2 R.c, fun a b => B1.get (gSel m1 a) (gSel m2 b)⟩
        B2gg := ⟨gN m1 R.r, gN m2 R.c, fun a b => B2.get (gSel m1 a) (gSel m2 b)⟩ } := by
  obtain ⟨Kr, Kc, Kget⟩ := B1
  obtain ⟨Mr, Mc, Mget⟩ := B2
  obtain ⟨Sd, Sr, Sc, Sget⟩ := Rsq
  simp only at hr hc hr' hc' hd hrs hcs
  subst hr hc hr' hc' hd hrs hcs
  cases m1 with
  | none => cases m2 with
    | none => rfl
    | some l2 =>
      have := h2 l2 rfl
      simp only [ratQuadTerms, pure_eq_ok, ok_bind, gN, gSel]
      rw [Arr3.maskCols_ok this, Arr3.maskCols_ok (by simpa using this), Arr2.maskCols_ok (by simpa using this), Arr2.maskCols_ok (by simpa using this)]
      rfl
  | some l1 =>
    have e1 := h1 l1 rfl
    cases m2 with
    | none => simp at hm
    | some l2 =>
      have e2 := h2 l2 rfl
      simp only [ratQuadTerms, pure_eq_ok, gN, gSel]
      rw [Arr3.maskRows_ok e1, Arr3.maskRows_ok (by simpa using e1), Arr2.maskRows_ok (by simpa using e1), Arr2.maskRows_ok (by simpa using e1)]
      simp only [ok_bind]
      rw [Arr3.maskCols_ok e2, Arr3.maskCols_ok (by simpa using e2), Arr3.maskCols_ok (by simpa using e2), Arr2.maskCols_ok (by simpa using e2), Arr2.maskCols_ok (by simpa using e2),
        Arr2.maskCols_ok (by simpa using e2)]
      rfl

/-- Entries of the rational quadratic gradient-enhanced matrix. -/
abbrev ratQuadF (α : ℝ) := kgF (rqφ α) (rqφ1 α) (rqφ2 α)

theorem ratQuadKernGrad_ok0 {R : Arr3} {theta : Arr1} {α : ℝ} {m1 m2 : Option (List Bool)} (hθ : R.d ≤ theta.n)
    (h1 : maskOk m1 R.r) (h2 : maskOk m2 R.c) (hm : m1 = none ∨ m2 ≠ none) :
    ∃ A, ratQuadKernGrad R theta α m1 m2 = .ok A ∧
      Rep R.r (gN m1 R.r) R.c (gN m2 R.c) R.d A (ratQuadF α R theta m1 m2) := by
  unfold ratQuadKernGrad
  dsimp only
  rw [ratQuadSum_ok hθ]
  simp only [ok_bind, Arr2.mul_ok, Arr2.map_r, Arr2.map_c]
  rw [ratQuadTerms_ok (by rfl) (by rfl) (by rfl) (by rfl) (by rfl) (by rfl) (by rfl) h1 h2 hm]
  simp only [ok_bind]
  set g1 := gN m1 R.r with hg1
  set g2 := gN m2 R.c with hg2
  let s := rqS R theta
  let B : ℕ → ℕ → ℝ := fun p q => (1 + s p q / α) ^ (-α)
  let M : ℕ → ℕ → ℝ := fun p q => (1 + s p q / α) ^ (-α - 1)
  let K : ℕ → ℕ → ℝ := fun p q => (1 + s p q / α) ^ (-α - 2)
  obtain ⟨A0, e0, r0⟩ := (Rep.zeros R.r g1 R.c g2 R.d).mod (fun _ v => v) .v .v
    (V := ⟨R.r, R.c, B⟩) trivial trivial rfl rfl
  simp only [Sl.lo, Sl.hi] at e0
  simp only [Arr2.setSlice]
  have e0' : Arr2.modSlice (fun _ v => v) (Arr2.zeros (R.r + g1 * R.d) (R.c + g2 * R.d)) 0 R.r 0 R.c
      (Arr2.map (fun b => b ^ (-α)) (Arr2.map (fun s => 1 + s / α) ⟨R.r, R.c, rqS R theta⟩)) = .ok A0 := e0
  rw [e0']
  simp only [ok_bind]
  let c := 4 * (1 + 1 / α)
  let V1 : ℕ → Arr2 := fun i => ⟨g1, R.c, fun a q => -2 * theta.get i * R.get i (gSel m1 a) q * M (gSel m1 a) q⟩
  let V2 : ℕ → Arr2 := fun i => ⟨R.r, g2, fun p b => 2 * theta.get i * R.get i p (gSel m2 b) * M p (gSel m2 b)⟩
  let Dg : ℕ → Arr2 := fun i => ⟨g1, g2, fun a b =>
    2 * theta.get i * M (gSel m1 a) (gSel m2 b) -
    (c * theta.get i ^ 2 * R.get i (gSel m1 a) (gSel m2 b) ^ 2) * K (gSel m1 a) (gSel m2 b)⟩
  let T : ℕ → ℕ → Arr2 := fun i j => ⟨g1, g2, fun a b =>
    -c * theta.get i * theta.get j * R.get i (gSel m1 a) (gSel m2 b) * R.get j (gSel m1 a) (gSel m2 b)
      * K (gSel m1 a) (gSel m2 b)⟩
  obtain ⟨A, hA, hR⟩ := asm_spec (n1 := R.r) (g1 := g1) (n2 := R.c) (g2 := g2) (dim := R.d) (A0 := A0)
    (B := B) (V1 := V1) (V2 := V2) (Dg := Dg) (T := T)
    (r0.congr (by
      intro x y _ _
      cases x <;> cases y <;> simp [symUpd, asmPartial]))
    (fun i _ => ⟨rfl, rfl⟩) (fun i _ => ⟨rfl, rfl⟩) (fun i _ => ⟨rfl, rfl⟩) (fun i _ j _ => ⟨rfl, rfl⟩)
  refine ⟨A, ?_, hR.congr ?_⟩
  · rw [← hA]
    apply forRange_congr
    intro i A' _ hi
    have hiθ : i < theta.n := by omega
    simp only [Arr1.at'_ok hiθ, ok_bind, Arr3.slab_ok, hi, Arr2.mul_ok, Arr2.sub_ok, Arr2.smul_r, Arr2.smul_c,
      Arr2.map_r, Arr2.map_c, Arr3.slabD_r, Arr3.slabD_c]
    refine congrArg _ (funext fun A1 => congrArg _ (funext fun A2 => congrArg _ (funext fun A3 => ?_)))
    apply forRange_congr
    intro j A4 _ hj
    have hjθ : j < theta.n := by omega
    simp only [Arr1.at'_ok hjθ, ok_bind, Arr3.slab_ok, hj, Arr2.mul_ok, Arr2.smul_r, Arr2.smul_c,
      Arr3.slabD_r, Arr3.slabD_c]
    rfl
  · intro x y hx hy
    cases x with
    | v p => cases y with
      | v q => simp only [asmTarget, kgF, radKG, Ix.pt_v, Ix.coord_v]; rfl
      | g J b =>
        simp only [asmTarget, kgF, radKG, Ix.pt_v, Ix.pt_g, Ix.coord_v, Ix.coord_g, V2, M, rqφ1, s, rqS]
        simp only [diffAt]; ring
    | g I a => cases y with
      | v q =>
        simp only [asmTarget, kgF, radKG, Ix.pt_v, Ix.pt_g, Ix.coord_v, Ix.coord_g, V1, M, rqφ1, s, rqS]
        simp only [diffAt]; ring
      | g J b =>
        simp only [asmTarget, kgF, radKG, Ix.pt_g, Ix.coord_g, Dg, T, M, K, rqφ1, rqφ2, s, rqS, c]
        by_cases hIJ : I = J
        · subst hIJ; simp only [if_true, kron_self]; simp only [diffAt]; ring
        · simp only [hIJ, if_false, kron_ne hIJ]
          split_ifs <;> simp only [diffAt] <;> ring

/-- The entries with a mask for the first point set only: in the blocks of values with gradients the factor of row `σ p` is used in row `p`. -/
def ratQuadF1 (α : ℝ) (R : Arr3) (theta : Arr1) (l : List Bool) (σ : ℕ → ℕ) : Ix → Ix → ℝ
  | .v p, .g j b => 2 * theta.get j * R.get j p b * (1 + rqS R theta (σ p) b / α) ^ (-α - 1)
  | x, y => ratQuadF α R theta (some l) none x y

/-- With a mask for the first point set only, the call succeeds if one point or all points are selected. -/
theorem ratQuadKernGrad_mask1 {R : Arr3} {theta : Arr1} {α : ℝ} {l : List Bool} (hθ : R.d ≤ theta.n) (hl : l.length = R.r) {σ : ℕ → ℕ}
    (hσ : (nTrue l = R.r ∧ σ = sel l) ∨ (nTrue l = 1 ∧ R.r ≠ 1 ∧ σ = fun _ => sel l 0)) :
    ∃ A, ratQuadKernGrad R theta α (some l) none = .ok A ∧ Rep R.r (nTrue l) R.c R.c R.d A (ratQuadF1 α R theta l σ) := by
  unfold ratQuadKernGrad
  dsimp only
  rw [ratQuadSum_ok hθ]
  simp only [ok_bind, Arr2.mul_ok, Arr2.map_r, Arr2.map_c]
  unfold ratQuadTerms
  simp only [Arr3.maskRows_ok hl, Arr3.maskRows_ok (A := R.map _) hl,
    Arr2.maskRows_ok (A := Arr2.map _ (Arr2.map _ (⟨R.r, R.c, rqS R theta⟩ : Arr2))) hl, ok_bind, pure_eq_ok]
  set g1 := nTrue l with hg1
  let s := rqS R theta
  let B : ℕ → ℕ → ℝ := fun p q => (1 + s p q / α) ^ (-α)
  let M : ℕ → ℕ → ℝ := fun p q => (1 + s p q / α) ^ (-α - 1)
  let K : ℕ → ℕ → ℝ := fun p q => (1 + s p q / α) ^ (-α - 2)
  obtain ⟨A0, e0, r0⟩ := (Rep.zeros R.r g1 R.c R.c R.d).mod (fun _ v => v) .v .v
    (V := ⟨R.r, R.c, B⟩) trivial trivial rfl rfl
  simp only [Sl.lo, Sl.hi] at e0
  simp only [Arr2.setSlice]
  have e0' : Arr2.modSlice (fun _ v => v) (Arr2.zeros (R.r + g1 * R.d) (R.c + R.c * R.d)) 0 R.r 0 R.c
      (Arr2.map (fun b => b ^ (-α)) (Arr2.map (fun s => 1 + s / α) ⟨R.r, R.c, rqS R theta⟩)) = .ok A0 := e0
  rw [e0']
  simp only [ok_bind]
  let c := 4 * (1 + 1 / α)
  let V1 : ℕ → Arr2 := fun i => ⟨g1, R.c, fun a q => -2 * theta.get i * R.get i (sel l a) q * M (sel l a) q⟩
  let V2 : ℕ → Arr2 := fun i => ⟨R.r, R.c, fun p b => 2 * theta.get i * R.get i p b * M (σ p) b⟩
  let Dg : ℕ → Arr2 := fun i => ⟨g1, R.c, fun a b =>
    2 * theta.get i * M (sel l a) b -
    (c * theta.get i ^ 2 * R.get i (sel l a) b ^ 2) * K (sel l a) b⟩
  let T : ℕ → ℕ → Arr2 := fun i j => ⟨g1, R.c, fun a b =>
    -c * theta.get i * theta.get j * R.get i (sel l a) b * R.get j (sel l a) b
      * K (sel l a) b⟩
  have hV2 : ∀ i, (Arr2.smul (2 * theta.get i) (R.slabD i)).mul
      (⟨g1, R.c, fun i j => (Arr2.map (fun b => b ^ (-α - 1)) (Arr2.map (fun s => 1 + s / α) ⟨R.r, R.c, rqS R theta⟩)).get (sel l i) j⟩ : Arr2)
        = .ok (V2 i) := by
    intro i
    rcases hσ with ⟨h1, h2⟩ | ⟨h1, h2, h3⟩
    · rw [Arr2.mul_ok (by exact h1.symm) (by rfl)]
      subst h2
      rfl
    · have hb : bdim R.r g1 = some R.r := by unfold bdim; rw [h1]; simp [h2]
      unfold Arr2.mul Arr2.bop
      have h0 : ∀ j, bidx g1 R.r j = 0 := by
        intro j
        unfold bidx
        rw [if_neg (by omega)]
      have hc : bdim R.c R.c = some R.c := bdim_self _
      have hj : ∀ j, bidx R.c R.c j = j := bidx_self _
      simp only [Arr2.smul_r, Arr3.slabD_r, Arr2.smul_c, Arr3.slabD_c, hb, hc, hj, bidx_self, h0]
      subst h3
      rfl
  obtain ⟨A, hA, hR⟩ := asm_spec (n1 := R.r) (g1 := g1) (n2 := R.c) (g2 := R.c) (dim := R.d) (A0 := A0)
    (B := B) (V1 := V1) (V2 := V2) (Dg := Dg) (T := T)
    (r0.congr (by
      intro x y _ _
      cases x <;> cases y <;> simp [symUpd, asmPartial]))
    (fun i _ => ⟨rfl, rfl⟩) (fun i _ => ⟨rfl, rfl⟩) (fun i _ => ⟨rfl, rfl⟩) (fun i _ j _ => ⟨rfl, rfl⟩)
  refine ⟨A, ?_, hR.congr ?_⟩
  · rw [← hA]
    apply forRange_congr
    intro i A' _ hi
    have hiθ : i < theta.n := by omega
    simp only [Arr1.at'_ok hiθ, ok_bind, Arr3.slab_ok, hi, Arr2.mul_ok, Arr2.sub_ok, Arr2.smul_r, Arr2.smul_c,
      Arr2.map_r, Arr2.map_c, Arr3.slabD_r, Arr3.slabD_c]
    refine congrArg _ (funext fun A1 => ?_)
    rw [hV2 i, ok_bind]
    simp only [Arr3.slab_ok, hi, Arr3.map_d, ok_bind, Arr2.mul_ok, Arr2.sub_ok, Arr2.smul_r, Arr2.smul_c, Arr3.slabD_r, Arr3.slabD_c, Arr3.map_r, Arr3.map_c]
    refine congrArg _ (funext fun A2 => congrArg _ (funext fun A3 => ?_))
    apply forRange_congr
    intro j A4 _ hj
    have hjθ : j < theta.n := by omega
    simp only [Arr1.at'_ok hjθ, ok_bind, Arr3.slab_ok, hj, Arr2.mul_ok, Arr2.smul_r, Arr2.smul_c,
      Arr3.slabD_r, Arr3.slabD_c]
    rfl
  · intro x y hx hy
    cases x with
    | v p => cases y with
      | v q => simp only [asmTarget, ratQuadF1, kgF, radKG, Ix.pt_v, Ix.coord_v]; rfl
      | g J b => rfl
    | g I a => cases y with
      | v q =>
        simp only [asmTarget, ratQuadF1, kgF, radKG, Ix.pt_v, Ix.pt_g, Ix.coord_v, Ix.coord_g, V1, M, rqφ1, s, rqS, gSel]
        simp only [diffAt]; ring
      | g J b =>
        simp only [asmTarget, ratQuadF1, kgF, radKG, Ix.pt_g, Ix.coord_g, Dg, T, M, K, rqφ1, rqφ2, s, rqS, c, gSel]
        by_cases hIJ : I = J
        · subst hIJ; simp only [if_true, kron_self]; simp only [diffAt]; ring
        · simp only [hIJ, if_false, kron_ne hIJ]
          split_ifs <;> simp only [diffAt] <;> ring

theorem ratQuadKernGrad_ok {R : Arr3} {theta : Arr1} {α : ℝ} {m1 m2 : Option (List Bool)} (hθ : R.d ≤ theta.n)
    (h1 : maskOk m1 R.r) (h2 : maskOk m2 R.c) (hm : m1 = none ∨ m2 ≠ none ∨ fullMask m1 R.r) :
    ∃ A, ratQuadKernGrad R theta α m1 m2 = .ok A ∧
      Rep R.r (gN m1 R.r) R.c (gN m2 R.c) R.d A (ratQuadF α R theta m1 m2) := by
  rcases m1 with _ | l
  · exact ratQuadKernGrad_ok0 hθ h1 h2 (.inl rfl)
  · rcases m2 with _ | l2
    · have hf : nTrue l = R.r := by
        rcases hm with h | h | h
        · cases h
        · exact absurd rfl h
        · exact h
      have hl := h1 l rfl
      obtain ⟨A, hA, hr⟩ := ratQuadKernGrad_mask1 (α := α) hθ hl (.inl ⟨hf, rfl⟩)
      refine ⟨A, hA, hr.congr ?_⟩
      intro x y hx hy
      cases x with
      | g I a => rfl
      | v p => cases y with
        | v q => rfl
        | g J b =>
          simp only [ratQuadF1, kgF, radKG, Ix.pt_v, Ix.pt_g, Ix.coord_v, Ix.coord_g, gSel]
          rw [sel_full (by rw [hf, hl]) (by rw [hl]; exact hx)]
          simp only [rqφ1, rqS, diffAt]
          ring
    · exact ratQuadKernGrad_ok0 hθ h1 h2 (.inr (by simp))

theorem ratQuadKernBaseHessX_ok {R : Arr3} {theta : Arr1} {α : ℝ} (hθ : R.d ≤ theta.n) :
    ∃ A, ratQuadKernBaseHessX R theta α = .ok A ∧
      Rep3 R.d 0 R.r R.c 0 R.d A (kgXF (rqφ1 α) (rqφ2 α) (rqφ3 α) R theta none) := by
  unfold ratQuadKernBaseHessX
  rw [ratQuadSum_ok hθ]
  simp only [ok_bind, Nat.succ_mul]
  let s := rqS R theta
  let c := 4 * (1 + 1 / α)
  let W : ℕ → Arr2 := fun k => ⟨R.r, R.c, fun p q => 2 * theta.get k * ((1 + s p q / α) ^ (-α - 1))⟩
  let V : ℕ → ℕ → Arr2 := fun k i => ⟨R.r, R.c, fun p q =>
    c * theta.get i * theta.get k * R.get i p q * R.get k p q * ((1 + s p q / α) ^ (-α - 2))⟩
  obtain ⟨A, hA, hR⟩ := hxAcc_spec (g := R.r) (n2 := R.c) (dim := R.d) (W := W) (V := V)
    (fun k _ => ⟨rfl, rfl⟩) (fun k _ i _ => ⟨rfl, rfl⟩)
  refine ⟨A, ?_, hR.congr ?_⟩
  · rw [← hA]
    apply forRange_congr
    intro k A' _ hk
    have hkθ : k < theta.n := by omega
    simp only [Arr1.at'_ok hkθ, ok_bind]
    refine congrArg _ (funext fun A1 => ?_)
    apply forRange_congr
    intro i A'' _ hi
    have hiθ : i < theta.n := by omega
    simp only [Arr1.at'_ok hiθ, ok_bind, Arr3.slab_ok, hi, hk, Arr2.mul_ok, Arr2.smul_r, Arr2.smul_c,
      Arr3.slabD_r, Arr3.slabD_c, Arr2.map_r, Arr2.map_c]
    rfl
  · intro k x y hk hx hy
    cases x with
    | v p => simp at hx
    | g i a => cases y with
      | g j b => simp at hy
      | v q =>
        simp only [hxAccTarget, kgXF, radKGx, Ix.pt_v, Ix.coord_v, V, W, rqφ1, rqφ2, s, rqS, c, kron]
        simp only [diffAt]
        split_ifs with h
        · subst h; ring
        · ring

theorem ratQuadKernGradGradX_ok {R : Arr3} {theta : Arr1} {α : ℝ} (hθ : R.d ≤ theta.n) :
    ∃ A, ratQuadKernGradGradX R theta α none = .ok A ∧
      Rep3 R.d 0 R.r R.c R.c R.d A (kgXF (rqφ1 α) (rqφ2 α) (rqφ3 α) R theta none) := by
  unfold ratQuadKernGradGradX
  dsimp only
  rw [ratQuadSum_ok hθ]
  simp only [pure_eq_ok, ok_bind]
  let s := rqS R theta
  let c := 4 * (1 + 1 / α)
  let c2 := 2 * (1 + 2 / α) * c
  let t := theta.get
  let B2 : ℕ → ℕ → ℝ := fun p q => (1 + s p q / α) ^ (-α - 2)
  let B3 : ℕ → ℕ → ℝ := fun p q => (1 + s p q / α) ^ (-α - 3)
  obtain ⟨A, hA, hR⟩ := gxAcc_spec (g := R.r) (n2 := R.c) (g2 := R.c) (dim := R.d)
    (W := fun k => ⟨R.r, R.c, fun p q => 2 * theta.get k * ((1 + s p q / α) ^ (-α - 1))⟩)
    (V := fun k i => ⟨R.r, R.c, fun p q => c * t i * t k * R.get i p q * R.get k p q * B2 p q⟩)
    (P := fun k i => ⟨R.r, R.c, fun p q => c * t i * t k * R.get k p q * B2 p q⟩)
    (Q := fun k i => ⟨R.r, R.c, fun p q => c * t i * t k * R.get i p q * B2 p q⟩)
    (S := fun k i => ⟨R.r, R.c, fun p q => c * t i * t k * R.get i p q * B2 p q⟩)
    (U := fun k i j => ⟨R.r, R.c, fun p q => c2 * t i * t j * t k * R.get i p q * R.get j p q * R.get k p q * B3 p q⟩)
    (fun k _ => ⟨rfl, rfl⟩) (fun k _ i _ => ⟨rfl, rfl⟩) (fun k _ i _ => ⟨rfl, rfl⟩) (fun k _ i _ => ⟨rfl, rfl⟩)
    (fun k _ i _ => ⟨rfl, rfl⟩) (fun k _ i _ j _ => ⟨rfl, rfl⟩)
  refine ⟨A, ?_, hR.congr ?_⟩
  · rw [← hA]
    apply forRange_congr
    intro k A' _ hk
    have hkθ : k < theta.n := by omega
    simp only [Arr1.at'_ok hkθ, ok_bind]
    refine congrArg _ (funext fun A1 => ?_)
    apply forRange_congr
    intro i A'' _ hi
    have hiθ : i < theta.n := by omega
    simp only [Arr1.at'_ok hiθ, ok_bind, Arr3.slab_ok, hi, hk, Arr2.mul_ok, Arr2.smul_r, Arr2.smul_c,
      Arr3.slabD_r, Arr3.slabD_c, Arr2.map_r, Arr2.map_c]
    refine congrArg _ (funext fun A1 => congrArg _ (funext fun A2 => congrArg _ (funext fun A3 => congrArg _ (funext fun A4 => ?_))))
    apply forRange_congr
    intro j A5 _ hj
    have hjθ : j < theta.n := by omega
    simp only [Arr1.at'_ok hjθ, ok_bind, Arr3.slab_ok, hi, hk, hj, Arr2.mul_ok, Arr2.smul_r, Arr2.smul_c,
      Arr3.slabD_r, Arr3.slabD_c, Arr2.map_r, Arr2.map_c]
    rfl
  · intro k x y hk hx hy
    cases x with
    | v p => simp at hx
    | g i a => cases y with
      | v q =>
        simp only [gxAccTarget, kgXF, radKGx, Ix.pt_v, Ix.coord_v, t, B2, rqφ1, rqφ2, s, rqS, c, kron]
        simp only [diffAt]
        split_ifs with h
        · subst h; ring
        · ring
      | g j b =>
        simp only [gxAccTarget, kgXF, radKGx, Ix.pt_g, gSel, Ix.coord_g, t, B2, B3, rqφ2, rqφ3, s, rqS, c, c2, kron]
        simp only [diffAt]
        by_cases h1 : i = j
        · subst h1
          by_cases h2 : i = k
          · subst h2; simp only [if_true]; ring
          · simp only [h2, if_true, if_false]; ring
        · by_cases h2 : i = k
          · subst h2
            have : ¬ j = i := fun h => h1 h.symm
            simp only [h1, this, if_true, if_false]; ring
          · by_cases h3 : j = k
            · subst h3; simp only [h1, if_true, if_false]; ring
            · simp only [h1, h2, h3, if_false]; ring

theorem ratQuadThTerms_ok {R Rsq : Arr3} {B1 B2 B3 : Arr2} {m : Option (List Bool)}
    (hd : Rsq.d = R.d) (hrs : Rsq.r = R.r) (hcs : Rsq.c = R.c) (hsq : R.r = R.c)
    (hr : B1.r = R.r) (hc : B1.c = R.c)
    (hr' : B2.r = R.r) (hc' : B2.c = R.c) (hr'' : B3.r = R.r) (hc'' : B3.c = R.c) (h1 : maskOk m R.r) :
    ratQuadThTerms R Rsq B1 B2 B3 m = .ok
      { ng := gN m R.r
        Rg1 := ⟨R.d, gN m R.r, R.c, fun d a q => R.get d (gSel m a) q⟩
        Rgg := ⟨R.d, gN m R.r, gN m R.c, fun d a b => R.get d (gSel m a) (gSel m b)⟩
        Rsqg1 := ⟨R.d, gN m R.r, R.c, fun d a q => Rsq.get d (gSel m a) q⟩
        Rsqgg := ⟨R.d, gN m R.r, gN m R.c, fun d a b => Rsq.get d (gSel m a) (gSel m b)⟩
        B1g1 := ⟨gN m R.r, R.c, fun a q => B1.get (gSel m a) q⟩
        B1gg := ⟨gN m R.r, gN m R.c, fun a b => B1.get (gSel m a) (gSel m b)⟩
        B2g1 := ⟨gN m R.r, R.c, fun a q => B2.get (gSel m a) q⟩
        B2gg := ⟨gN m R.r, gN m R.c, fun a b => B2.get (gSel m a) (gSel m b)⟩
        B3gg := ⟨gN m R.r, gN m R.c, fun a b => B3.get (gSel m a) (gSel m b)⟩ } := by
  obtain ⟨Kr, Kc, Kget⟩ := B1
  obtain ⟨Mr, Mc, Mget⟩ := B2
  obtain ⟨Nr, Nc, Nget⟩ := B3
  obtain ⟨Sd, Sr, Sc, Sget⟩ := Rsq
  obtain ⟨Rd, Rr, Rc, Rget⟩ := R
  simp only at hr hc hr' hc' hr'' hc'' hd hrs hcs hsq
  subst hr hc hr' hc' hr'' hc'' hd hrs hcs
  subst hsq
  cases m with
  | none => rfl
  | some l =>
    have e1 := h1 l rfl
    simp only at e1
    simp only [ratQuadThTerms, pure_eq_ok, gN, gSel, Arr3.maskRows_ok (A := ⟨_, _, _, _⟩) e1,
      Arr2.maskRows_ok (A := ⟨_, _, _⟩) e1,
      Arr3.maskCols_ok (A := ⟨_, _, _, _⟩) e1,
      Arr2.maskCols_ok (A := ⟨_, _, _⟩) e1, ok_bind]

theorem ratQuadKernGradGradTh_ok {R : Arr3} {theta : Arr1} {α : ℝ} {m : Option (List Bool)} (hθ : R.d ≤ theta.n)
    (hS : SelfR R) (hm : maskOk m R.r) :
    ∃ A, ratQuadKernGradGradTh R theta α m = .ok A ∧
      Rep3 R.d R.r (gN m R.r) R.c (gN m R.c) R.d A (kgThF (rqφ1 α) (rqφ2 α) (rqφ3 α) R theta m) := by
  unfold ratQuadKernGradGradTh
  dsimp only
  rw [pyAssert_true hS.1, ratQuadSum_ok hθ]
  simp only [ok_bind]
  have hS1 := hS.1
  rw [ratQuadThTerms_ok (by rfl) (by rfl) (by rfl) hS1 (by rfl) (by rfl) (by rfl) (by rfl) (by rfl) (by rfl) hm]
  simp only [ok_bind]
  simp only [← hS1]
  let n := R.r
  set g := gN m R.r with hg
  let s := rqS R theta
  let t := theta.get
  let c1 := 1 + 1 / α
  let c2 := c1 * (1 + 2 / α)
  let B1 : ℕ → ℕ → ℝ := fun p q => (1 + s p q / α) ^ (-α - 1)
  let B2 : ℕ → ℕ → ℝ := fun p q => (1 + s p q / α) ^ (-α - 2)
  let B3 : ℕ → ℕ → ℝ := fun p q => (1 + s p q / α) ^ (-α - 3)
  let e := gSel m
  obtain ⟨A, hA, hR⟩ := gradTh_spec (n := n) (g := g) (dim := R.d)
    (W0 := fun d => ⟨n, n, fun p q => -(R.get d p q ^ 2) * B1 p q⟩)
    (W1 := fun d => ⟨g, n, fun p q => -2 * R.get d (e p) q * B1 (e p) q⟩)
    (W2 := fun _ => ⟨g, g, fun p q => 2 * B1 (e p) (e q)⟩)
    (X1 := fun d i => ⟨g, n, fun p q => 2 * c1 * t i * R.get i (e p) q * (R.get d (e p) q ^ 2) * B2 (e p) q⟩)
    (Y := fun d i => ⟨g, g, fun p q => -4 * c1 * t i * R.get i (e p) (e q) * R.get d (e p) (e q) * B2 (e p) (e q)⟩)
    (Y' := fun d i => ⟨g, g, fun p q => -4 * c1 * t i * R.get i (e p) (e q) * R.get d (e p) (e q) * B2 (e p) (e q)⟩)
    (Z := fun d i => ⟨g, g, fun p q => -2 * c1 * t i * R.get d (e p) (e q) ^ 2 * B2 (e p) (e q) +
      4 * c2 * t i ^ 2 * R.get i (e p) (e q) ^ 2 * R.get d (e p) (e q) ^ 2 * B3 (e p) (e q)⟩)
    (U := fun d i j => ⟨g, g, fun p q => 4 * c2 * t i * t j * R.get i (e p) (e q) * R.get j (e p) (e q) *
      R.get d (e p) (e q) ^ 2 * B3 (e p) (e q)⟩)
    (fun d hd => ⟨rfl, rfl⟩) (fun d hd => ⟨rfl, rfl⟩) (fun d hd => ⟨rfl, rfl⟩) (fun d _ i _ => ⟨rfl, rfl⟩)
    (fun d _ i _ => ⟨rfl, rfl⟩) (fun d _ i _ => ⟨rfl, rfl⟩) (fun d _ i _ => ⟨rfl, rfl⟩) (fun d _ i _ j _ => ⟨rfl, rfl⟩)
  refine ⟨A, ?_, hR.congr ?_⟩
  · rw [← hA]
    apply forRange_congr
    intro d A1 _ hd
    simp only [Arr3.slab_ok, hd, Arr3.map_d, ok_bind, Arr2.mul_ok, Arr2.map_r, Arr2.map_c, Arr2.smul_r,
      Arr2.smul_c, Arr3.slabD_r, Arr3.slabD_c, Arr3.map_r, Arr3.map_c, ← hS1]
    refine congrArg _ (funext fun A1 => congrArg _ (funext fun A2 => congrArg _ (funext fun A3 => congrArg _ (funext fun A4 => ?_))))
    apply forRange_congr
    intro i A5 _ hi
    have hiθ : i < theta.n := by omega
    simp only [Arr1.at'_ok hiθ, Arr3.slab_ok, hd, hi, Arr3.map_d, ok_bind, Arr2.mul_ok, Arr2.add_ok,
      Arr2.map_r, Arr2.map_c, Arr2.smul_r,
      Arr2.smul_c, Arr3.slabD_r, Arr3.slabD_c, Arr3.map_r, Arr3.map_c]
    refine congrArg _ (funext fun A1 => congrArg _ (funext fun A2 => congrArg _ (funext fun A3 => congrArg _ (funext fun A4 => congrArg _ (funext fun A5 => ?_)))))
    apply forRange_congr
    intro j A6 _ hj
    have hjθ : j < theta.n := by omega
    simp only [Arr1.at'_ok hjθ, Arr3.slab_ok, hd, hi, hj, Arr3.map_d, ok_bind, Arr2.mul_ok,
      Arr2.map_r, Arr2.map_c, Arr2.smul_r, Arr2.smul_c, Arr3.slabD_r, Arr3.slabD_c, Arr3.map_r, Arr3.map_c]
    rfl
  · intro d x y hd hx hy
    cases x with
    | v p => cases y with
      | v q =>
        simp only [thTarget, kgThF, radKGth, Ix.pt_v, Ix.coord_v, B1, s, rqS, rqφ1]
        simp only [diffAt]; ring
      | g J b =>
        simp only [thTarget, B1, B2, s, rqS, kgThF, radKGth, Ix.pt_v, Ix.pt_g,
          Ix.coord_v, Ix.coord_g, rqφ1, rqφ2, kron, t, c1, e]
        rw [hS.ssq _ _ (gSel m b) p]
        have e1 := hS.2 d (gSel m b) p
        have e2 := hS.2 J (gSel m b) p
        simp only [diffAt]
        by_cases h : J = d
        · subst h; simp only [if_true, e1]; ring
        · simp only [h, if_false, e1, e2]; ring
    | g I' a => cases y with
      | v q =>
        simp only [thTarget, B1, B2, s, rqS, kgThF, radKGth, Ix.pt_v, Ix.pt_g,
          Ix.coord_v, Ix.coord_g, rqφ1, rqφ2, kron, t, c1, e]
        simp only [diffAt]
        by_cases h : I' = d
        · subst h; simp only [if_true]; ring
        · simp only [h, if_false]; ring
      | g J b =>
        simp only [thTarget, B1, B2, B3, s, rqS, kgThF, radKGth, Ix.pt_g,
          Ix.coord_g, rqφ1, rqφ2, rqφ3, kron, t, c1, c2, e]
        simp only [diffAt]
        rcases lt_trichotomy I' J with h | h | h
        · have h1 : I' ≠ J := by omega
          have h2 : J ≠ I' := by omega
          simp only [h, h1, if_true, if_false]
          by_cases hI : I' = d
          · subst hI; simp only [h2, if_true, if_false, and_false]; ring
          · by_cases hJ : J = d
            · subst hJ; simp only [h1, if_true, if_false, false_and]; ring
            · simp only [hI, hJ, if_false, false_and]; ring
        · subst h
          simp only [lt_irrefl, if_true, if_false]
          by_cases hI : I' = d
          · subst hI; simp only [if_true, and_self]; ring
          · simp only [hI, if_false, false_and]; ring
        · have h1 : I' ≠ J := by omega
          have h2 : J ≠ I' := by omega
          have h3 : ¬ I' < J := by omega
          simp only [h, h1, h3, if_true, if_false]
          by_cases hI : I' = d
          · subst hI; simp only [h2, if_true, if_false, and_false]; ring
          · by_cases hJ : J = d
            · subst hJ; simp only [h1, if_true, if_false, false_and]; ring
            · simp only [hI, hJ, if_false, false_and]; ring

end GP
