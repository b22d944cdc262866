import Verif.Proofs.LkdCore
import Verif.Proofs.MaskSel

/-! Properties C25-C30, C33 (mean coefficient, process variance, likelihood and its gradient). -/

open Np Spec Matrix MD GP

noncomputable section

namespace Props

variable {n b m : ℕ}

/-! ### C25 -/

/-- **C25.** The fit succeeds; the coefficients make the weighted residual orthogonal to the basis and are the unique
minimiser of the weighted residual. -/
theorem C25_gls_optimum {F : ChoFac n} {K : Mat n n} (hF : FacOf F K) {V : Mat n b} (hV : FullRank V) (y : Vec n)
    (dK : Option (Fin m → Mat n n)) :
    ∃ fit, calcModelMaxLkd F V y dK = .ok fit ∧ fit.val = V *ᵥ fit.beta ∧
      Vᵀ *ᵥ (K⁻¹ *ᵥ (y - V *ᵥ fit.beta)) = 0 ∧
      ∀ c, c ≠ fit.beta → maha K (y - V *ᵥ fit.beta) < maha K (y - V *ᵥ c) := by
  have key : ∀ c, c ≠ gls K V y → maha K (y - V *ᵥ gls K V y) < maha K (y - V *ᵥ c) := by
    intro c hc
    rw [maha_split hF.pos hV y c]
    have : V *ᵥ (gls K V y - c) ≠ 0 := fun h => hc (sub_eq_zero.mp (hV _ h)).symm
    linarith [maha_pos hF.pos this]
  cases dK with
  | none => exact ⟨_, calcModelMaxLkd_none hF hV y, rfl, gls_orth hF.pos hV y, key⟩
  | some dK => exact ⟨_, calcModelMaxLkd_some hF hV y dK, rfl, gls_orth hF.pos hV y, key⟩

/-- **C25**, derivative. Along any differentiable path of positive definite matrices, the reported derivatives of the
coefficients and of the mean function at the data are the derivatives of the fitted ones. -/
theorem C25_gls_derivative {F : ℝ → ChoFac n} {K : ℝ → Mat n n} {t : ℝ} (hF : ∀ᶠ s in nhds t, FacOf (F s) (K s))
    {V : Mat n b} (hV : FullRank V) (y : Vec n) (dK : Fin m → Mat n n) (k : Fin m) (hK : MDeriv K (dK k) t) :
    ∃ fit bg mg, calcModelMaxLkd (F t) V y (some dK) = .ok fit ∧ fit.betaGrad = some bg ∧ fit.gradHp = some mg ∧
      ∃ β : ℝ → Vec b, (∀ᶠ s in nhds t, ∃ fit', calcModelMaxLkd (m := m) (F s) V y none = .ok fit' ∧ fit'.beta = β s) ∧
        (∀ i, HasDerivAt (fun s => β s i) (bg i k) t) ∧ (∀ p, HasDerivAt (fun s => (V *ᵥ β s) p) (mg p k) t) := by
  have ht := hF.self_of_nhds
  refine ⟨_, _, _, calcModelMaxLkd_some ht hV y dK, rfl, rfl, fun s => gls (K s) V y, ?_, ?_, ?_⟩
  · filter_upwards [hF] with s hs
    exact ⟨_, calcModelMaxLkd_none hs hV y, rfl⟩
  · intro i
    simpa using gls_deriv hK ht.pos hV y i
  · intro p
    have h := (MDeriv.const V t).mulVec (fun i => gls_deriv hK ht.pos hV y i) p
    refine h.congr_deriv ?_
    simp [Matrix.mul_apply, Matrix.mulVec, dotProduct]

/-! ### Closed forms of the likelihood functions -/

/-- The process variance that the code uses. -/
def varOf (K : Mat n n) (V : Mat n b) (y : Vec n) : ℝ := max varKMin (rss K V y / n)

theorem varKMin_pos : 0 < varKMin := by unfold varKMin; positivity

theorem varOf_pos (K : Mat n n) (V : Mat n b) (y : Vec n) : 0 < varOf K V y := lt_max_of_lt_left varKMin_pos

/-- Profile likelihood. -/
def lkdOf (o : LkdOpts) (fval : Arr1) (K : Mat n n) (V : Mat n b) (y : Vec n) : ℝ :=
  -(n * Real.log (varOf K V y) + Real.log K.det) / 2 - (varKPnlt o (varOf K V y) fval).1

/-- Its gradient in the direction `D`, as the code computes it. -/
def lkdGradOf (o : LkdOpts) (fval : Arr1) (K : Mat n n) (V : Mat n b) (y : Vec n) (D : Mat n n) : ℝ :=
  ((varKPnlt o (varOf K V y) fval).2 / n + 1 / (2 * varOf K V y)) *
      ((K⁻¹ *ᵥ (y - V *ᵥ gls K V y)) ⬝ᵥ D *ᵥ (K⁻¹ *ᵥ (y - V *ᵥ gls K V y))) - trace (K⁻¹ * D) / 2

theorem einsumQuad_eq (u w : Vec n) (dK : Fin m → Mat n n) (k : Fin m) : einsumQuad u dK w k = u ⬝ᵥ dK k *ᵥ w := by
  simp only [einsumQuad, dotProduct, mulVec, Finset.mul_sum, mul_assoc]

theorem einsumAdj_outer (dK : Fin m → Mat n n) (u w : Vec n) (k : Fin m) :
    einsumAdj dK (vecMulVec u w) k = u ⬝ᵥ dK k *ᵥ w := by
  simp only [einsumAdj, vecMulVec_apply, dotProduct, mulVec, Finset.mul_sum]
  exact Finset.sum_congr rfl fun i _ => Finset.sum_congr rfl fun j _ => by ring

theorem einsumAdj_inv {K : Mat n n} (hK : K.PosDef) (dK : Fin m → Mat n n) (k : Fin m) :
    einsumAdj dK K⁻¹ k = trace (K⁻¹ * dK k) := by
  simp only [einsumAdj, trace, diag_apply, Matrix.mul_apply]
  rw [Finset.sum_comm]
  refine Finset.sum_congr rfl fun j _ => Finset.sum_congr rfl fun i _ => ?_
  have : K⁻¹ j i = K⁻¹ i j := congrFun (congrFun (inv_sym hK) i) j
  rw [this]; ring

theorem einsumAdj_lin (dK : Fin m → Mat n n) (a c : ℝ) (A B : Mat n n) (k : Fin m) :
    einsumAdj dK (a • A - c • B) k = a * einsumAdj dK A k - c * einsumAdj dK B k := by
  simp only [einsumAdj, Matrix.sub_apply, Matrix.smul_apply, smul_eq_mul, Finset.mul_sum, ← Finset.sum_sub_distrib]
  exact Finset.sum_congr rfl fun i _ => Finset.sum_congr rfl fun j _ => by ring

theorem orth_vecMul {K : Mat n n} (hK : K.PosDef) {V : Mat n b} (hV : FullRank V) (y : Vec n) (G : Mat b m) (k : Fin m) :
    ((K⁻¹ *ᵥ (y - V *ᵥ gls K V y)) ᵥ* (V * G)) k = 0 := by
  rw [← vecMul_vecMul, ← mulVec_transpose V, gls_orth hK hV, zero_vecMul]
  rfl

/-- What the noise-free likelihood returns, by either method. -/
theorem lkdWoNoise_ok (o : LkdOpts) (fval : Arr1) {F : ChoFac n} {K : Mat n n} (hF : FacOf F K) {V : Mat n b} (hV : FullRank V)
    (y : Vec n) (dK : Option (Fin m → Mat n n)) (adj : Bool) :
    ∃ r, lkdWoNoise o fval y V F dK true adj = .ok r ∧ r.beta = some (gls K V y) ∧ r.varK = some (varOf K V y) ∧
      r.lnDet = some (Real.log K.det) ∧ r.lnLkd = some (lkdOf o fval K V y) ∧
      r.lnLkdGrad = dK.map fun dK k => lkdGradOf o fval K V y (dK k) := by
  have hbody : ∀ (z : Vec n), z ⬝ᵥ K⁻¹ *ᵥ z = maha K z := fun z => rfl
  by_cases hn : n = 0
  · subst hn
    cases adj <;> cases dK with
    | none =>
      first
      | (refine ⟨_, by simp only [lkdWoNoise, calcModelMaxLkd_none hF hV, ok_bind, pure_eq_ok, if_true]; rfl, rfl, ?_, ?_, ?_, rfl⟩ <;>
          simp [lkdAdjoint, optVarK, lkdDirect, calcDetK, varOf, lkdOf, hF.logDet, choSolveV, hF.mat, rss, maha])
      | (refine ⟨_, by simp only [lkdWoNoise, calcModelMaxLkd_none hF hV, ok_bind, pure_eq_ok, Bool.false_eq_true, if_false, if_true]; rfl, rfl, ?_, ?_, ?_, rfl⟩ <;>
          simp [lkdAdjoint, optVarK, lkdDirect, calcDetK, varOf, lkdOf, hF.logDet, choSolveV, hF.mat, rss, maha])
    | some dK =>
      first
      | (refine ⟨_, by simp only [lkdWoNoise, calcModelMaxLkd_none hF hV, ok_bind, pure_eq_ok, if_true]; rfl, rfl, ?_, ?_, ?_, ?_⟩ <;>
          simp [lkdAdjoint, optVarK, lkdDirect, calcDetK, varOf, lkdOf, hF.logDet, choSolveV, hF.mat, rss, maha, lkdGradOf, einsumAdj, Matrix.trace] <;> rfl)
      | (refine ⟨_, by simp only [lkdWoNoise, calcModelMaxLkd_some hF hV, ok_bind, pure_eq_ok, Bool.false_eq_true, if_false, if_true]; rfl, rfl, ?_, ?_, ?_, ?_⟩ <;>
          simp [lkdAdjoint, optVarK, lkdDirect, calcDetK, varOf, lkdOf, hF.logDet, choSolveV, hF.mat, rss, maha, lkdGradOf, einsumQuad, Matrix.trace] <;> rfl)
  have hn0 : (n : ℝ) ≠ 0 := by exact_mod_cast hn
  have hv := (varOf_pos K V y).ne'
  cases adj with
  | true =>
    have he : lkdWoNoise o fval y V F dK true true = .ok {
        beta := some (gls K V y), betaGrad := none,
        varK := some (lkdAdjoint o fval y (V *ᵥ gls K V y) F dK true).1, varKGrad := none,
        lnDet := some (lkdAdjoint o fval y (V *ᵥ gls K V y) F dK true).2.1, lnDetGrad := none,
        lnLkd := (lkdAdjoint o fval y (V *ᵥ gls K V y) F dK true).2.2.1,
        lnLkdGrad := (lkdAdjoint o fval y (V *ᵥ gls K V y) F dK true).2.2.2 } := by
      simp only [lkdWoNoise, if_true, calcModelMaxLkd_none hF hV, ok_bind, pure_eq_ok]
    refine ⟨_, he, rfl, ?_⟩
    have hvk : max varKMin ((y - V *ᵥ gls K V y) ⬝ᵥ K⁻¹ *ᵥ (y - V *ᵥ gls K V y) / n) = varOf K V y := rfl
    cases dK with
    | none =>
      simp only [lkdAdjoint, choSolveV, hF.mat, if_true, hvk, hF.logDet, lkdOf, Option.map_none, and_self]
    | some dK =>
      simp only [lkdAdjoint, choSolveV, choSolve, hF.mat, if_true, hvk, hF.logDet, lkdOf, Option.map_some, true_and]
      congr 1
      funext k
      rw [einsumAdj_lin, Matrix.mul_one, einsumAdj_inv hF.pos]
      set w := K⁻¹ *ᵥ (y - V *ᵥ gls K V y) with hw
      have e : -(vecMulVec w (-(fun i => w i / (n : ℝ))) : Mat n n) = vecMulVec w (fun i => w i / n) := by
        ext i j; simp [vecMulVec_apply]
      rw [e, einsumAdj_outer]
      have e2 : (fun i => w i / (n : ℝ)) = (n : ℝ)⁻¹ • w := by funext i; simp [div_eq_inv_mul]
      rw [e2, mulVec_smul, dotProduct_smul, smul_eq_mul]
      simp only [lkdGradOf, ← hw]
      field_simp
      ring
  | false =>
    cases dK with
    | none =>
      have he : lkdWoNoise (m := m) o fval y V F none true false = .ok {
          beta := some (gls K V y), betaGrad := none,
          varK := some (varOf K V y), varKGrad := none, lnDet := some (choLogDet F), lnDetGrad := none,
          lnLkd := some (-(n * Real.log (varOf K V y) + choLogDet F) / 2 - (varKPnlt o (varOf K V y) fval).1), lnLkdGrad := none } := by
        simp only [lkdWoNoise, Bool.false_eq_true, if_false, calcModelMaxLkd_none hF hV, ok_bind, pure_eq_ok, if_true, optVarK,
          lkdDirect, calcDetK, choSolveV, hF.mat]
        rfl
      refine ⟨_, he, rfl, rfl, ?_, ?_, rfl⟩
      · simp [hF.logDet]
      · simp only [hF.logDet, lkdOf]
    | some dK =>
      set w := K⁻¹ *ᵥ (y - V *ᵥ gls K V y) with hw
      set vg : Vec m := fun k => (-2 * (w ᵥ* (V * of fun i k => glsGrad K V y (dK k) i : Mat n m)) k - einsumQuad w dK w k) / n with hvg
      have he : lkdWoNoise o fval y V F (some dK) true false = .ok {
          beta := some (gls K V y), betaGrad := some (of fun i k => glsGrad K V y (dK k) i),
          varK := some (varOf K V y), varKGrad := some vg, lnDet := some (choLogDet F),
          lnDetGrad := some fun k => trace (K⁻¹ * dK k),
          lnLkd := some (-(n * Real.log (varOf K V y) + choLogDet F) / 2 - (varKPnlt o (varOf K V y) fval).1),
          lnLkdGrad := some fun k => -0.5 * (n * (vg k / varOf K V y) + trace (K⁻¹ * dK k)) - (varKPnlt o (varOf K V y) fval).2 * vg k } := by
        simp only [lkdWoNoise, Bool.false_eq_true, if_false, calcModelMaxLkd_some hF hV, ok_bind, pure_eq_ok, if_true, optVarK,
          lkdDirect, calcDetK, choSolveV, choSolve, hF.mat, Option.map_some]
        rfl
      refine ⟨_, he, rfl, rfl, by simp [hF.logDet], by simp only [hF.logDet, lkdOf], ?_⟩
      rw [Option.map_some]
      refine congrArg some (funext fun k => ?_)
      rw [hvg]
      dsimp only
      rw [hw, orth_vecMul hF.pos hV, einsumQuad_eq]
      simp only [lkdGradOf]
      field_simp
      ring

/-- The other derivatives returned by the direct method. -/
theorem lkdWoNoise_direct (o : LkdOpts) (fval : Arr1) {F : ChoFac n} {K : Mat n n} (hF : FacOf F K) {V : Mat n b} (hV : FullRank V)
    (y : Vec n) (dK : Fin m → Mat n n) (calcLkd : Bool) :
    ∃ r vg, lkdWoNoise o fval y V F (some dK) calcLkd false = .ok r ∧ r.betaGrad = some (of fun i k => glsGrad K V y (dK k) i) ∧
      r.varK = some (varOf K V y) ∧ r.varKGrad = some vg ∧
      (∀ k, vg k = -((K⁻¹ *ᵥ (y - V *ᵥ gls K V y)) ⬝ᵥ dK k *ᵥ (K⁻¹ *ᵥ (y - V *ᵥ gls K V y))) / n) ∧
      (calcLkd = true → r.lnDetGrad = some fun k => trace (K⁻¹ * dK k)) := by
  set w := K⁻¹ *ᵥ (y - V *ᵥ gls K V y) with hw
  set vg : Vec m := fun k => (-2 * (w ᵥ* (V * of fun i k => glsGrad K V y (dK k) i : Mat n m)) k - einsumQuad w dK w k) / n with hvg
  have hvg' : ∀ k, vg k = -(w ⬝ᵥ dK k *ᵥ w) / n := by
    intro k
    rw [hvg]
    dsimp only
    rw [hw, orth_vecMul hF.pos hV, einsumQuad_eq]
    ring
  cases calcLkd with
  | true =>
    have he : lkdWoNoise o fval y V F (some dK) true false = .ok {
          beta := some (gls K V y), betaGrad := some (of fun i k => glsGrad K V y (dK k) i),
          varK := some (varOf K V y), varKGrad := some vg, lnDet := some (choLogDet F),
          lnDetGrad := some fun k => trace (K⁻¹ * dK k),
          lnLkd := some (-(n * Real.log (varOf K V y) + choLogDet F) / 2 - (varKPnlt o (varOf K V y) fval).1),
          lnLkdGrad := some fun k => -0.5 * (n * (vg k / varOf K V y) + trace (K⁻¹ * dK k)) - (varKPnlt o (varOf K V y) fval).2 * vg k } := by
      simp only [lkdWoNoise, Bool.false_eq_true, if_false, calcModelMaxLkd_some hF hV, ok_bind, pure_eq_ok, if_true, optVarK,
        lkdDirect, calcDetK, choSolveV, choSolve, hF.mat, Option.map_some]
      rfl
    exact ⟨_, vg, he, rfl, rfl, rfl, hvg', fun _ => rfl⟩
  | false =>
    have he : lkdWoNoise o fval y V F (some dK) false false = .ok {
          beta := some (gls K V y), betaGrad := some (of fun i k => glsGrad K V y (dK k) i),
          varK := some (varOf K V y), varKGrad := some vg } := by
      simp only [lkdWoNoise, Bool.false_eq_true, if_false, calcModelMaxLkd_some hF hV, ok_bind, pure_eq_ok, optVarK,
        choSolveV, hF.mat]
      rfl
    exact ⟨_, vg, he, rfl, rfl, rfl, hvg', by simp⟩

/-- What the likelihood with noise returns, by either method. -/
theorem lkdWNoise_ok {F : ChoFac n} {K : Mat n n} (hF : FacOf F K) {V : Mat n b} (hV : FullRank V)
    (y : Vec n) (dK : Option (Fin m → Mat n n)) (adj : Bool) :
    ∃ r, lkdWNoise y V F dK true adj = .ok r ∧ r.beta = some (gls K V y) ∧
      r.lnDet = some (Real.log K.det) ∧ r.lnLkd = some (-(Real.log K.det + rss K V y) / 2) ∧
      r.lnLkdGrad = dK.map fun dK k => ((K⁻¹ *ᵥ (y - V *ᵥ gls K V y)) ⬝ᵥ dK k *ᵥ (K⁻¹ *ᵥ (y - V *ᵥ gls K V y)) -
        trace (K⁻¹ * dK k)) / 2 := by
  set w := K⁻¹ *ᵥ (y - V *ᵥ gls K V y) with hw
  have hq : (y - V *ᵥ gls K V y) ⬝ᵥ w = rss K V y := rfl
  cases dK with
  | none =>
    cases adj with
    | true =>
      have he : lkdWNoise (m := m) y V F none true true = .ok {
          beta := some (gls K V y), betaGrad := none, lnDet := some (choLogDet F),
          lnLkd := some (-(choLogDet F + rss K V y) / 2) } := by
        simp only [lkdWNoise, calcModelMaxLkd_none hF hV, ok_bind, pure_eq_ok, if_true, choSolveV, hF.mat, Option.map_none]
        rfl
      exact ⟨_, he, rfl, by simp [hF.logDet], by simp [hF.logDet], rfl⟩
    | false =>
      have he : lkdWNoise (m := m) y V F none true false = .ok {
          beta := some (gls K V y), betaGrad := none, lnDet := some (choLogDet F),
          lnLkd := some (-(choLogDet F + rss K V y) / 2) } := by
        simp only [lkdWNoise, calcModelMaxLkd_none hF hV, ok_bind, pure_eq_ok, if_true, choSolveV, hF.mat, Option.map_none,
          Bool.false_eq_true, if_false, lkdWKcov, calcDetK]
        rfl
      exact ⟨_, he, rfl, by simp [hF.logDet], by simp [hF.logDet], rfl⟩
  | some dK =>
    cases adj with
    | true =>
      have he : lkdWNoise y V F (some dK) true true = .ok {
          beta := some (gls K V y), betaGrad := some (of fun i k => glsGrad K V y (dK k) i), lnDet := some (choLogDet F),
          lnLkd := some (-(choLogDet F + rss K V y) / 2),
          lnLkdGrad := some (einsumAdj dK ((0.5 : ℝ) • (vecMulVec w w - K⁻¹ * 1))) } := by
        simp only [lkdWNoise, calcModelMaxLkd_some hF hV, ok_bind, pure_eq_ok, if_true, choSolveV, choSolve, hF.mat, Option.map_some]
        rfl
      refine ⟨_, he, rfl, by simp [hF.logDet], by simp [hF.logDet], ?_⟩
      rw [Option.map_some]
      refine congrArg some (funext fun k => ?_)
      rw [smul_sub, einsumAdj_lin, Matrix.mul_one, einsumAdj_inv hF.pos, einsumAdj_outer]
      ring
    | false =>
      have he : lkdWNoise y V F (some dK) true false = .ok {
          beta := some (gls K V y), betaGrad := some (of fun i k => glsGrad K V y (dK k) i), lnDet := some (choLogDet F),
          lnDetGrad := some fun k => trace (K⁻¹ * dK k),
          lnLkd := some (-(choLogDet F + rss K V y) / 2),
          lnLkdGrad := some fun k => -0.5 * trace (K⁻¹ * dK k) + 0.5 * einsumQuad w dK w k +
            (w ᵥ* (V * of fun i k => glsGrad K V y (dK k) i : Mat n m)) k } := by
        simp only [lkdWNoise, calcModelMaxLkd_some hF hV, ok_bind, pure_eq_ok, if_true, choSolveV, choSolve, hF.mat, Option.map_some,
          Bool.false_eq_true, if_false, lkdWKcov, calcDetK]
        rfl
      refine ⟨_, he, rfl, by simp [hF.logDet], by simp [hF.logDet], ?_⟩
      rw [Option.map_some]
      refine congrArg some (funext fun k => ?_)
      rw [hw, orth_vecMul hF.pos hV, einsumQuad_eq]
      ring

/-! ### C26, C27 -/

theorem gaussLog_smul {K : Mat n n} (hK : K.PosDef) {v : ℝ} (hv : 0 < v) (μ y : Vec n) :
    gaussLog (v • K) μ y = -(maha K (y - μ) / v) / 2 - (n * Real.log v + Real.log K.det) / 2 - n / 2 * Real.log (2 * Real.pi) := by
  unfold gaussLog maha
  have hinv : (v • K)⁻¹ = v⁻¹ • K⁻¹ := by
    apply Matrix.inv_eq_right_inv
    rw [Matrix.smul_mul, Matrix.mul_smul, Matrix.mul_nonsing_inv _ (isUnit_iff_ne_zero.mpr (posDef_detne hK)), smul_smul,
      mul_inv_cancel₀ hv.ne', one_smul]
  rw [hinv, smul_mulVec, dotProduct_smul, det_smul, Real.log_mul (by positivity) (posDef_detne hK), Real.log_pow]
  simp only [Fintype.card_fin, smul_eq_mul]
  ring

/-- **C26.** Noise-free case, by either method. If the variance is above its floor, the returned coefficients and variance
are the only maximiser of the Gaussian log-likelihood over all coefficients and all positive variances, and the returned
likelihood is that maximum, up to a constant that depends only on the number of data and up to the penalty. -/
theorem C26_closed_form_variance (o : LkdOpts) (fval : Arr1) {F : ChoFac n} {K : Mat n n} (hF : FacOf F K) {V : Mat n b}
    (hV : FullRank V) (y : Vec n) (dK : Option (Fin m → Mat n n)) (adj : Bool) :
    ∃ r β v l, lkdWoNoise o fval y V F dK true adj = .ok r ∧ r.beta = some β ∧ r.varK = some v ∧ r.lnLkd = some l ∧ 0 < v ∧
      (varKMin < maha K (y - V *ᵥ β) / n →
        (∀ c, ∀ w > 0, (c, w) ≠ (β, v) → gaussLog (w • K) (V *ᵥ c) y < gaussLog (v • K) (V *ᵥ β) y) ∧
        l = gaussLog (v • K) (V *ᵥ β) y + n / 2 * (1 + Real.log (2 * Real.pi)) - (varKPnlt o v fval).1) := by
  obtain ⟨r, hr, h1, h2, -, h4, -⟩ := lkdWoNoise_ok o fval hF hV y dK adj
  refine ⟨r, _, _, _, hr, h1, h2, h4, varOf_pos K V y, fun hfl => ?_⟩
  set β := gls K V y with hβ
  have hq : maha K (y - V *ᵥ β) = rss K V y := rfl
  have hv : varOf K V y = rss K V y / n := max_eq_right (by rw [← hq]; exact hfl.le)
  have hvp := varOf_pos K V y
  have hn : (0 : ℝ) < n := by
    rcases Nat.eq_zero_or_pos n with h | h
    · subst h; simp at hfl; linarith [varKMin_pos]
    · exact_mod_cast h
  have hrss : rss K V y = n * varOf K V y := by rw [hv]; field_simp
  have hval : gaussLog (varOf K V y • K) (V *ᵥ β) y = -(n : ℝ) / 2 - (n * Real.log (varOf K V y) + Real.log K.det) / 2 -
      n / 2 * Real.log (2 * Real.pi) := by
    rw [gaussLog_smul hF.pos hvp, hq, hrss]
    field_simp
  constructor
  · intro c w hw hne
    rw [hval, gaussLog_smul hF.pos hw, maha_split hF.pos hV y c, ← hβ, hq, hrss]
    have h0 := maha_nonneg hF.pos (V *ᵥ (β - c))
    have hx : 0 < varOf K V y / w := by positivity
    have hlog : Real.log (varOf K V y / w) = Real.log (varOf K V y) - Real.log w := Real.log_div hvp.ne' hw.ne'
    have hle := Real.log_le_sub_one_of_pos hx
    have e : (n * varOf K V y + maha K (V *ᵥ (β - c))) / w = n * (varOf K V y / w) + maha K (V *ᵥ (β - c)) / w := by ring
    rw [e]
    by_cases hwv : w = varOf K V y
    · have hc : c ≠ β := fun h => hne (by rw [h, hwv])
      have : V *ᵥ (β - c) ≠ 0 := fun h => hc (sub_eq_zero.mp (hV _ h)).symm
      have hp := maha_pos hF.pos this
      have hp' : 0 < maha K (V *ᵥ (β - c)) / w := by positivity
      rw [hlog] at hle
      have := mul_le_mul_of_nonneg_left hle hn.le
      nlinarith
    · have hlt := Real.log_lt_sub_one_of_pos hx (fun h => hwv (by field_simp at h; exact h.symm))
      rw [hlog] at hlt
      have := mul_lt_mul_of_pos_left hlt hn
      have h0' : 0 ≤ maha K (V *ᵥ (β - c)) / w := by positivity
      nlinarith
  · rw [hval]
    unfold lkdOf
    ring

/-- **C27.** With noise, by either method: the returned likelihood is the log of the Gaussian density of the data (up to the
constant `n/2 log 2π`), and the returned coefficients are the only ones that maximise it. -/
theorem C27_gaussian_likelihood {F : ChoFac n} {K : Mat n n} (hF : FacOf F K) {V : Mat n b} (hV : FullRank V)
    (y : Vec n) (dK : Option (Fin m → Mat n n)) (adj : Bool) :
    ∃ r β l, lkdWNoise y V F dK true adj = .ok r ∧ r.beta = some β ∧ r.lnLkd = some l ∧
      l = gaussLog K (V *ᵥ β) y + n / 2 * Real.log (2 * Real.pi) ∧
      ∀ c, c ≠ β → gaussLog K (V *ᵥ c) y < gaussLog K (V *ᵥ β) y := by
  obtain ⟨r, hr, h1, -, h3, -⟩ := lkdWNoise_ok hF hV y dK adj
  refine ⟨r, _, _, hr, h1, h3, ?_, ?_⟩
  · unfold gaussLog rss; ring
  · intro c hc
    have : V *ᵥ (gls K V y - c) ≠ 0 := fun h => hc (sub_eq_zero.mp (hV _ h)).symm
    have hp := maha_pos hF.pos this
    have hs := maha_split hF.pos hV y c
    unfold gaussLog
    rw [hs]
    linarith

/-! ### C29 -/

/-- **C29.** The adjoint and the direct method return the same coefficients, variance, log determinant, likelihood and
likelihood gradient, with and without noise. -/
theorem C29_adjoint_eq_direct (o : LkdOpts) (fval : Arr1) {F : ChoFac n} {K : Mat n n} (hF : FacOf F K) {V : Mat n b}
    (hV : FullRank V) (y : Vec n) (dK : Fin m → Mat n n) :
    (∃ r1 r2 g, lkdWoNoise o fval y V F (some dK) true true = .ok r1 ∧ lkdWoNoise o fval y V F (some dK) true false = .ok r2 ∧
      r1.beta = r2.beta ∧ r1.varK = r2.varK ∧ r1.lnDet = r2.lnDet ∧ r1.lnLkd = r2.lnLkd ∧
      r1.lnLkdGrad = some g ∧ r2.lnLkdGrad = some g) ∧
    (∃ r1 r2 g, lkdWNoise y V F (some dK) true true = .ok r1 ∧ lkdWNoise y V F (some dK) true false = .ok r2 ∧
      r1.beta = r2.beta ∧ r1.lnDet = r2.lnDet ∧ r1.lnLkd = r2.lnLkd ∧ r1.lnLkdGrad = some g ∧ r2.lnLkdGrad = some g) := by
  constructor
  · obtain ⟨r1, h1, a1, a2, a3, a4, a5⟩ := lkdWoNoise_ok o fval hF hV y (some dK) true
    obtain ⟨r2, h2, b1, b2, b3, b4, b5⟩ := lkdWoNoise_ok o fval hF hV y (some dK) false
    exact ⟨r1, r2, _, h1, h2, by rw [a1, b1], by rw [a2, b2], by rw [a3, b3], by rw [a4, b4], a5, b5⟩
  · obtain ⟨r1, h1, a1, a2, a3, a4⟩ := lkdWNoise_ok hF hV y (some dK) true
    obtain ⟨r2, h2, b1, b2, b3, b4⟩ := lkdWNoise_ok hF hV y (some dK) false
    exact ⟨r1, r2, _, h1, h2, by rw [a1, b1], by rw [a2, b2], by rw [a3, b3], a4, b4⟩

/-! ### C33 -/

theorem hasDerivAt_max_sq (x : ℝ) : HasDerivAt (fun u => (max u 0) ^ 2) (2 * max x 0) x := by
  rcases lt_trichotomy x 0 with h | h | h
  · have : HasDerivAt (fun _ : ℝ => (0 : ℝ)) 0 x := hasDerivAt_const _ _
    refine (this.congr_of_eventuallyEq ?_).congr_deriv (by rw [max_eq_right h.le]; ring)
    filter_upwards [gt_mem_nhds h] with u hu
    rw [max_eq_right hu.le]; ring
  · subst h
    rw [hasDerivAt_iff_isLittleO]
    simp only [max_self, mul_zero, sub_zero, smul_zero, ne_eq, OfNat.ofNat_ne_zero, not_false_eq_true, zero_pow]
    rw [Asymptotics.isLittleO_iff]
    intro c hc
    filter_upwards [Metric.ball_mem_nhds (0 : ℝ) hc] with u hu
    rw [Metric.mem_ball, dist_zero_right, Real.norm_eq_abs] at hu
    rw [Real.norm_eq_abs, Real.norm_eq_abs, abs_pow]
    have h1 : |max u 0| ≤ |u| := by
      rcases le_total u 0 with h | h
      · rw [max_eq_right h]; simp
      · rw [max_eq_left h]
    calc |max u 0| ^ 2 ≤ |u| ^ 2 := pow_le_pow_left₀ (abs_nonneg _) h1 2
      _ = |u| * |u| := by ring
      _ ≤ c * |u| := mul_le_mul_of_nonneg_right hu.le (abs_nonneg _)
  · have : HasDerivAt (fun u : ℝ => u ^ 2) (2 * x) x := by simpa using hasDerivAt_pow 2 x
    refine (this.congr_of_eventuallyEq ?_).congr_deriv (by rw [max_eq_left h.le])
    filter_upwards [lt_mem_nhds h] with u hu
    rw [max_eq_left hu.le]

/-- **C33.** The reported slope of the penalty is its derivative wrt the variance, everywhere (also at the kink of the
`max`); the penalty vanishes with its slope when it is switched off and when the variance does not exceed `c2` times the
variance of the data (with its lower bound); and it is nonnegative for a nonnegative weight. -/
theorem C33_penalty (o : LkdOpts) (fval : Arr1) (v : ℝ) :
    HasDerivAt (fun u => (varKPnlt o u fval).1) (varKPnlt o v fval).2 v ∧
    (o.pnltUse = false → varKPnlt o v fval = (0, 0)) ∧
    (v ≤ o.pnltC2 * max (npVar fval) o.pnltLbVar → varKPnlt o v fval = (0, 0)) ∧
    (0 ≤ o.pnltC1 → 0 ≤ (varKPnlt o v fval).1) := by
  have hvar : 0 ≤ npVar fval := div_nonneg (Finset.sum_nonneg fun i _ => sq_nonneg _) (Nat.cast_nonneg _)
  refine ⟨?_, ?_, ?_, ?_⟩
  · unfold varKPnlt
    cases o.pnltUse with
    | false => simpa using hasDerivAt_const v (0 : ℝ)
    | true =>
      simp only [if_true]
      have h1 : HasDerivAt (fun u : ℝ => u - o.pnltC2 * max (npVar fval) o.pnltLbVar) 1 v := (hasDerivAt_id' v).sub_const _
      have h2 := (hasDerivAt_max_sq (v - o.pnltC2 * max (npVar fval) o.pnltLbVar)).comp v h1
      exact (h2.const_mul (o.pnltC1 * max (npVar fval) o.pnltLbVar)).congr_deriv (by ring)
  · intro h; simp [varKPnlt, h]
  · intro h
    unfold varKPnlt
    split
    · simp [max_eq_right (sub_nonpos.mpr h)]
    · rfl
  · intro h
    unfold varKPnlt
    split
    · have : 0 ≤ max (npVar fval) o.pnltLbVar := le_max_of_le_left hvar
      positivity
    · exact le_rfl

/-! ### C28, C30 -/

theorem varOf_deriv {K : ℝ → Mat n n} {K' : Mat n n} {t : ℝ} (hK : MDeriv K K' t) (hp : (K t).PosDef) {V : Mat n b}
    (hV : FullRank V) (y : Vec n) (hfl : varKMin < rss (K t) V y / n) :
    HasDerivAt (fun s => varOf (K s) V y)
      (-(((K t)⁻¹ *ᵥ (y - V *ᵥ gls (K t) V y)) ⬝ᵥ K' *ᵥ ((K t)⁻¹ *ᵥ (y - V *ᵥ gls (K t) V y))) / n) t := by
  have h := (rss_deriv' hK hp hV y).div_const (n : ℝ)
  refine h.congr_of_eventuallyEq ?_
  have hc : ContinuousAt (fun s => rss (K s) V y / n) t := h.continuousAt
  filter_upwards [hc.eventually (lt_mem_nhds hfl)] with s hs
  exact max_eq_right hs.le

/-- **C28.** Noise-free case, by either method, along any differentiable path of positive definite matrices: wherever the
process variance is above its floor, the returned gradient is the derivative of the returned likelihood, with the mean
coefficients and the process variance re-optimised along the path. -/
theorem C28_likelihood_gradient (o : LkdOpts) (fval : Arr1) {F : ℝ → ChoFac n} {K : ℝ → Mat n n} {t : ℝ}
    (hF : ∀ᶠ s in nhds t, FacOf (F s) (K s)) {V : Mat n b} (hV : FullRank V) (y : Vec n)
    (dKs : ℝ → Option (Fin m → Mat n n)) (dK : Fin m → Mat n n) (k : Fin m) (hK : MDeriv K (dK k) t)
    (adj : Bool) :
    ∃ r β g, lkdWoNoise o fval y V (F t) (some dK) true adj = .ok r ∧ r.beta = some β ∧ r.lnLkdGrad = some g ∧
      (varKMin < maha (K t) (y - V *ᵥ β) / n →
        ∃ L : ℝ → ℝ, (∀ᶠ s in nhds t, ∃ r', lkdWoNoise o fval y V (F s) (dKs s) true adj = .ok r' ∧ r'.lnLkd = some (L s)) ∧
          HasDerivAt L (g k) t) := by
  have ht := hF.self_of_nhds
  obtain ⟨r, hr, h1, -, -, -, h5⟩ := lkdWoNoise_ok o fval ht hV y (some dK) adj
  refine ⟨r, _, _, hr, h1, h5, fun hfl => ⟨fun s => lkdOf o fval (K s) V y, ?_, ?_⟩⟩
  · filter_upwards [hF] with s hs
    obtain ⟨r', hr', -, -, -, h4, -⟩ := lkdWoNoise_ok o fval hs hV y (dKs s) adj
    exact ⟨r', hr', h4⟩
  · have hv := varOf_deriv hK ht.pos hV y hfl
    have hvp := varOf_pos (K t) V y
    have h2 := (hv.log hvp.ne').const_mul (n : ℝ)
    have h3 := logdet_deriv hK (posDef_detne ht.pos)
    have h4 := ((h2.fun_add h3).fun_neg.div_const 2)
    have h5 := (C33_penalty o fval (varOf (K t) V y)).1.comp t hv
    refine (h4.fun_sub h5).congr_deriv ?_
    simp only [lkdGradOf]
    have hn : (n : ℝ) ≠ 0 := by
      intro h0; rw [h0] at hfl; simp at hfl; linarith [varKMin_pos]
    field_simp
    ring

/-- **C28**, the individual derivatives of the direct method: coefficients, process variance, log determinant. -/
theorem C28_direct_parts (o : LkdOpts) (fval : Arr1) {F : ChoFac n} {K : ℝ → Mat n n} {t : ℝ} (hF : FacOf F (K t))
    {V : Mat n b} (hV : FullRank V) (y : Vec n) (dK : Fin m → Mat n n) (k : Fin m) (hK : MDeriv K (dK k) t)
    (β : ℝ → Vec b) (hβ : ∀ᶠ s in nhds t, ∀ c, maha (K s) (y - V *ᵥ β s) ≤ maha (K s) (y - V *ᵥ c)) (hpd : ∀ᶠ s in nhds t, (K s).PosDef)
    (hfl : varKMin < maha (K t) (y - V *ᵥ β t) / n) :
    ∃ r bg vg dg, lkdWoNoise o fval y V F (some dK) true false = .ok r ∧ r.betaGrad = some bg ∧ r.varKGrad = some vg ∧
      r.lnDetGrad = some dg ∧ (∀ i, HasDerivAt (fun s => β s i) (bg i k) t) ∧
      HasDerivAt (fun s => maha (K s) (y - V *ᵥ β s) / n) (vg k) t ∧ HasDerivAt (fun s => Real.log (K s).det) (dg k) t := by
  have hβeq : ∀ᶠ s in nhds t, β s = gls (K s) V y := by
    filter_upwards [hpd, hβ] with s hs hβs
    by_contra hne
    have h1 := hβs (gls (K s) V y)
    have h2 := maha_split hs hV y (β s)
    have h3 : V *ᵥ (gls (K s) V y - β s) ≠ 0 := fun h => hne (sub_eq_zero.mp (hV _ h)).symm
    have h4 := maha_pos hs h3
    linarith
  obtain ⟨r, vg, hr, h1, -, h3, h4, h5⟩ := lkdWoNoise_direct o fval hF hV y dK true
  refine ⟨r, _, vg, _, hr, h1, h3, h5 rfl, ?_, ?_, logdet_deriv hK (posDef_detne hF.pos)⟩
  · intro i
    refine (by simpa using gls_deriv hK hF.pos hV y i : HasDerivAt _ _ t).congr_of_eventuallyEq ?_
    filter_upwards [hβeq] with s hs
    rw [hs]
  · rw [h4 k]
    refine ((rss_deriv' hK hF.pos hV y).div_const (n : ℝ)).congr_of_eventuallyEq ?_
    filter_upwards [hβeq] with s hs
    rw [hs]; rfl

/-- Below the floor of the process variance the returned gradient is *not* the derivative of the returned likelihood: it
is off by `(wᵀ K' w)/(2·floor)` with `w` the weighted residual (no penalty). -/
theorem C28_below_floor_discrepancy (o : LkdOpts) (ho : o.pnltUse = false) (fval : Arr1) {F : ℝ → ChoFac n} {K : ℝ → Mat n n} {t : ℝ}
    (hF : ∀ᶠ s in nhds t, FacOf (F s) (K s)) {V : Mat n b} (hV : FullRank V) (y : Vec n)
    (dK : Fin m → Mat n n) (k : Fin m) (hK : MDeriv K (dK k) t) (adj : Bool) :
    ∃ r β g, lkdWoNoise o fval y V (F t) (some dK) true adj = .ok r ∧ r.beta = some β ∧ r.lnLkdGrad = some g ∧
      (maha (K t) (y - V *ᵥ β) / n < varKMin →
        ∃ L : ℝ → ℝ, (∀ᶠ s in nhds t, ∃ r', lkdWoNoise (m := m) o fval y V (F s) none true adj = .ok r' ∧ r'.lnLkd = some (L s)) ∧
          HasDerivAt L (g k - ((K t)⁻¹ *ᵥ (y - V *ᵥ β)) ⬝ᵥ dK k *ᵥ ((K t)⁻¹ *ᵥ (y - V *ᵥ β)) / (2 * varKMin)) t) := by
  have ht := hF.self_of_nhds
  obtain ⟨r, hr, h1, -, -, -, h5⟩ := lkdWoNoise_ok o fval ht hV y (some dK) adj
  refine ⟨r, _, _, hr, h1, h5, fun hfl => ⟨fun s => lkdOf o fval (K s) V y, ?_, ?_⟩⟩
  · filter_upwards [hF] with s hs
    obtain ⟨r', hr', -, -, -, h4, -⟩ := lkdWoNoise_ok (m := m) o fval hs hV y none adj
    exact ⟨r', hr', h4⟩
  · have hvt : varOf (K t) V y = varKMin := max_eq_left (le_of_lt hfl)
    have hrs := (rss_deriv' hK ht.pos hV y).div_const (n : ℝ)
    have hc : ContinuousAt (fun s => rss (K s) V y / n) t := hrs.continuousAt
    have hev : (fun s => lkdOf o fval (K s) V y) =ᶠ[nhds t] fun s => -(n * Real.log varKMin + Real.log (K s).det) / 2 := by
      filter_upwards [hc.eventually (gt_mem_nhds hfl)] with s hs
      have : varOf (K s) V y = varKMin := max_eq_left hs.le
      simp [lkdOf, this, varKPnlt, ho]
    have h3 := logdet_deriv hK (posDef_detne ht.pos)
    have h4 := ((h3.const_add ((n : ℝ) * Real.log varKMin)).fun_neg.div_const 2)
    refine (h4.congr_of_eventuallyEq hev).congr_deriv ?_
    simp only [lkdGradOf, hvt, varKPnlt, ho, Bool.false_eq_true, if_false]
    ring

/-- **C30.** With noise, by either method, along any differentiable path of positive definite matrices: the returned
gradient is the derivative of the returned likelihood, with the mean coefficients re-optimised along the path. -/
theorem C30_noisy_likelihood_gradient {F : ℝ → ChoFac n} {K : ℝ → Mat n n} {t : ℝ}
    (hF : ∀ᶠ s in nhds t, FacOf (F s) (K s)) {V : Mat n b} (hV : FullRank V) (y : Vec n)
    (dKs : ℝ → Option (Fin m → Mat n n)) (dK : Fin m → Mat n n) (k : Fin m) (hK : MDeriv K (dK k) t)
    (adj : Bool) :
    ∃ r g, lkdWNoise y V (F t) (some dK) true adj = .ok r ∧ r.lnLkdGrad = some g ∧
      ∃ L : ℝ → ℝ, (∀ᶠ s in nhds t, ∃ r', lkdWNoise y V (F s) (dKs s) true adj = .ok r' ∧ r'.lnLkd = some (L s)) ∧
        HasDerivAt L (g k) t := by
  have ht := hF.self_of_nhds
  obtain ⟨r, hr, -, -, -, h5⟩ := lkdWNoise_ok ht hV y (some dK) adj
  refine ⟨r, _, hr, h5, fun s => -(Real.log (K s).det + rss (K s) V y) / 2, ?_, ?_⟩
  · filter_upwards [hF] with s hs
    obtain ⟨r', hr', -, -, h4, -⟩ := lkdWNoise_ok hs hV y (dKs s) adj
    exact ⟨r', hr', h4⟩
  · have h3 := logdet_deriv hK (posDef_detne ht.pos)
    have h2 := rss_deriv' hK ht.pos hV y
    exact ((h3.fun_add h2).fun_neg.div_const 2).congr_deriv (by ring)

/-! ### The hypotheses of C25-C30 are met by a concrete family -/

/-- Two correlated observations with correlation parameter `s`. -/
def exK (s : ℝ) : Mat 2 2 := !![2, s; s, 2]

theorem exK_posDef {s : ℝ} (h1 : -2 < s) (h2 : s < 2) : (exK s).PosDef := by
  refine Matrix.PosDef.of_dotProduct_mulVec_pos ?_ ?_
  · ext i j; fin_cases i <;> fin_cases j <;> simp [exK]
  · intro x hx
    have e : star x ⬝ᵥ exK s *ᵥ x = 2 * x 0 ^ 2 + 2 * s * (x 0 * x 1) + 2 * x 1 ^ 2 := by
      simp [exK, dotProduct, Matrix.mulVec, Fin.sum_univ_two]; ring
    rw [e]
    have hne : x 0 ≠ 0 ∨ x 1 ≠ 0 := by
      by_contra hcon
      push Not at hcon
      exact hx (funext fun i => by fin_cases i <;> simp [hcon.1, hcon.2])
    have hsq : 0 < x 0 ^ 2 + x 1 ^ 2 := by
      rcases hne with h | h
      · have := sq_pos_of_ne_zero h; positivity
      · have := sq_pos_of_ne_zero h; positivity
    have hs : 0 < 2 - s := by linarith
    have hs' : 0 < 2 + s := by linarith
    nlinarith [mul_nonneg hs.le (sq_nonneg (x 0 - x 1)), mul_nonneg hs'.le (sq_nonneg (x 0 + x 1)),
      mul_pos hs' hsq, mul_pos hs hsq]

/-- A factorisation for every `s` (arbitrary where there is none). -/
def exF (s : ℝ) : ChoFac 2 := (choFactor (exK s) true).getD ⟨0, true⟩

theorem exF_fac {s : ℝ} (h1 : -2 < s) (h2 : s < 2) : FacOf (exF s) (exK s) := by
  obtain ⟨F, hF⟩ := (choFactor_isSome_iff (b := true)).mpr (exK_posDef h1 h2)
  have : exF s = F := by unfold exF; rw [hF]; rfl
  rw [this]; exact facOf_choFactor hF

/-- The constant mean function. -/
def exV : Mat 2 1 := Matrix.of fun _ _ => 1

theorem exV_rank : FullRank exV := by
  intro c hc
  funext i
  have := congrFun hc 0
  fin_cases i
  simpa [exV, Matrix.mulVec, dotProduct] using this

theorem exK_deriv (t : ℝ) : MDeriv exK !![0, 1; 1, 0] t := by
  intro i j
  fin_cases i <;> fin_cases j <;> simp [exK] <;> first | exact hasDerivAt_const _ _ | exact hasDerivAt_id' _

/-- At `s = 1` with data `(0, 1)`, the coefficient is `1/2` and the process variance `1/4` is above its floor. -/
theorem exV_gls : gls (exK 1) exV ![0, 1] = ![1 / 2] := by
  have hK := exK_posDef (s := 1) (by norm_num) (by norm_num)
  have key : exK 1 *ᵥ ![-1/2, 1/2] = ![0, 1] - exV *ᵥ ![1/2] := by
    funext i; fin_cases i <;> simp [exK, exV, Matrix.mulVec, dotProduct, Fin.sum_univ_two] <;> norm_num
  have h1 : (exK 1)⁻¹ *ᵥ (![0, 1] - exV *ᵥ ![1/2]) = ![-1/2, 1/2] := by
    rw [← key, mulVec_mulVec, Matrix.nonsing_inv_mul _ (isUnit_iff_ne_zero.mpr (posDef_detne hK)), one_mulVec]
  have h2 : maha (exK 1) (![0, 1] - exV *ᵥ ![1/2]) = 1/2 := by
    unfold maha; rw [h1]
    simp [exV, Matrix.mulVec, dotProduct, Fin.sum_univ_two]; norm_num
  by_contra hne
  have h3 : exV *ᵥ (gls (exK 1) exV ![0, 1] - ![1/2]) ≠ 0 := fun h => hne (sub_eq_zero.mp (exV_rank _ h))
  have hp := maha_pos hK h3
  have ho := orth_dot hK exV_rank ![0, 1] (gls (exK 1) exV ![0, 1] - ![1/2])
  have e : ![0, 1] - exV *ᵥ gls (exK 1) exV ![0, 1] =
      (![0, 1] - exV *ᵥ ![1/2]) - exV *ᵥ (gls (exK 1) exV ![0, 1] - ![1/2]) := by rw [mulVec_sub]; abel
  rw [e, mulVec_sub, sub_dotProduct, h1] at ho
  have e2 : ![-1/2, 1/2] ⬝ᵥ (exV *ᵥ (gls (exK 1) exV ![0, 1] - ![1/2])) = 0 := by
    simp [exV, Matrix.mulVec, dotProduct, Fin.sum_univ_two]; ring
  rw [e2, zero_sub, neg_eq_zero, dotProduct_comm] at ho
  exact absurd ho hp.ne'

example : ∃ r g, lkdWoNoise (m := 1) ⟨true, 1, 10, 0, true⟩ ⟨2, fun i => i⟩ ![0, 1] exV (exF 1) (some fun _ => !![0, 1; 1, 0]) true true = .ok r ∧
    r.lnLkdGrad = some g ∧
    ∃ L : ℝ → ℝ, (∀ᶠ s in nhds (1 : ℝ), ∃ r', lkdWoNoise (m := 1) ⟨true, 1, 10, 0, true⟩ ⟨2, fun i => i⟩ ![0, 1] exV (exF s) none true true = .ok r' ∧
      r'.lnLkd = some (L s)) ∧ HasDerivAt L (g 0) 1 := by
  have hev : ∀ᶠ s in nhds (1 : ℝ), FacOf (exF s) (exK s) := by
    filter_upwards [lt_mem_nhds (show (-2 : ℝ) < 1 by norm_num), gt_mem_nhds (show (1 : ℝ) < 2 by norm_num)] with s h1 h2
    exact exF_fac h1 h2
  obtain ⟨r, β, g, hr, hβ, hg, hL⟩ := C28_likelihood_gradient (m := 1) ⟨true, 1, 10, 0, true⟩ ⟨2, fun i => i⟩ hev exV_rank ![0, 1]
    (fun _ => none) (fun _ => !![0, 1; 1, 0]) 0 (exK_deriv 1) true
  refine ⟨r, g, hr, hg, hL ?_⟩
  have hK := exK_posDef (s := 1) (by norm_num) (by norm_num)
  obtain ⟨r', hr', h1, -⟩ := lkdWoNoise_ok (m := 1) ⟨true, 1, 10, 0, true⟩ ⟨2, fun i => i⟩ (exF_fac (s := 1) (by norm_num) (by norm_num)) exV_rank ![0, 1]
    (some fun _ => !![0, 1; 1, 0]) true
  have : r = r' := by rw [hr] at hr'; exact Except.ok.inj hr'
  subst this
  have hb : β = ![1/2] := by rw [hβ] at h1; rw [Option.some.inj h1, exV_gls]
  have key : exK 1 *ᵥ ![-1/2, 1/2] = ![0, 1] - exV *ᵥ ![1/2] := by
    funext i; fin_cases i <;> simp [exK, exV, Matrix.mulVec, dotProduct, Fin.sum_univ_two] <;> norm_num
  have hm : maha (exK 1) (![0, 1] - exV *ᵥ ![1/2]) = 1/2 := by
    unfold maha
    rw [← key, mulVec_mulVec, Matrix.nonsing_inv_mul _ (isUnit_iff_ne_zero.mpr (posDef_detne hK)), one_mulVec, key]
    simp [exV, Matrix.mulVec, dotProduct, Fin.sum_univ_two]; norm_num
  rw [hb, hm]; unfold varKMin; norm_num

/-! The other theorems of this file applied to `exK`, `exV`. -/
theorem exF_near : ∀ᶠ s in nhds (1 : ℝ), FacOf (exF s) (exK s) := by
  filter_upwards [lt_mem_nhds (show (-2 : ℝ) < 1 by norm_num), gt_mem_nhds (show (1 : ℝ) < 2 by norm_num)] with s h1 h2
  exact exF_fac h1 h2
theorem exF_one : FacOf (exF 1) (exK 1) := exF_fac (by norm_num) (by norm_num)
theorem exV_maha : maha (exK 1) (![0, 1] - exV *ᵥ ![1/2]) = 1/2 := by
  have hK := exK_posDef (s := 1) (by norm_num) (by norm_num)
  have key : exK 1 *ᵥ ![-1/2, 1/2] = ![0, 1] - exV *ᵥ ![1/2] := by
    funext i; fin_cases i <;> simp [exK, exV, Matrix.mulVec, dotProduct, Fin.sum_univ_two] <;> norm_num
  unfold maha
  rw [← key, mulVec_mulVec, Matrix.nonsing_inv_mul _ (isUnit_iff_ne_zero.mpr (posDef_detne hK)), one_mulVec, key]
  simp [exV, Matrix.mulVec, dotProduct, Fin.sum_univ_two]; norm_num

example := C25_gls_optimum exF_one exV_rank ![0, 1] (some fun _ : Fin 1 => !![0, 1; 1, 0])
example := C25_gls_derivative exF_near exV_rank ![0, 1] (fun _ : Fin 1 => !![0, 1; 1, 0]) 0 (exK_deriv 1)
example : ∃ r β v l, lkdWoNoise (m := 1) ⟨true, 1, 10, 0, true⟩ ⟨2, fun i => i⟩ ![0, 1] exV (exF 1) none true true = .ok r ∧ r.beta = some β ∧
    r.varK = some v ∧ r.lnLkd = some l ∧
    ∀ c, ∀ w > 0, (c, w) ≠ (β, v) → gaussLog (w • exK 1) (exV *ᵥ c) ![0, 1] < gaussLog (v • exK 1) (exV *ᵥ β) ![0, 1] := by
  obtain ⟨r, β, v, l, hr, hβ, hv, hl, -, h⟩ := C26_closed_form_variance (m := 1) ⟨true, 1, 10, 0, true⟩ ⟨2, fun i => i⟩ exF_one exV_rank ![0, 1] none true
  refine ⟨r, β, v, l, hr, hβ, hv, hl, (h ?_).1⟩
  obtain ⟨r', hr', h1, -⟩ := lkdWoNoise_ok (m := 1) ⟨true, 1, 10, 0, true⟩ ⟨2, fun i => i⟩ exF_one exV_rank ![0, 1] none true
  have : r = r' := by rw [hr] at hr'; exact Except.ok.inj hr'
  subst this
  rw [hβ] at h1
  rw [Option.some.inj h1, exV_gls, exV_maha]; unfold varKMin; norm_num
example := C27_gaussian_likelihood exF_one exV_rank ![0, 1] (some fun _ : Fin 1 => !![0, 1; 1, 0]) true
example := C29_adjoint_eq_direct ⟨true, 1, 10, 0, true⟩ ⟨2, fun i => i⟩ exF_one exV_rank ![0, 1] (fun _ : Fin 1 => !![0, 1; 1, 0])
example := C30_noisy_likelihood_gradient exF_near exV_rank ![0, 1] (fun _ => none) (fun _ : Fin 1 => !![0, 1; 1, 0]) 0 (exK_deriv 1) true
example := C28_direct_parts ⟨true, 1, 10, 0, true⟩ ⟨2, fun i => i⟩ (K := exK) exF_one exV_rank ![0, 1] (fun _ : Fin 1 => !![0, 1; 1, 0]) 0 (exK_deriv 1)
  (fun s => gls (exK s) exV ![0, 1]) (exF_near.mono fun s h c => by
    rw [maha_split h.pos exV_rank ![0, 1] c]
    linarith [maha_nonneg h.pos (exV *ᵥ (gls (exK s) exV ![0, 1] - c))]) (exF_near.mono fun s h => h.pos)
  (by rw [exV_gls, exV_maha]; unfold varKMin; norm_num)
/-- Equal observations: the variance estimate is 0, below the floor. -/
example : ∃ r β, lkdWoNoise ⟨false, 1, 10, 0, true⟩ ⟨2, fun _ => 1⟩ ![1, 1] exV (exF 1) (some fun _ : Fin 1 => !![0, 1; 1, 0]) true true = .ok r ∧
    r.beta = some β ∧ maha (exK 1) (![1, 1] - exV *ᵥ β) / (2 : ℕ) < varKMin := by
  obtain ⟨r, β, g, hr, hβ, -, -⟩ := C28_below_floor_discrepancy ⟨false, 1, 10, 0, true⟩ rfl ⟨2, fun _ => 1⟩ exF_near exV_rank ![1, 1]
    (fun _ : Fin 1 => !![0, 1; 1, 0]) 0 (exK_deriv 1) true
  refine ⟨r, β, hr, hβ, ?_⟩
  obtain ⟨r', hr', h1, -⟩ := lkdWoNoise_ok (m := 1) ⟨false, 1, 10, 0, true⟩ ⟨2, fun _ => 1⟩ exF_one exV_rank ![1, 1] (some fun _ => !![0, 1; 1, 0]) true
  have : r = r' := by rw [hr] at hr'; exact Except.ok.inj hr'
  subst this
  rw [hβ] at h1
  rw [Option.some.inj h1]
  have h0 : (![1, 1] : Vec 2) - exV *ᵥ ![1] = 0 := by
    funext i; fin_cases i <;> simp [exV, Matrix.mulVec, dotProduct]
  have h2 := maha_split exF_one.pos exV_rank ![1, 1] ![1]
  have h3 := maha_nonneg exF_one.pos (exV *ᵥ (gls (exK 1) exV ![1, 1] - ![1]))
  have h4 := maha_nonneg exF_one.pos (![1, 1] - exV *ᵥ gls (exK 1) exV ![1, 1])
  rw [h0] at h2
  simp only [maha, zero_dotProduct, mulVec_zero] at h2 h3 h4 ⊢
  have : (![1, 1] - exV *ᵥ gls (exK 1) exV ![1, 1]) ⬝ᵥ (exK 1)⁻¹ *ᵥ (![1, 1] - exV *ᵥ gls (exK 1) exV ![1, 1]) = 0 := by linarith
  rw [this]; unfold varKMin; norm_num

end Props
