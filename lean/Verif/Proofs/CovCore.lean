import Verif.Spec.GpSpec
import Verif.Proofs.PsdLink

/-! What `covCore` returns. -/

open Np Spec Matrix

noncomputable section

namespace GP

variable {n : ℕ}

/-- The kernel matrix with the noise term. -/
def kwn (varK : ℝ) (Kern : Mat n n) (noise : Vec n) : Mat n n := Kern + diagonal fun i => noise i / varK

/-- Its correlation matrix. -/
def corr (A : Mat n n) : Mat n n := of fun i j => A i j / (Real.sqrt (A i i) * Real.sqrt (A j j))

/-- Closed form of the tuple returned by `covCore`. -/
structure CovSpec (o : CondOpts) (varK : ℝ) (Kern : Mat n n) (noise : Vec n) (cf cc : Bool) (out : CovOut n) : Prop where
  kern : out.Kern = Kern
  eta : out.etaK = if o.etaConst then o.etaK else
    (⨆ i, ∑ j, |(if o.precon then corr (kwn varK Kern noise) else Kern) i j|) / (o.condMaxTarget - 1)
  cov : out.Kcov = varK • (kwn varK Kern noise + out.etaK •
    (if o.precon then diagonal (fun i => kwn varK Kern noise i i) else 1))
  cor : out.Kcor = if o.precon then some (corr (kwn varK Kern noise)) else none
  fac : ∀ F, out.chofac = some F → F.mat = out.Kcov ∧ choLogDet F = Real.log out.Kcov.det ∧ out.Kcov.PosDef
  facSome : cf = true → (cc = true → o.precon = false → condNum o out.Kcov ≤ o.condMaxAbs) → out.Kcov.PosDef →
    ∃ F, out.chofac = some F
  facNone : cf = false → out.chofac = none
  cond : out.condK = if cc then some (condNum o (if o.precon then varK • (corr (kwn varK Kern noise) + out.etaK • 1) else out.Kcov))
    else none
  facCond : o.precon = false → ∀ F, out.chofac = some F → cc = true → condNum o out.Kcov ≤ o.condMaxAbs

theorem corr_eq {A : Mat n n} (P : Vec n) (hP : ∀ i, P i = Real.sqrt (A i i)) :
    (diagonal fun i => 1 / P i) * A * (diagonal fun i => 1 / P i) = corr A := by
  ext i j
  rw [mul_diagonal, diagonal_mul]
  simp only [corr, of_apply, hP]
  rw [mul_comm (1 / _) (A i j)]
  rw [mul_one_div, mul_one_div, div_div]

theorem corr_diag {A : Mat n n} (h : ∀ i, 0 < A i i) (i : Fin n) : corr A i i = 1 := by
  simp only [corr, of_apply]
  rw [Real.mul_self_sqrt (h i).le, div_self (h i).ne']

theorem precon_conj {A : Mat n n} (h : ∀ i, 0 < A i i) (η v : ℝ) :
    (diagonal fun i => Real.sqrt (A i i)) * (v • (corr A + η • (1 : Mat n n))) * (diagonal fun i => Real.sqrt (A i i)) =
      v • (A + η • diagonal fun i => A i i) := by
  ext i j
  rw [mul_diagonal, diagonal_mul]
  simp only [corr, Matrix.smul_apply, Matrix.add_apply, of_apply, smul_eq_mul, one_apply, diagonal_apply]
  have hi := Real.sqrt_pos.mpr (h i)
  have hj := Real.sqrt_pos.mpr (h j)
  have hc : Real.sqrt (A i i) * (A i j / (Real.sqrt (A i i) * Real.sqrt (A j j))) * Real.sqrt (A j j) = A i j := by
    field_simp
  by_cases hij : i = j
  · subst hij
    simp only [if_true]
    have : Real.sqrt (A i i) * Real.sqrt (A i i) = A i i := Real.mul_self_sqrt (h i).le
    calc _ = v * (Real.sqrt (A i i) * (A i i / (Real.sqrt (A i i) * Real.sqrt (A i i))) * Real.sqrt (A i i)
            + η * (Real.sqrt (A i i) * Real.sqrt (A i i))) := by ring
      _ = _ := by rw [hc, this]
  · simp only [if_neg hij, mul_zero, add_zero]
    calc _ = v * (Real.sqrt (A i i) * (A i j / (Real.sqrt (A i i) * Real.sqrt (A j j))) * Real.sqrt (A j j)) := by ring
      _ = _ := by rw [hc]

/-- A congruence with a positive diagonal matrix preserves positive definiteness both ways. -/
theorem posDef_diag_conj {A : Mat n n} {d : Vec n} (hd : ∀ i, 0 < d i) :
    (diagonal d * A * diagonal d).PosDef ↔ A.PosDef := by
  have key : ∀ {B : Mat n n} {e : Vec n}, (∀ i, 0 < e i) → B.PosDef → (diagonal e * B * diagonal e).PosDef := by
    intro B e he hB
    have := hB.mul_mul_conjTranspose_same (B := diagonal e) (by
      rw [Matrix.vecMul_injective_iff_isUnit]
      rw [Matrix.isUnit_diagonal]
      rw [isUnit_iff_exists_inv]
      exact ⟨fun i => (e i)⁻¹, funext fun i => mul_inv_cancel₀ (he i).ne'⟩)
    simpa [conjT_eq, diagonal_transpose] using this
  refine ⟨fun h => ?_, key hd⟩
  have := key (e := fun i => (d i)⁻¹) (fun i => inv_pos.mpr (hd i)) h
  have e : (diagonal fun i => (d i)⁻¹) * (diagonal d * A * diagonal d) * (diagonal fun i => (d i)⁻¹) = A := by
    ext i j
    rw [mul_diagonal, diagonal_mul, mul_diagonal, diagonal_mul]
    have := (hd i).ne'
    have := (hd j).ne'
    field_simp
  rwa [e] at this

theorem pickEta_eq {o : CondOpts} (hn : 0 < n) (M : Mat n n) : ∃ η, pickEta o M = .ok η ∧
    η = if o.etaConst then o.etaK else (⨆ i, ∑ j, |M i j|) / (o.condMaxTarget - 1) := by
  unfold pickEta
  by_cases he : o.etaConst = true
  · exact ⟨o.etaK, by simp [he], by simp [he]⟩
  · refine ⟨(⨆ i, ∑ j, |M i j|) / (o.condMaxTarget - 1), ?_, by simp [he]⟩
    rw [if_neg he]
    simp [vecMax, hn.ne', absRowSum]

theorem covCore_ok {o : CondOpts} {useGrad : Bool} {varK : ℝ} {Kern : Mat n n} {noise : Vec n} (cf cc : Bool)
    (hprec : o.precon = true → useGrad = true) (hn : 0 < n) (hd : ∀ i, 0 < kwn varK Kern noise i i) (hv : 0 < varK) :
    ∃ out, covCore o useGrad varK Kern noise cf cc = .ok out ∧ CovSpec o varK Kern noise cf cc out := by
  unfold covCore
  dsimp only
  rw [← kwn]
  set A := kwn varK Kern noise with hA
  by_cases hp : o.precon = true
  · rw [if_pos hp, pyAssert_true (hprec hp), ok_bind]
    rw [corr_eq (A := A) (fun i => Real.sqrt (A i i)) (fun i => rfl)]
    have h2 := pickEta_eq (o := o) hn (corr A)
    obtain ⟨η, h1, h2⟩ := h2
    rw [h1]
    simp only [ok_bind, pure_eq_ok]
    refine ⟨_, rfl, ?_⟩
    have hconj := precon_conj hd η varK
    constructor
    · rfl
    · simp only [hp, if_true]; exact h2
    · simp only [hp, if_true]; exact hconj
    · simp only [hp, if_true]; rfl
    · intro F hF
      cases cf with
      | false => simp at hF
      | true =>
        simp only [if_true] at hF
        rw [Option.map_eq_some_iff] at hF
        obtain ⟨F', hF', rfl⟩ := hF
        obtain ⟨L, hL, hl, hc⟩ := choFactor_some hF'
        simp only [if_true] at hc
        have hm := choFactor_mat hF'
        refine ⟨?_, ?_, ?_⟩
        · unfold ChoFac.mat at hm ⊢
          simp only [hl, if_true] at hm ⊢
          rw [← hm, transpose_mul, diagonal_transpose]
          simp only [Matrix.mul_assoc]
        · have hld := choFactor_logDet hF'
          rw [det_mul, det_mul, det_diagonal]
          have hKp : 0 < (varK • (corr A + η • (1 : Mat n n))).det := (hL.posDef).det_pos
          have hdp : 0 < ∏ i, Real.sqrt (A i i) := Finset.prod_pos fun i _ => Real.sqrt_pos.mpr (hd i)
          rw [Real.log_mul (mul_pos hdp hKp).ne' hdp.ne', Real.log_mul hdp.ne' hKp.ne',
            Real.log_prod (fun i _ => (Real.sqrt_pos.mpr (hd i)).ne')]
          rw [← hld]
          unfold choLogDet
          simp only [diagonal_mul]
          have : ∀ i, Real.log (Real.sqrt (A i i) * F'.c i i) = Real.log (Real.sqrt (A i i)) + Real.log (F'.c i i) := by
            intro i
            rw [hc]
            exact Real.log_mul (Real.sqrt_pos.mpr (hd i)).ne' (hL.diag i).ne'
          simp only [this, Finset.sum_add_distrib]
          ring
        · rw [posDef_diag_conj (fun i => Real.sqrt_pos.mpr (hd i))]
          exact hL.posDef
    · intro hcf _ hpd
      simp only [hcf, if_true]
      rw [posDef_diag_conj (fun i => Real.sqrt_pos.mpr (hd i))] at hpd
      obtain ⟨F, hF⟩ := (choFactor_isSome_iff (b := true)).mpr hpd
      exact ⟨_, by rw [hF]; rfl⟩
    · intro hcf; simp [hcf]
    · simp only [hp, if_true]; rfl
    · intro hc; rw [hp] at hc; cases hc
  · have hp' : o.precon = false := by simpa using hp
    rw [if_neg hp]
    have h2 := pickEta_eq (o := o) hn (Kern)
    obtain ⟨η, h1, h2⟩ := h2
    rw [h1]
    simp only [ok_bind, pure_eq_ok]
    refine ⟨_, rfl, ?_⟩
    constructor
    · rfl
    · simp only [hp', Bool.false_eq_true, if_false]; exact h2
    · simp only [hp', Bool.false_eq_true, if_false]; rfl
    · simp [hp']
    · intro F hF
      simp only at hF
      split at hF
      · exact ⟨choFactor_mat hF, choFactor_logDet hF, choFactor_isSome_iff.mp ⟨F, hF⟩⟩
      · cases hF
    · intro hcf hcc hpd
      have hd : (cf && !(cc && decide (o.condMaxAbs < condNum o (varK • (A + η • (1 : Mat n n)))))) = true := by
        rw [hcf]
        cases hc : cc with
        | false => rfl
        | true => simpa using hcc hc hp'
      rw [if_pos hd]
      exact (choFactor_isSome_iff (b := false)).mpr hpd
    · intro hcf; simp [hcf]
    · simp only [hp', Bool.false_eq_true, if_false]
    · intro _ F hF hcc
      simp only at hF ⊢
      by_contra hlt
      push Not at hlt
      simp only [hcc, hlt, decide_true, Bool.and_self, Bool.not_true, Bool.and_false, Bool.false_eq_true, if_false] at hF
      cases hF

end GP
