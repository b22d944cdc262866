import Verif.Spec.Radial2
import Mathlib.Analysis.SpecialFunctions.ExpDeriv
import Mathlib.Analysis.SpecialFunctions.Sqrt
import Mathlib.Analysis.SpecialFunctions.Pow.Deriv
import Mathlib.Analysis.Calculus.FDeriv.Extend

/-! The radial profiles of the three kernels with their derivatives. -/

noncomputable section

open Set Filter Topology

namespace Spec

/-! ### Squared exponential -/

/-- Profile of the squared-exponential kernel and its derivatives. -/
def seφ (s : ℝ) : ℝ := Real.exp (-s)
def seφ1 (s : ℝ) : ℝ := -Real.exp (-s)
def seφ2 (s : ℝ) : ℝ := Real.exp (-s)
def seφ3 (s : ℝ) : ℝ := -Real.exp (-s)

theorem hasDerivAt_exp_neg (s : ℝ) : HasDerivAt (fun t => Real.exp (-t)) (-Real.exp (-s)) s :=
  ((hasDerivAt_id' s).fun_neg.exp).congr_deriv (by ring)

theorem seProfile : Profile seφ seφ1 seφ2 where
  d1 s _ := (hasDerivAt_exp_neg s).hasDerivWithinAt
  d2 s _ := ((hasDerivAt_exp_neg s).fun_neg.congr_deriv (by simp [seφ2])).hasDerivWithinAt

theorem seProfile3 : Profile3 seφ2 seφ3 where
  cont := (hasDerivAt_exp_neg 0).continuousAt.continuousWithinAt
  d3 s _ := hasDerivAt_exp_neg s

theorem kSqExp_eq (dim : ℕ) (θ : ℕ → ℝ) : kSqExp dim θ = radial seφ dim θ := rfl

/-! ### Matérn 5/2 -/

/-- Profile of the Matérn 5/2 kernel and its derivatives. -/
def maφ (s : ℝ) : ℝ := (1 + Real.sqrt 5 * Real.sqrt s + 5 / 3 * Real.sqrt s ^ 2) * Real.exp (-Real.sqrt 5 * Real.sqrt s)
def maφ1 (s : ℝ) : ℝ := -(5 / 6) * (1 + Real.sqrt 5 * Real.sqrt s) * Real.exp (-Real.sqrt 5 * Real.sqrt s)
def maφ2 (s : ℝ) : ℝ := 25 / 12 * Real.exp (-Real.sqrt 5 * Real.sqrt s)
def maφ3 (s : ℝ) : ℝ := -(25 * Real.sqrt 5 / 24) * (1 / Real.sqrt s) * Real.exp (-Real.sqrt 5 * Real.sqrt s)

theorem kMatern_eq (dim : ℕ) (θ : ℕ → ℝ) : kMatern dim θ = radial maφ dim θ := rfl

theorem ma_exp {s : ℝ} (hs : 0 < s) : HasDerivAt (fun t => Real.exp (-Real.sqrt 5 * Real.sqrt t))
    (Real.exp (-Real.sqrt 5 * Real.sqrt s) * (-Real.sqrt 5 * (1 / (2 * Real.sqrt s)))) s :=
  ((Real.hasDerivAt_sqrt hs.ne').const_mul (-Real.sqrt 5)).exp

theorem five_sq : Real.sqrt 5 ^ 2 = 5 := Real.sq_sqrt (by norm_num)

theorem maφ_deriv {s : ℝ} (hs : 0 < s) : HasDerivAt maφ (maφ1 s) s := by
  have hq := Real.hasDerivAt_sqrt hs.ne'
  have h0 : Real.sqrt s ≠ 0 := (Real.sqrt_pos.mpr hs).ne'
  have := (((hq.const_mul (Real.sqrt 5)).const_add 1).fun_add ((hq.fun_pow 2).const_mul (5 / 3))).fun_mul (ma_exp hs)
  refine this.congr_deriv ?_
  unfold maφ1
  have h5 := five_sq
  field_simp
  push_cast
  linear_combination (-18 * Real.sqrt s) * h5

theorem maφ1_deriv {s : ℝ} (hs : 0 < s) : HasDerivAt maφ1 (maφ2 s) s := by
  have hq := Real.hasDerivAt_sqrt hs.ne'
  have h0 : Real.sqrt s ≠ 0 := (Real.sqrt_pos.mpr hs).ne'
  have := (((hq.const_mul (Real.sqrt 5)).const_add 1).const_mul (-(5 / 6))).fun_mul (ma_exp hs)
  refine this.congr_deriv ?_
  unfold maφ2
  have h5 := five_sq
  field_simp
  linear_combination (60 * Real.sqrt s) * h5

theorem maφ2_deriv {s : ℝ} (hs : 0 < s) : HasDerivAt maφ2 (maφ3 s) s := by
  have h0 : Real.sqrt s ≠ 0 := (Real.sqrt_pos.mpr hs).ne'
  refine ((ma_exp hs).const_mul (25 / 12)).congr_deriv ?_
  unfold maφ3
  field_simp
  ring

theorem maφ_cont : Continuous maφ := by unfold maφ; fun_prop
theorem maφ1_cont : Continuous maφ1 := by unfold maφ1; fun_prop
theorem maφ2_cont : Continuous maφ2 := by unfold maφ2; fun_prop

theorem deriv_zero_of {f f' : ℝ → ℝ} (hf : Continuous f) (hf' : Continuous f')
    (hd : ∀ s, 0 < s → HasDerivAt f (f' s) s) : HasDerivWithinAt f (f' 0) (Ici 0) 0 := by
  refine hasDerivWithinAt_Ici_of_tendsto_deriv (s := Ioi 0)
    (fun s hs => (hd s hs).differentiableAt.differentiableWithinAt) hf.continuousWithinAt
    self_mem_nhdsWithin ?_
  have : Tendsto f' (𝓝[>] 0) (𝓝 (f' 0)) := hf'.continuousAt.tendsto.mono_left nhdsWithin_le_nhds
  refine this.congr' ?_
  filter_upwards [self_mem_nhdsWithin] with s hs
  exact (hd s hs).deriv.symm

theorem maProfile : Profile maφ maφ1 maφ2 where
  d1 s hs := by
    rcases hs.eq_or_lt with rfl | h
    · exact deriv_zero_of maφ_cont maφ1_cont fun s hs => maφ_deriv hs
    · exact (maφ_deriv h).hasDerivWithinAt
  d2 s hs := by
    rcases hs.eq_or_lt with rfl | h
    · exact deriv_zero_of maφ1_cont maφ2_cont fun s hs => maφ1_deriv hs
    · exact (maφ1_deriv h).hasDerivWithinAt

theorem maProfile3 : Profile3 maφ2 maφ3 where
  cont := maφ2_cont.continuousWithinAt
  d3 _ hs := maφ2_deriv hs

/-! ### Rational quadratic -/

/-- Profile of the rational quadratic kernel and its derivatives. -/
def rqφ (α s : ℝ) : ℝ := (1 + s / α) ^ (-α)
def rqφ1 (α s : ℝ) : ℝ := -(1 + s / α) ^ (-α - 1)
def rqφ2 (α s : ℝ) : ℝ := (1 + 1 / α) * (1 + s / α) ^ (-α - 2)
def rqφ3 (α s : ℝ) : ℝ := -((1 + 1 / α) * (1 + 2 / α) * (1 + s / α) ^ (-α - 3))

theorem kRatQuad_eq (α : ℝ) (dim : ℕ) (θ : ℕ → ℝ) : kRatQuad α dim θ = radial (rqφ α) dim θ := rfl

theorem rq_base_pos {α s : ℝ} (hα : 0 < α) (hs : 0 ≤ s) : 0 < 1 + s / α := by positivity

theorem rq_pow_deriv {α s e : ℝ} (hα : 0 < α) (hs : 0 ≤ s) :
    HasDerivAt (fun t => (1 + t / α) ^ e) (e / α * (1 + s / α) ^ (e - 1)) s := by
  have h1 : HasDerivAt (fun t => 1 + t / α) (1 / α) s := ((hasDerivAt_id' s).div_const α).const_add 1
  refine (h1.rpow_const (p := e) (Or.inl (rq_base_pos hα hs).ne')).congr_deriv ?_
  ring

theorem rqProfile {α : ℝ} (hα : 0 < α) : Profile (rqφ α) (rqφ1 α) (rqφ2 α) where
  d1 s hs := by
    refine ((rq_pow_deriv (e := -α) hα hs).congr_deriv ?_).hasDerivWithinAt
    unfold rqφ1; field_simp
  d2 s hs := by
    refine ((rq_pow_deriv (e := -α - 1) hα hs).fun_neg.congr_deriv ?_).hasDerivWithinAt
    unfold rqφ2
    rw [show (-α - 1 - 1 : ℝ) = -α - 2 by ring]
    field_simp; ring

theorem rqProfile3 {α : ℝ} (hα : 0 < α) : Profile3 (rqφ2 α) (rqφ3 α) where
  cont := ((rq_pow_deriv (e := -α - 2) hα le_rfl).const_mul _).continuousAt.continuousWithinAt
  d3 s hs := by
    refine ((rq_pow_deriv (e := -α - 2) hα hs.le).const_mul (1 + 1 / α)).congr_deriv ?_
    unfold rqφ3
    rw [show (-α - 2 - 1 : ℝ) = -α - 3 by ring]
    field_simp; ring

end Spec
