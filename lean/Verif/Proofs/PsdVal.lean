import Verif.Spec.Radial
import Mathlib.Analysis.SpecialFunctions.Exponential
import Mathlib.MeasureTheory.Integral.Bochner.Set
import Mathlib.MeasureTheory.Measure.Lebesgue.Basic

/-! Positive semidefiniteness of radial kernels on values: the squared exponential and mixtures of it. -/

open MeasureTheory

noncomputable section

namespace Spec

/-- The radial profile `φ` gives a positive semidefinite kernel for every positive weight vector. -/
def ValPsd (φ : ℝ → ℝ) : Prop :=
  ∀ (dim : ℕ) (θ : ℕ → ℝ), (∀ d < dim, 0 ≤ θ d) → ∀ (n : ℕ) (X : Fin n → Pt) (c : Fin n → ℝ),
    0 ≤ ∑ i, ∑ j, c i * c j * φ (wdist2 dim θ (X i) (X j))

/-- Powers of a Gram kernel are positive semidefinite. -/
theorem gram_pow_psd {n dim : ℕ} (θ : ℕ → ℝ) (hθ : ∀ d < dim, 0 ≤ θ d) (X : Fin n → Pt) (m : ℕ) :
    ∀ c : Fin n → ℝ, 0 ≤ ∑ i, ∑ j, c i * c j * (∑ d ∈ Finset.range dim, θ d * X i d * X j d) ^ m := by
  induction m with
  | zero =>
    intro c
    have : ∑ i, ∑ j, c i * c j * (∑ d ∈ Finset.range dim, θ d * X i d * X j d) ^ 0 = (∑ i, c i) ^ 2 := by
      rw [sq, Finset.sum_mul_sum]; simp
    rw [this]; positivity
  | succ m ih =>
    intro c
    have : ∑ i, ∑ j, c i * c j * (∑ d ∈ Finset.range dim, θ d * X i d * X j d) ^ (m + 1) =
        ∑ d ∈ Finset.range dim, θ d * ∑ i, ∑ j, (c i * X i d) * (c j * X j d) *
          (∑ d ∈ Finset.range dim, θ d * X i d * X j d) ^ m := by
      have e1 : ∀ d, θ d * ∑ i, ∑ j, (c i * X i d) * (c j * X j d) *
          (∑ d ∈ Finset.range dim, θ d * X i d * X j d) ^ m = ∑ i, ∑ j, θ d * ((c i * X i d) * (c j * X j d) *
          (∑ d ∈ Finset.range dim, θ d * X i d * X j d) ^ m) := by
        intro d
        rw [Finset.mul_sum]
        refine Finset.sum_congr rfl fun i _ => ?_
        rw [Finset.mul_sum]
      rw [Finset.sum_congr rfl fun d _ => e1 d, Finset.sum_comm (s := Finset.range dim)]
      refine Finset.sum_congr rfl fun i _ => ?_
      rw [Finset.sum_comm (s := Finset.range dim)]
      refine Finset.sum_congr rfl fun j _ => ?_
      rw [pow_succ, Finset.mul_sum, Finset.mul_sum]
      refine Finset.sum_congr rfl fun d _ => ?_
      ring
    rw [this]
    exact Finset.sum_nonneg fun d hd => mul_nonneg (hθ d (Finset.mem_range.mp hd)) (ih _)

/-- The squared exponential with any rate `t ≥ 0`. -/
theorem valPsd_exp {t : ℝ} (ht : 0 ≤ t) : ValPsd fun s => Real.exp (-(t * s)) := by
  intro dim θ hθ n X c
  set g : Fin n → Fin n → ℝ := fun i j => ∑ d ∈ Finset.range dim, (2 * t * θ d) * X i d * X j d with hg
  set q : Fin n → ℝ := fun i => Real.exp (-(t * ∑ d ∈ Finset.range dim, θ d * X i d ^ 2)) with hq
  have key : ∀ i j, Real.exp (-(t * wdist2 dim θ (X i) (X j))) = q i * q j * Real.exp (g i j) := by
    intro i j
    simp only [hq, hg]
    rw [← Real.exp_add, ← Real.exp_add]
    congr 1
    unfold wdist2
    rw [← neg_add, ← mul_add, ← Finset.sum_add_distrib]
    rw [Finset.mul_sum, Finset.mul_sum, ← Finset.sum_neg_distrib, ← Finset.sum_neg_distrib, ← Finset.sum_add_distrib]
    refine Finset.sum_congr rfl fun d _ => ?_
    ring
  simp only [key]
  have hs : ∀ i j, HasSum (fun m : ℕ => (c i * q i) * (c j * q j) * (g i j ^ m / m.factorial))
      (c i * c j * (q i * q j * Real.exp (g i j))) := by
    intro i j
    have := (NormedSpace.expSeries_div_hasSum_exp (g i j)).mul_left ((c i * q i) * (c j * q j))
    rw [← Real.exp_eq_exp_ℝ] at this
    have e : c i * c j * (q i * q j * Real.exp (g i j)) = (c i * q i) * (c j * q j) * Real.exp (g i j) := by ring
    rw [e]
    exact this
  have hS := hasSum_sum (s := Finset.univ) (fun i _ => hasSum_sum (s := Finset.univ) (fun j _ => hs i j))
  refine hS.nonneg fun m => ?_
  have := gram_pow_psd (dim := dim) (fun d => 2 * t * θ d) (fun d hd => by have := hθ d hd; positivity) X m
    (fun i => c i * q i)
  have h2 : ∑ i, ∑ j, (c i * q i) * (c j * q j) * (g i j ^ m / m.factorial) =
      (∑ i, ∑ j, (c i * q i) * (c j * q j) * g i j ^ m) / m.factorial := by
    rw [Finset.sum_div]
    refine Finset.sum_congr rfl fun i _ => ?_
    rw [Finset.sum_div]
    refine Finset.sum_congr rfl fun j _ => ?_
    ring
  rw [h2]
  exact div_nonneg this (by positivity)

/-- Mixtures of squared exponentials. -/
theorem valPsd_mixture {φ : ℝ → ℝ} {S : Set ℝ} (hS : MeasurableSet S) (r w : ℝ → ℝ) (hr : ∀ t ∈ S, 0 ≤ r t)
    (hw : ∀ t ∈ S, 0 ≤ w t)
    (hi : ∀ s, 0 ≤ s → IntegrableOn (fun t => w t * Real.exp (-(r t * s))) S)
    (hφ : ∀ s, 0 ≤ s → φ s = ∫ t in S, w t * Real.exp (-(r t * s))) : ValPsd φ := by
  intro dim θ hθ n X c
  have h0 : ∀ i j, 0 ≤ wdist2 dim θ (X i) (X j) := fun i j => wdist2_nonneg hθ _ _
  have e : ∑ i, ∑ j, c i * c j * φ (wdist2 dim θ (X i) (X j)) =
      ∫ t in S, ∑ i, ∑ j, c i * c j * (w t * Real.exp (-(r t * wdist2 dim θ (X i) (X j)))) := by
    rw [integral_finsetSum _ (fun i _ => integrable_finsetSum _ fun j _ => (hi _ (h0 i j)).const_mul _)]
    refine Finset.sum_congr rfl fun i _ => ?_
    rw [integral_finsetSum _ (fun j _ => (hi _ (h0 i j)).const_mul _)]
    refine Finset.sum_congr rfl fun j _ => ?_
    rw [integral_const_mul, hφ _ (h0 i j)]
  rw [e]
  refine setIntegral_nonneg hS fun t ht => ?_
  have := valPsd_exp (hr t ht) dim θ hθ n X c
  have h2 : ∑ i, ∑ j, c i * c j * (w t * Real.exp (-(r t * wdist2 dim θ (X i) (X j)))) =
      w t * ∑ i, ∑ j, c i * c j * Real.exp (-(r t * wdist2 dim θ (X i) (X j))) := by
    simp only [Finset.mul_sum]
    refine Finset.sum_congr rfl fun i _ => Finset.sum_congr rfl fun j _ => ?_
    ring
  rw [h2]
  exact mul_nonneg (hw t ht) this

/-- Limits from the right: if every shifted profile is positive semidefinite so is the profile. -/
theorem valPsd_of_shift {φ : ℝ → ℝ} (hc : ContinuousOn φ (Set.Ici 0))
    (h : ∀ ε, 0 < ε → ValPsd fun s => φ (s + ε)) : ValPsd φ := by
  intro dim θ hθ n X c
  have h0 : ∀ i j, 0 ≤ wdist2 dim θ (X i) (X j) := fun i j => wdist2_nonneg hθ _ _
  have ht : Filter.Tendsto (fun ε => ∑ i, ∑ j, c i * c j * φ (wdist2 dim θ (X i) (X j) + ε))
      (nhdsWithin 0 (Set.Ioi 0)) (nhds (∑ i, ∑ j, c i * c j * φ (wdist2 dim θ (X i) (X j)))) := by
    refine tendsto_finset_sum _ fun i _ => tendsto_finset_sum _ fun j _ => ?_
    refine Filter.Tendsto.const_mul _ ?_
    have h1 := hc (wdist2 dim θ (X i) (X j)) (h0 i j)
    refine h1.tendsto.comp ?_
    refine tendsto_nhdsWithin_iff.mpr ⟨?_, ?_⟩
    · have : Filter.Tendsto (fun ε : ℝ => wdist2 dim θ (X i) (X j) + ε) (nhds 0)
        (nhds (wdist2 dim θ (X i) (X j) + 0)) := Filter.Tendsto.const_add _ Filter.tendsto_id
      rw [add_zero] at this
      exact this.mono_left nhdsWithin_le_nhds
    · filter_upwards [self_mem_nhdsWithin] with ε hε
      have := h0 i j
      simp only [Set.mem_Ioi] at hε
      simp only [Set.mem_Ici]; linarith
  refine ge_of_tendsto ht ?_
  filter_upwards [self_mem_nhdsWithin] with ε hε
  exact h ε hε dim θ hθ n X c

end Spec
