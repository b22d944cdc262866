import Verif.Model.KernCorr
import Verif.Props.Kernels
import Verif.Props.Psd

/-! Claim theorems for C107: the correlation curves of the script are the correlations of the library's kernel matrices. -/

open Np Spec GP

noncomputable section

namespace Props

theorem corr_vals (k : KType) {α θ x : ℝ} (hα : 0 < α) (hθ : 0 ≤ θ) :
    prφ k α (θ * x ^ 2) = (corr1d k (theta2gamma k θ * x) α).1 ∧
    2 * θ * x * prφ1 k α (θ * x ^ 2) = theta2gamma k θ * (corr1d k (theta2gamma k θ * x) α).2.1 ∧
    -(2 * θ * prφ1 k α (θ * x ^ 2)) - 4 * θ * θ * x * x * prφ2 k α (θ * x ^ 2)
      = theta2gamma k θ ^ 2 * (corr1d k (theta2gamma k θ * x) α).2.2 := by
  cases k
  · have hg : Real.sqrt (2 * θ) ^ 2 = 2 * θ := Real.sq_sqrt (by positivity)
    simp only [prφ, prφ1, prφ2, corr1d, sqExp1dCorr, theta2gamma, sqExpTheta2gamma, seφ, seφ1, seφ2]
    have e : (-0.5 : ℝ) * (Real.sqrt (2 * θ) * x) ^ 2 = -(θ * x ^ 2) := by rw [mul_pow, hg]; ring
    rw [e]
    refine ⟨by ring, ?_, ?_⟩
    · linear_combination (x * Real.exp (-(θ * x ^ 2))) * hg
    · linear_combination (-Real.exp (-(θ * x ^ 2)) + Real.exp (-(θ * x ^ 2)) * x ^ 2 * (Real.sqrt (2 * θ) ^ 2 + 2 * θ)) * hg
  · have hg : Real.sqrt (5 / 3 * θ) ^ 2 = 5 / 3 * θ := Real.sq_sqrt (by positivity)
    simp only [prφ, prφ1, prφ2, corr1d, ma5f21dCorr, theta2gamma, maternTheta2gamma, maφ, maφ1, maφ2]
    have e0 : Real.sqrt (θ * x ^ 2) = Real.sqrt θ * |x| := by rw [Real.sqrt_mul hθ, Real.sqrt_sq_eq_abs]
    have eg : |Real.sqrt (5 / 3 * θ) * x| = Real.sqrt (5 / 3 * θ) * |x| := by rw [abs_mul, abs_of_nonneg (Real.sqrt_nonneg _)]
    have e1 : Real.sqrt 3 * (Real.sqrt (5 / 3 * θ) * |x|) = Real.sqrt 5 * (Real.sqrt θ * |x|) := by
      rw [← mul_assoc, ← mul_assoc, ← Real.sqrt_mul (by norm_num), ← Real.sqrt_mul (by norm_num)]
      congr 2; ring
    have e2 : (-Real.sqrt 3) * (Real.sqrt (5 / 3 * θ) * |x|) = -Real.sqrt 5 * (Real.sqrt θ * |x|) := by
      rw [neg_mul, e1, neg_mul]
    have hs : Real.sqrt θ ^ 2 = θ := Real.sq_sqrt hθ
    have ha : |x| ^ 2 = x ^ 2 := sq_abs x
    rw [eg, e0, e1, e2]
    generalize Real.exp (-Real.sqrt 5 * (Real.sqrt θ * |x|)) = E
    refine ⟨?_, ?_, ?_⟩
    · rw [mul_pow, mul_pow, hg, hs, ha]; ring
    · linear_combination (x * (1 + Real.sqrt 5 * (Real.sqrt θ * |x|)) * E) * hg
    · linear_combination (-(1 + Real.sqrt 5 * (Real.sqrt θ * |x|)) * E
        + 3 * x ^ 2 * (Real.sqrt (5 / 3 * θ) ^ 2 + 5 / 3 * θ) * E) * hg
  · have hg : Real.sqrt (2 * θ) ^ 2 = 2 * θ := Real.sq_sqrt (by positivity)
    simp only [prφ, prφ1, prφ2, corr1d, ratQd1dCorr, theta2gamma, ratQuadTheta2gamma, rqφ, rqφ1, rqφ2]
    have e : 1 + (Real.sqrt (2 * θ) * x) ^ 2 / (2 * α) = 1 + θ * x ^ 2 / α := by rw [mul_pow, hg]; field_simp
    rw [e]
    generalize (1 + θ * x ^ 2 / α) ^ (-α) = E0
    generalize (1 + θ * x ^ 2 / α) ^ (-α - 1) = E1
    generalize (1 + θ * x ^ 2 / α) ^ (-α - 2) = E2
    refine ⟨rfl, ?_, ?_⟩
    · linear_combination (x * E1) * hg
    · have hc : (α + 1) / α = 1 + 1 / α := by field_simp
      rw [hc]
      linear_combination (-E1 + x ^ 2 * (1 + 1 / α) * E2 * (Real.sqrt (2 * θ) ^ 2 + 2 * θ)) * hg

theorem ssq_one (θ r : ℕ → ℝ) : ssq 1 θ r = θ 0 * r 0 ^ 2 := by simp [ssq]

theorem kern_cov (k : KType) (X Y : Arr2) (hc : X.c = Y.c) (theta : Arr1) (hn : theta.n = X.c)
    (hθ : ∀ d < X.c, 0 ≤ theta.get d) {α : ℝ} (hα : 0 < α) :
    ∃ R A, calcRtensor X Y = .ok R ∧ calcKernGrad k R theta (some α) none none = .ok A ∧
      A.r = X.r + X.r * X.c ∧ A.c = Y.r + Y.r * X.c ∧
      let K := fun a b => radKG (prφ k α) (prφ1 k α) (prφ2 k α) X.c theta.get (fun d => X.get a d - Y.get b d)
      (∀ a < X.r, ∀ b < Y.r, A.get a b = K a b none none) ∧
      (∀ a < X.r, ∀ i < X.c, ∀ b < Y.r, A.get (X.r + i * X.r + a) b = K a b (some i) none) ∧
      (∀ a < X.r, ∀ b < Y.r, ∀ j < X.c, A.get a (Y.r + j * Y.r + b) = K a b none (some j)) ∧
      (∀ a < X.r, ∀ i < X.c, ∀ b < Y.r, ∀ j < X.c,
        A.get (X.r + i * X.r + a) (Y.r + j * Y.r + b) = K a b (some i) (some j)) := by
  obtain ⟨R, A, hR, hA, hr, hcc, hJ⟩ := kernGrad_jointCov k X Y hc theta hn hθ (some α) (fun _ => ⟨α, hα, rfl⟩) none none
    (by simp [maskOk]) (by simp [maskOk]) (fun _ => .inl rfl)
  have hk : kernOf k (some α) X.c theta = radial (prφ k α) X.c theta.get := kern_eq k α X.c theta.get
  rw [hk] at hJ
  refine ⟨R, A, hR, hA, hr, hcc, ?_, ?_, ?_, ?_⟩
  · intro a ha b hb
    exact hJ.val_val a ha b hb
  · intro a ha i hi b hb
    exact (hJ.der_val i hi a ha b hb).unique
      (radKG_isCov (prProfile k hα) hθ _ _ (some i) none (by simpa using hi) (by simp))
  · intro a ha b hb j hj
    exact (hJ.val_der a ha j hj b hb).unique
      (radKG_isCov (prProfile k hα) hθ _ _ none (some j) (by simp) (by simpa using hj))
  · intro a ha i hi b hb j hj
    exact (hJ.der_der i hi a ha j hj b hb).unique
      (radKG_isCov (prProfile k hα) hθ _ _ (some i) (some j) (by simpa using hi) (by simpa using hj))

/-- **C107.** The curves that the script plots against `r = γ (x - y)` are the entries of the library's kernel matrix for points on a
line: between values, between a derivative and a value (divided by `γ`) and between derivatives (divided by `γ²`); the entries between
a value and a derivative are the negative of the second curve. `γ²` being the variance of a derivative (C12), they are correlations. -/
theorem C107_curves (k : KType) (X Y : Arr2) (hX : X.c = 1) (hY : Y.c = 1) (theta : Arr1) (hn : theta.n = 1)
    (hθ : 0 ≤ theta.get 0) (α : ℝ) (hα : 0 < α) :
    ∃ R A, calcRtensor X Y = .ok R ∧ calcKernGrad k R theta (some α) none none = .ok A ∧
      A.r = X.r + X.r ∧ A.c = Y.r + Y.r ∧
      ∀ a < X.r, ∀ b < Y.r,
        let γ := theta2gamma k (theta.get 0)
        let c := corr1d k (γ * (X.get a 0 - Y.get b 0)) α
        A.get a b = c.1 ∧ A.get (X.r + a) b = γ * c.2.1 ∧ A.get a (Y.r + b) = -(γ * c.2.1) ∧
        A.get (X.r + a) (Y.r + b) = γ ^ 2 * c.2.2 := by
  obtain ⟨R, A, hR, hA, hr, hc, h1, h2, h3, h4⟩ := kern_cov k X Y (hX.trans hY.symm) theta (hn.trans hX.symm)
    (by rw [hX]; intro d hd; obtain rfl : d = 0 := by omega
        exact hθ) hα
  rw [hX] at *
  refine ⟨R, A, hR, hA, by omega, by omega, fun a ha b hb => ?_⟩
  obtain ⟨e1, e2, e3⟩ := corr_vals k (x := X.get a 0 - Y.get b 0) hα hθ
  have q2 := h2 a ha 0 one_pos b hb
  have q3 := h3 a ha b hb 0 one_pos
  have q4 := h4 a ha 0 one_pos b hb 0 one_pos
  rw [Nat.zero_mul, Nat.add_zero] at q2 q3 q4
  rw [Nat.zero_mul, Nat.add_zero] at q4
  dsimp only
  refine ⟨?_, ?_, ?_, ?_⟩
  · rw [h1 a ha b hb, ← e1]; simp only [radKG, ssq_one]
  · rw [q2, ← e2]; simp only [radKG, ssq_one]
  · rw [q3, ← e2]; simp only [radKG, ssq_one]
  · rw [q4, ← e3]; simp only [radKG, ssq_one, kron_self]; ring

/-- **C107.** The surface that the script plots for two coordinates is the correlation, under the squared-exponential kernel, of the
partial derivative wrt one coordinate at one point with the partial derivative wrt another coordinate at another point that differs from
the first in no other coordinate. -/
theorem C107_surface (X Y : Arr2) (hc : X.c = Y.c) (theta : Arr1) (hn : theta.n = X.c) (hθ : ∀ d < X.c, 0 ≤ theta.get d)
    (hp : Option ℝ) :
    ∃ R A, calcRtensor X Y = .ok R ∧ calcKernGrad .sqExp R theta hp none none = .ok A ∧
      ∀ a < X.r, ∀ b < Y.r, ∀ i < X.c, ∀ j < X.c, i ≠ j → (∀ d < X.c, d ≠ i → d ≠ j → X.get a d = Y.get b d) →
        let γ := fun d => theta2gamma .sqExp (theta.get d)
        let r := fun d => γ d * (X.get a d - Y.get b d)
        A.get (X.r + i * X.r + a) (Y.r + j * Y.r + b) = γ i * γ j * sqExp2dCorr (r i) (r j) (r i) (r j) := by
  obtain ⟨R, A, hR, hA, -, -, -, -, -, h4⟩ := kern_cov .sqExp X Y hc theta hn hθ one_pos
  refine ⟨R, A, hR, hA, fun a ha b hb i hi j hj hij hd => ?_⟩
  have es : ssq X.c theta.get (fun d => X.get a d - Y.get b d)
      = theta.get i * (X.get a i - Y.get b i) ^ 2 + theta.get j * (X.get a j - Y.get b j) ^ 2 := by
    unfold ssq
    rw [← Finset.sum_subset (s₁ := {i, j}), Finset.sum_pair hij]
    · intro d h
      rcases Finset.mem_insert.mp h with rfl | h
      · exact Finset.mem_range.mpr hi
      · rw [Finset.mem_singleton.mp h]; exact Finset.mem_range.mpr hj
    · intro d hr hn
      simp only [Finset.mem_insert, Finset.mem_singleton, not_or] at hn
      show theta.get d * (X.get a d - Y.get b d) ^ 2 = 0; rw [hd d (Finset.mem_range.mp hr) hn.1 hn.2]; ring
  have hgi : Real.sqrt (2 * theta.get i) ^ 2 = 2 * theta.get i := Real.sq_sqrt (by have := hθ i hi; positivity)
  have hgj : Real.sqrt (2 * theta.get j) ^ 2 = 2 * theta.get j := Real.sq_sqrt (by have := hθ j hj; positivity)
  rw [h4 a ha i hi b hb j hj]
  simp only [radKG, prφ1, prφ2, kron_ne hij, theta2gamma, sqExpTheta2gamma, sqExp2dCorr, es, seφ2]
  rw [show (-0.5 : ℝ) * ((Real.sqrt (2 * theta.get i) * (X.get a i - Y.get b i)) ^ 2
      + (Real.sqrt (2 * theta.get j) * (X.get a j - Y.get b j)) ^ 2)
      = -(theta.get i * (X.get a i - Y.get b i) ^ 2 + theta.get j * (X.get a j - Y.get b j) ^ 2) by
    rw [mul_pow, mul_pow, hgi, hgj]; ring]
  generalize Real.exp (-(theta.get i * (X.get a i - Y.get b i) ^ 2 + theta.get j * (X.get a j - Y.get b j) ^ 2)) = E
  linear_combination ((X.get a i - Y.get b i) * (X.get a j - Y.get b j) * E * Real.sqrt (2 * theta.get j) ^ 2) * hgi
    + ((X.get a i - Y.get b i) * (X.get a j - Y.get b j) * E * 2 * theta.get i) * hgj

/-- **C107, discrepancy.** The function for the surface ignores its arguments: whatever is passed, the surface over the grid of the
module is returned. -/
theorem C107_surface_ignores_arguments (gx gy x y x' y' : ℝ) : sqExp2dCorr gx gy x y = sqExp2dCorr gx gy x' y' ∧
    sqExp2dCorr 1 1 0 0 ≠ sqExp2dCorr 0 0 0 0 := by
  refine ⟨rfl, ?_⟩
  unfold sqExp2dCorr
  have := Real.exp_pos (-0.5 * (1 ^ 2 + 1 ^ 2))
  intro h
  simp at h

/-- A line of two points. -/
def twoPts (r : ℝ) : Arr2 := ⟨2, 1, fun a _ => if a = 0 then r else 0⟩

/-- **C107.** All the curves stay within `[-1, 1]`, the value at distance 0 is `1, 0, 1`, and the curves are even, odd and even. -/
theorem C107_bounds (k : KType) (α : ℝ) (hα : 0 < α) (r : ℝ) :
    |(corr1d k r α).1| ≤ 1 ∧ |(corr1d k r α).2.1| ≤ 1 ∧ |(corr1d k r α).2.2| ≤ 1 ∧
    corr1d k 0 α = (1, 0, 1) ∧
    corr1d k (-r) α = ((corr1d k r α).1, -(corr1d k r α).2.1, (corr1d k r α).2.2) := by
  have h0 : corr1d k 0 α = (1, 0, 1) := by
    cases k <;> simp [corr1d, sqExp1dCorr, ma5f21dCorr, ratQd1dCorr]
  -- weight with γ = 1
  obtain ⟨θ, hθ, hγ⟩ : ∃ θ : ℝ, 0 ≤ θ ∧ theta2gamma k θ = 1 := by
    cases k
    · exact ⟨1 / 2, by norm_num, by simp [theta2gamma, sqExpTheta2gamma]⟩
    · exact ⟨3 / 5, by norm_num, by simp [theta2gamma, maternTheta2gamma]⟩
    · exact ⟨1 / 2, by norm_num, by simp [theta2gamma, ratQuadTheta2gamma]⟩
  obtain ⟨R, A, hR, hA, hr, hc, hv⟩ := C107_curves k (twoPts r) (twoPts r) rfl rfl ⟨1, fun _ => θ⟩ rfl hθ α hα
  obtain ⟨R', A', hR', hA', hr', hc', -, hpsd⟩ := C14_grad_posSemidef k (twoPts r) ⟨1, fun _ => θ⟩ rfl (fun _ _ => hθ) (some α)
    (fun _ => ⟨α, hα, rfl⟩) none (by simp [maskOk])
  obtain rfl : R = R' := by rw [hR] at hR'; exact Except.ok.inj hR'
  obtain rfl : A = A' := by rw [hA] at hA'; exact Except.ok.inj hA'
  have hsz : A.r = 4 := hr
  rw [hsz] at hpsd
  have v : ∀ a < 2, ∀ b < 2, A.get a b = (corr1d k ((twoPts r).get a 0 - (twoPts r).get b 0) α).1 ∧
      A.get (2 + a) b = (corr1d k ((twoPts r).get a 0 - (twoPts r).get b 0) α).2.1 ∧
      A.get a (2 + b) = -(corr1d k ((twoPts r).get a 0 - (twoPts r).get b 0) α).2.1 ∧
      A.get (2 + a) (2 + b) = (corr1d k ((twoPts r).get a 0 - (twoPts r).get b 0) α).2.2 := by
    intro a ha b hb
    have := hv a ha b hb
    simp only [hγ, one_mul, one_pow] at this
    exact this
  have g0 : (twoPts r).get 0 0 = r := rfl
  have g1 : (twoPts r).get 1 0 = 0 := rfl
  have v00 := v 0 (by omega) 0 (by omega)
  have v01 := v 0 (by omega) 1 (by omega)
  have v10 := v 1 (by omega) 0 (by omega)
  have v11 := v 1 (by omega) 1 (by omega)
  have heven : corr1d k (-r) α = ((corr1d k r α).1, -(corr1d k r α).2.1, (corr1d k r α).2.2) := by
    cases k <;> simp [corr1d, sqExp1dCorr, ma5f21dCorr, ratQd1dCorr]
  simp only [g0, g1, sub_self, sub_zero, zero_sub, h0, heven, neg_zero, neg_neg] at v00 v01 v10 v11
  refine ⟨?_, ?_, ?_, h0, heven⟩
  · have p := hpsd (fun i => if i = 0 then 1 else if i = 1 then 1 else 0)
    have m := hpsd (fun i => if i = 0 then 1 else if i = 1 then -1 else 0)
    simp [Finset.sum_range_succ] at p m
    rw [abs_le]
    constructor <;> nlinarith [v00.1, v01.1, v10.1, v11.1]
  · have p := hpsd (fun i => if i = 1 then 1 else if i = 2 then 1 else 0)
    have m := hpsd (fun i => if i = 1 then 1 else if i = 2 then -1 else 0)
    simp [Finset.sum_range_succ] at p m
    have q1 : A.get 2 1 = (corr1d k r α).2.1 := v01.2.1
    have q2 : A.get 1 2 = (corr1d k r α).2.1 := v10.2.2.1
    have q3 : A.get 2 2 = 1 := v00.2.2.2
    rw [abs_le]
    constructor <;> nlinarith [v11.1]
  · have p := hpsd (fun i => if i = 2 then 1 else if i = 3 then 1 else 0)
    have m := hpsd (fun i => if i = 2 then 1 else if i = 3 then -1 else 0)
    simp [Finset.sum_range_succ] at p m
    have q1 : A.get 2 3 = (corr1d k r α).2.2 := v01.2.2.2
    have q2 : A.get 3 2 = (corr1d k r α).2.2 := v10.2.2.2
    have q3 : A.get 2 2 = 1 := v00.2.2.2
    have q4 : A.get 3 3 = 1 := v11.2.2.2
    rw [abs_le]
    constructor <;> nlinarith

example := C107_curves .matern (twoPts 3) (twoPts 5) rfl rfl ⟨1, fun _ => 2⟩ rfl (by norm_num) 1 one_pos
-- the two points of `exX` differ in both coordinates
example : (0 : ℕ) < exX.r ∧ 1 < exX.r ∧ 0 < exX.c ∧ 1 < exX.c ∧ ∀ d < exX.c, d ≠ 0 → d ≠ 1 → exX.get 0 d = exX.get 1 d :=
  ⟨by decide, by decide, by decide, by decide, fun d hd _ _ => by have : d < 2 := hd; omega⟩
example := C107_surface exX exX rfl exTheta rfl exTheta_nonneg none
example := C107_bounds .ratQuad 2 two_pos 3

end Props
