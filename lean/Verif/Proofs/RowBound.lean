import Mathlib.Analysis.SpecialFunctions.Pow.Real
import Mathlib.Analysis.SpecialFunctions.ExpDeriv
import Mathlib.Analysis.SpecialFunctions.Sqrt
import Mathlib.Analysis.Calculus.Deriv.MeanValue
import Mathlib.Analysis.Complex.ExponentialBounds

/-! Bounds on one block of a row of the correlation matrix of values and gradients, in normalised coordinates: `a` is
the normalised difference along the coordinate of the row, `b` the norm of the others, `D = √(d-1)`. -/

noncomputable section

namespace RB

open Real

/-- The bound for the squared-exponential and rational quadratic kernels. -/
def seM (d : ℝ) : ℝ := 1 / 2 * (1 + √(1 + 4 * d)) * exp (-(1 + 2 * d - √(1 + 4 * d)) / (4 * d))

theorem se_max {d : ℝ} (hd : 0 < d) (u : ℝ) (hu : 0 ≤ u) : (1 + √d * u) * exp (-u ^ 2 / 2) ≤ seM d := by
  set s := √d with hs
  have hs0 : 0 < s := Real.sqrt_pos.mpr hd
  have hss : s ^ 2 = d := Real.sq_sqrt hd.le
  set q := √(1 + 4 * d) with hq
  have hqq : q ^ 2 = 1 + 4 * d := Real.sq_sqrt (by linarith)
  have hq0 : 0 ≤ q := Real.sqrt_nonneg _
  have hq1 : 1 < q := by nlinarith
  set w := (q - 1) / (2 * s) with hw
  have hws : s * w = (q - 1) / 2 := by rw [hw]; field_simp
  have hw0 : 0 < w := by rw [hw]; exact div_pos (by linarith) (by linarith)
  have hw2 : w ^ 2 = (1 + 2 * d - q) / (2 * d) := by
    rw [hw, div_pow, mul_pow, hss]; field_simp; nlinarith
  have hM : seM d = (1 + s * w) * exp (-w ^ 2 / 2) := by
    unfold seM
    rw [← hq, hws, hw2]
    congr 1
    · ring
    · congr 1; field_simp; ring
  rw [hM]
  have hkey : s = w * (1 + s * w) := by
    have : s * s = s * (w * (1 + s * w)) := by
      have : s * (w * (1 + s * w)) = (s * w) * (1 + s * w) := by ring
      rw [this, hws]; nlinarith
    exact mul_left_cancel₀ hs0.ne' this
  have h1 : 1 + s * u = (1 + s * w) * (1 + w * (u - w)) := by
    nlinarith
  have h2 : 1 + w * (u - w) ≤ exp ((u ^ 2 - w ^ 2) / 2) := by
    have := Real.add_one_le_exp ((u ^ 2 - w ^ 2) / 2)
    nlinarith [sq_nonneg (u - w)]
  have h3 : exp (-w ^ 2 / 2) = exp ((u ^ 2 - w ^ 2) / 2) * exp (-u ^ 2 / 2) := by
    rw [← Real.exp_add]; congr 1; ring
  rw [h3, h1]
  have hp : 0 < 1 + s * w := by positivity
  have := mul_le_mul_of_nonneg_left h2 hp.le
  have := mul_le_mul_of_nonneg_right this (Real.exp_pos (-u ^ 2 / 2)).le
  linarith

/-- `x + D y ≤ √d √(x²+y²)` with `D = √(d-1)`. -/
theorem cs {d : ℝ} (hd : 1 ≤ d) {x y : ℝ} : x + √(d - 1) * y ≤ √d * √(x ^ 2 + y ^ 2) := by
  rw [← Real.sqrt_mul (by linarith)]
  apply Real.le_sqrt_of_sq_le
  have hD : √(d - 1) ^ 2 = d - 1 := Real.sq_sqrt (by linarith)
  nlinarith [sq_nonneg (√(d - 1) * x - y)]

theorem se_xy {d : ℝ} (hd : 1 ≤ d) (x y : ℝ) : (1 + x + √(d - 1) * y) * exp (-(x ^ 2 + y ^ 2) / 2) ≤ seM d := by
  have h := se_max (by linarith : 0 < d) (√(x ^ 2 + y ^ 2)) (Real.sqrt_nonneg _)
  rw [Real.sq_sqrt (by positivity)] at h
  refine le_trans (mul_le_mul_of_nonneg_right ?_ (Real.exp_pos _).le) h
  have := cs hd (x := x) (y := y)
  linarith

/-- `(x e^{-1}) ≤ e^{x-1}/e ...`: `t ≤ e^{t-1}`. -/
theorem le_exp_sub_one (t : ℝ) : t ≤ exp (t - 1) := by
  have := Real.add_one_le_exp (t - 1); linarith

/-- Gradient row, squared exponential. -/
theorem se_grad {d : ℝ} (hd : 1 ≤ d) {a b : ℝ} (ha : 0 ≤ a) (hb : 0 ≤ b) :
    (a + |1 - a ^ 2| + a * (√(d - 1) * b)) * exp (-(a ^ 2 + b ^ 2) / 2) ≤ seM d := by
  have hS : 0 ≤ √(d - 1) * b := by positivity
  set S := √(d - 1) * b with hSdef
  rcases le_total a 1 with h1 | h1
  · refine le_trans (mul_le_mul_of_nonneg_right ?_ (Real.exp_pos _).le) (se_xy hd a b)
    rw [abs_of_nonneg (by nlinarith)]
    nlinarith
  · have h := se_xy hd 1 b
    rw [← hSdef] at h
    refine le_trans ?_ h
    rw [abs_of_nonpos (by nlinarith)]
    have e1 : exp (-(1 ^ 2 + b ^ 2) / 2) = exp ((a ^ 2 - 1) / 2) * exp (-(a ^ 2 + b ^ 2) / 2) := by
      rw [← Real.exp_add]; congr 1; ring
    rw [e1, ← mul_assoc (1 + 1 + S)]
    refine mul_le_mul_of_nonneg_right ?_ (Real.exp_pos _).le
    have hE := Real.add_one_le_exp ((a ^ 2 - 1) / 2)
    have hE2 : exp ((a ^ 2 - 1) / 2) = exp ((a ^ 2 - 1) / 4) ^ 2 := by rw [← Real.exp_nat_mul]; congr 1; push_cast; ring
    have hE3 := Real.add_one_le_exp ((a ^ 2 - 1) / 4)
    have hE4 : a ^ 2 - 1 ≤ exp ((a ^ 2 - 1) / 2) := by rw [hE2]; have := pow_le_pow_left₀ (by nlinarith) hE3 2; nlinarith [sq_nonneg ((a ^ 2 - 1) / 4 - 1)]
    have hE5 : a ≤ exp ((a ^ 2 - 1) / 2) := by nlinarith [sq_nonneg (a - 1)]
    nlinarith

/-! ### Rational quadratic -/

theorem rq_exp {α p w2 : ℝ} (hα : 0 < α) (hp : 1 ≤ p) (hw : w2 = 2 * α * (1 - 1 / p)) : p ^ (-α) ≤ exp (-w2 / 2) := by
  have hp0 : 0 < p := by linarith
  rw [Real.rpow_def_of_pos hp0, Real.exp_le_exp]
  have := Real.one_sub_inv_le_log_of_pos hp0
  rw [hw, one_div]
  nlinarith

/-- `(α+1) (p-1) p^{-α-2} ≤ e^{-1}`. -/
theorem rq_t3 {α p : ℝ} (hα : 0 < α) (hp : 1 ≤ p) : (α + 1) * (p - 1) * p ^ (-α - 2) ≤ exp (-1) := by
  have hp0 : 0 < p := by linarith
  have e : p ^ (-α - 2) = p ^ (-(α + 1)) / p := by
    rw [show (-α - 2 : ℝ) = -(α + 1) - 1 by ring, Real.rpow_sub_one hp0.ne']
  rw [e]
  have h1 := rq_exp (α := α + 1) (by linarith) hp rfl
  set z := 1 - 1 / p with hz
  have hz0 : 0 ≤ z := by rw [hz, sub_nonneg, div_le_one hp0]; exact hp
  have e2 : (α + 1) * (p - 1) * (p ^ (-(α + 1)) / p) = (α + 1) * z * p ^ (-(α + 1)) := by rw [hz]; field_simp
  rw [e2]
  have e3 : -(2 * (α + 1) * z) / 2 = -((α + 1) * z) := by ring
  rw [e3] at h1
  have h2 := le_exp_sub_one ((α + 1) * z)
  have h3 : exp ((α + 1) * z - 1) * exp (-((α + 1) * z)) = exp (-1) := by rw [← Real.exp_add]; congr 1; ring
  have h0 : 0 ≤ (α + 1) * z := by positivity
  calc (α + 1) * z * p ^ (-(α + 1)) ≤ (α + 1) * z * exp (-((α + 1) * z)) := mul_le_mul_of_nonneg_left h1 h0
    _ ≤ exp ((α + 1) * z - 1) * exp (-((α + 1) * z)) := mul_le_mul_of_nonneg_right h2 (Real.exp_pos _).le
    _ = _ := h3

/-- Value row, rational quadratic. -/
theorem rq_val {α d u : ℝ} (hα : 0 < α) (hd : 1 ≤ d) (hu : 0 ≤ u) :
    (1 + u ^ 2 / (2 * α)) ^ (-α) + √d * u * (1 + u ^ 2 / (2 * α)) ^ (-α - 1) ≤ seM d := by
  set p := 1 + u ^ 2 / (2 * α) with hp
  have hp1 : 1 ≤ p := by rw [hp]; have : 0 ≤ u ^ 2 / (2 * α) := by positivity
                         linarith
  have hp0 : 0 < p := by linarith
  have hsp : 0 < √p := Real.sqrt_pos.mpr hp0
  have hsp1 : 1 ≤ √p := by rw [Real.one_le_sqrt]; exact hp1
  have hspp : √p ^ 2 = p := Real.sq_sqrt hp0.le
  have hw : (u / √p) ^ 2 = 2 * α * (1 - 1 / p) := by
    rw [div_pow, hspp, hp]; field_simp; ring
  have h1 := rq_exp hα hp1 hw
  have h2 := se_max (by linarith : 0 < d) (u / √p) (by positivity)
  rw [Real.rpow_sub_one hp0.ne']
  refine le_trans ?_ h2
  have h3 : u / p ≤ u / √p := by
    apply div_le_div_of_nonneg_left hu hsp
    nlinarith
  have hpa : 0 < p ^ (-α) := Real.rpow_pos_of_pos hp0 _
  calc p ^ (-α) + √d * u * (p ^ (-α) / p) = p ^ (-α) * (1 + √d * (u / p)) := by ring
    _ ≤ p ^ (-α) * (1 + √d * (u / √p)) := by
        refine mul_le_mul_of_nonneg_left ?_ hpa.le
        have := mul_le_mul_of_nonneg_left h3 (Real.sqrt_nonneg d)
        linarith
    _ ≤ exp (-(u / √p) ^ 2 / 2) * (1 + √d * (u / √p)) := mul_le_mul_of_nonneg_right h1 (by positivity)
    _ = _ := by ring

set_option maxHeartbeats 2000000 in
/-- Gradient row, rational quadratic. -/
theorem rq_grad {α d a b : ℝ} (hα : 0 < α) (hd : 1 ≤ d) (ha : 0 ≤ a) (hb : 0 ≤ b) {p : ℝ}
    (hp : p = 1 + (a ^ 2 + b ^ 2) / (2 * α)) :
    a * p ^ (-α - 1) + |p ^ (-α - 1) - a ^ 2 * ((1 + 1 / α) * p ^ (-α - 2))|
      + a * (√(d - 1) * b) * ((1 + 1 / α) * p ^ (-α - 2)) ≤ seM d := by
  have hp1 : 1 ≤ p := by rw [hp]; have : 0 ≤ (a ^ 2 + b ^ 2) / (2 * α) := by positivity
                         linarith
  have hp0 : 0 < p := by linarith
  set D := √(d - 1) with hDdef
  have hD0 : 0 ≤ D := Real.sqrt_nonneg _
  have hD2 : D ^ 2 = d - 1 := Real.sq_sqrt (by linarith)
  set c := 1 + 1 / α with hc
  have hc1 : 1 ≤ c := by rw [hc]; have : 0 < 1 / α := by positivity
                         linarith
  have hcα : c * α = α + 1 := by rw [hc]; field_simp
  set q := √p with hq
  have hq0 : 0 < q := Real.sqrt_pos.mpr hp0
  have hq1 : 1 ≤ q := by rw [hq, Real.one_le_sqrt]; exact hp1
  have hqq : q ^ 2 = p := Real.sq_sqrt hp0.le
  set A := a / q with hA
  set B := b / q with hB
  have hA0 : 0 ≤ A := by positivity
  have hB0 : 0 ≤ B := by positivity
  have haA : a = A * q := by rw [hA]; field_simp
  have hbB : b = B * q := by rw [hB]; field_simp
  have hsum : a ^ 2 + b ^ 2 = 2 * α * (p - 1) := by rw [hp]; field_simp; ring
  have hw : A ^ 2 + B ^ 2 = 2 * α * (1 - 1 / p) := by
    rw [hA, hB, div_pow, div_pow, hqq, ← add_div, hsum]; field_simp
  set X := p ^ (-α) with hX
  have hX0 : 0 < X := Real.rpow_pos_of_pos hp0 _
  have hX1 : p ^ (-α - 1) = X / p := Real.rpow_sub_one hp0.ne' _
  have hX2 : p ^ (-α - 2) = X / p ^ 2 := by
    rw [show (-α - 2 : ℝ) = -α - 1 - 1 by ring, Real.rpow_sub_one hp0.ne', hX1]; field_simp
  have hXe : X ≤ exp (-(A ^ 2 + B ^ 2) / 2) := rq_exp hα hp1 hw
  have hXp : X / p ≤ exp (-(c * (A ^ 2 + B ^ 2)) / 2) := by
    have := rq_exp (α := α + 1) (p := p) (w2 := c * (A ^ 2 + B ^ 2)) (by linarith) hp1 (by
      rw [hw]; linear_combination (2 * (1 - 1 / p)) * hcα)
    rwa [show -(α + 1) = -α - 1 by ring, hX1] at this
  have hXp0 : 0 < X / p := by positivity
  have hE1 : exp (-1 : ℝ) ≤ exp (-(1 / 2)) := Real.exp_le_exp.mpr (by norm_num)
  have hE2 : (1 : ℝ) / 2 ≤ exp (-(1 / 2)) := by have := Real.add_one_le_exp (-(1 / 2 : ℝ)); linarith
  -- T1
  have hT1 : a * (X / p) ≤ exp (-(1 / 2)) / q := by
    have e : a * (X / p) = A * X / q := by rw [haA, ← hqq]; field_simp
    rw [e]
    refine div_le_div_of_nonneg_right ?_ hq0.le
    have h1 : A * X ≤ A * exp (-(A ^ 2 + B ^ 2) / 2) := mul_le_mul_of_nonneg_left hXe hA0
    have h2 : A ≤ exp ((A ^ 2 - 1) / 2) := by
      have := Real.add_one_le_exp ((A ^ 2 - 1) / 2); nlinarith [sq_nonneg (A - 1)]
    have h3 : A * exp (-(A ^ 2 + B ^ 2) / 2) ≤ exp ((A ^ 2 - 1) / 2) * exp (-(A ^ 2 + B ^ 2) / 2) :=
      mul_le_mul_of_nonneg_right h2 (Real.exp_pos _).le
    have h4 : exp ((A ^ 2 - 1) / 2) * exp (-(A ^ 2 + B ^ 2) / 2) ≤ exp (-(1 / 2)) := by
      rw [← Real.exp_add, Real.exp_le_exp]; nlinarith [sq_nonneg B]
    linarith
  have hT3 := rq_t3 hα hp1
  rw [hX2] at hT3
  rw [hX1, hX2]
  have h01 := se_xy hd 0 1
  have h01' : (1 + D) * exp (-(1 / 2)) ≤ seM d := by
    refine le_trans (le_of_eq ?_) h01
    rw [← hDdef]; congr 1
    · ring
    · congr 1; norm_num
  -- the second order term
  have e2 : a ^ 2 * (c * (X / p ^ 2)) = c * A ^ 2 * (X / p) := by
    rw [haA, mul_pow, hqq]; field_simp
  have e3 : a * (D * b) * (c * (X / p ^ 2)) = D * (c * A * B) * (X / p) := by
    rw [haA, hbB]
    have : A * q * (D * (B * q)) * (c * (X / p ^ 2)) = A * D * B * q ^ 2 * (c * (X / p ^ 2)) := by ring
    rw [this, hqq]; field_simp
  have eabs : |X / p - a ^ 2 * (c * (X / p ^ 2))| = |1 - c * A ^ 2| * (X / p) := by
    rw [e2, show X / p - c * A ^ 2 * (X / p) = (1 - c * A ^ 2) * (X / p) by ring, abs_mul, abs_of_pos hXp0]
  rw [eabs, e3]
  have eT1 : a * (X / p) = A * q * (X / p) := by rw [haA]
  have hAB : c * (A ^ 2 + B ^ 2) * (X / p) ≤ 2 * exp (-1) := by
    have e : c * (A ^ 2 + B ^ 2) * (X / p) = 2 * ((α + 1) * (p - 1) * (X / p ^ 2)) := by
      rw [hw, ← hcα]; field_simp
    rw [e]; linarith
  rcases le_total (c * A ^ 2) 1 with hs | hs
  · rw [abs_of_nonneg (by linarith)]
    rcases le_total (c * A) 1 with hcA | hcA
    · -- close pairs: compare with the value row at the same place
      have h := se_xy hd A B
      refine le_trans ?_ h
      rw [← hDdef]
      have hpos : 0 ≤ 1 + A + D * B := by positivity
      refine le_trans ?_ (mul_le_mul_of_nonneg_left hXe hpos)
      have hqp : q * (X / p) ≤ X := by
        rw [mul_div_assoc', div_le_iff₀ hp0]; rw [mul_comm X p]; refine mul_le_mul_of_nonneg_right ?_ hX0.le; rw [← hqq, sq]; exact le_mul_of_one_le_left hq0.le hq1
      have hXpX : X / p ≤ X := div_le_self hX0.le hp1
      rw [eT1]
      have t1 : A * q * (X / p) ≤ A * X := by
        rw [mul_assoc]; exact mul_le_mul_of_nonneg_left hqp hA0
      have t2 : (1 - c * A ^ 2) * (X / p) ≤ X := by
        have : 0 ≤ c * A ^ 2 * (X / p) := by positivity
        linarith
      have t3 : D * (c * A * B) * (X / p) ≤ D * B * X := by
        have h1 : D * (c * A * B) ≤ D * B := by
          have : 0 ≤ D * B := by positivity
          calc D * (c * A * B) = (D * B) * (c * A) := by ring
            _ ≤ (D * B) * 1 := mul_le_mul_of_nonneg_left hcA this
            _ = D * B := mul_one _
        exact mul_le_mul h1 hXpX hXp0.le (by positivity)
      linarith
    · rcases le_total q (1 + c * A) with hqc | hqc
      · -- compare with the value row at (A, cAB)
        have h := se_xy hd A (c * A * B)
        refine le_trans ?_ h
        rw [← hDdef]
        have hE : X / p ≤ exp (-(A ^ 2 + (c * A * B) ^ 2) / 2) := by
          refine hXp.trans (Real.exp_le_exp.mpr ?_)
          have h1 : (c * A * B) ^ 2 ≤ c * B ^ 2 := by
            have : (c * A * B) ^ 2 = (c * A ^ 2) * (c * B ^ 2) := by ring
            rw [this]
            have : 0 ≤ c * B ^ 2 := by positivity
            exact mul_le_of_le_one_left this hs
          have h2 : A ^ 2 ≤ c * A ^ 2 := le_mul_of_one_le_left (sq_nonneg A) hc1
          linarith
        have hpos : 0 ≤ 1 + A + D * (c * A * B) := by positivity
        refine le_trans ?_ (mul_le_mul_of_nonneg_left hE hpos)
        rw [eT1, ← add_mul, ← add_mul]
        refine mul_le_mul_of_nonneg_right ?_ hXp0.le
        have : A * q ≤ A * (1 + c * A) := mul_le_mul_of_nonneg_left hqc hA0
        linarith
      · -- far pairs
        refine le_trans ?_ h01'
        have hq2 : 2 ≤ q := by linarith
        have hp4 : 4 ≤ p := by rw [← hqq]; calc (4 : ℝ) = 2 ^ 2 := by norm_num
            _ ≤ q ^ 2 := pow_le_pow_left₀ (by norm_num) hq2 2
        have t1 : a * (X / p) ≤ exp (-(1 / 2)) / 2 := by
          refine hT1.trans ?_
          exact div_le_div_of_nonneg_left (Real.exp_pos _).le (by norm_num) hq2
        have hXle : X ≤ 1 := Real.rpow_le_one_of_one_le_of_nonpos hp1 (by linarith)
        have t2 : (1 - c * A ^ 2) * (X / p) ≤ 1 / 4 := by
          have h1 : X / p ≤ 1 / 4 := by
            rw [div_le_iff₀ hp0]; linarith
          have : 0 ≤ c * A ^ 2 * (X / p) := by positivity
          linarith
        have t3 : D * (c * A * B) * (X / p) ≤ D * exp (-1) := by
          have : c * A * B * (X / p) ≤ exp (-1) := by
            have h1 : 2 * (c * A * B) ≤ c * (A ^ 2 + B ^ 2) := by
              have h0 := mul_nonneg (by linarith : (0 : ℝ) ≤ c) (sq_nonneg (A - B))
              linarith
            have h2 := mul_le_mul_of_nonneg_right h1 hXp0.le
            linarith
          calc D * (c * A * B) * (X / p) = D * (c * A * B * (X / p)) := by ring
            _ ≤ _ := mul_le_mul_of_nonneg_left this hD0
        have t4 : D * exp (-1) ≤ D * exp (-(1 / 2)) := mul_le_mul_of_nonneg_left hE1 hD0
        linarith
  · -- large own coordinate
    rw [abs_of_nonpos (by linarith)]
    have h2 := se_max (by linarith : 0 < d) 1 zero_le_one
    have h2' : (1 + √d) * exp (-(1 / 2)) ≤ seM d := by
      refine le_trans (le_of_eq ?_) h2
      congr 1
      · ring
      · congr 1; norm_num
    refine le_trans ?_ h2'
    have hsd : √d ^ 2 = d := Real.sq_sqrt (by linarith)
    have hsd1 : 1 ≤ √d := by rw [Real.one_le_sqrt]; exact hd
    -- A² + D A B ≤ (1+√d)/2 (A²+B²)
    have hquad : A ^ 2 + D * (A * B) ≤ (1 + √d) / 2 * (A ^ 2 + B ^ 2) := by
      have hD : D ^ 2 = (√d - 1) * (√d + 1) := by linear_combination hD2 - hsd
      have hk : 0 < √d + 1 := by linarith
      have : 0 ≤ (D * A - (√d + 1) * B) ^ 2 := sq_nonneg _
      have e : (D * A - (√d + 1) * B) ^ 2 = (√d + 1) * ((√d - 1) * A ^ 2 - 2 * D * (A * B) + (√d + 1) * B ^ 2) := by
        linear_combination A ^ 2 * hD
      rw [e] at this
      have := nonneg_of_mul_nonneg_right this hk
      linarith
    have t23 : c * (A ^ 2 + D * (A * B)) * (X / p) ≤ (1 + √d) * exp (-1) := by
      have h1 := mul_le_mul_of_nonneg_left hquad (by linarith : (0 : ℝ) ≤ c)
      have h2 := mul_le_mul_of_nonneg_right h1 hXp0.le
      have h3 := mul_le_mul_of_nonneg_left hAB (by linarith : (0 : ℝ) ≤ (1 + √d) / 2)
      linarith
    -- (a-1) X/p ≤ 1/(2e)
    have t1 : (A * q - 1) * (X / p) ≤ exp (-1) / 2 := by
      have h1 : (A * q - 1) / p ≤ A ^ 2 / 4 := by
        rw [div_le_iff₀ hp0, ← hqq]; linarith [sq_nonneg (A * q - 2)]
      have e : (A * q - 1) * (X / p) = (A * q - 1) / p * X := by ring
      rw [e]
      have h3 : A ^ 2 / 4 * X ≤ A ^ 2 / 4 * exp (-(A ^ 2) / 2) := by
        refine mul_le_mul_of_nonneg_left (hXe.trans (Real.exp_le_exp.mpr ?_)) (by positivity)
        linarith [sq_nonneg B]
      have h4 := le_exp_sub_one (A ^ 2 / 2)
      have h5 : A ^ 2 / 2 * exp (-(A ^ 2) / 2) ≤ exp (A ^ 2 / 2 - 1) * exp (-(A ^ 2) / 2) :=
        mul_le_mul_of_nonneg_right h4 (Real.exp_pos _).le
      have h6 : exp (A ^ 2 / 2 - 1) * exp (-(A ^ 2) / 2) = exp (-1) := by rw [← Real.exp_add]; congr 1; ring
      have h7 := mul_le_mul_of_nonneg_right h1 hX0.le
      linarith
    have hE3 : exp (-1 : ℝ) * (3 / 2) ≤ exp (-(1 / 2)) := by
      have h1 : exp (-(1 / 2) : ℝ) = exp (-1) * exp (1 / 2) := by rw [← Real.exp_add]; congr 1; norm_num
      rw [h1]
      have := Real.add_one_le_exp (1 / 2 : ℝ)
      exact mul_le_mul_of_nonneg_left (by linarith) (Real.exp_pos _).le
    have hE0 : 0 < exp (-1 : ℝ) := Real.exp_pos _
    rw [eT1]
    have hE4 := mul_le_mul_of_nonneg_left hE3 (by linarith : (0 : ℝ) ≤ 1 + √d)
    have hE5 := mul_nonneg (Real.sqrt_nonneg d) hE0.le
    linarith

end RB
