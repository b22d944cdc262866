import Verif.Proofs.RowBound

/-! The same bounds for the Matérn 5/2 kernel. -/

noncomputable section

namespace RB

open Real Set

/-- The maximiser in units of `√d`. -/
def maAl (d : ℝ) : ℝ := (√(3 * d) - 1 + √(15 * d + 2 * √(3 * d) + 1)) / (2 * (3 * d + √(3 * d)))

/-- The bound for the Matérn 5/2 kernel. -/
def maM (d : ℝ) : ℝ :=
  (1 + (d + √(3 * d)) * maAl d + d * (1 + √(3 * d)) * maAl d ^ 2) * exp (-√(3 * d) * maAl d)

/-- The row function. -/
def maH (s u : ℝ) : ℝ := (1 + (√3 + s) * u + (1 + √3 * s) * u ^ 2) * exp (-√3 * u)

theorem three_sq : √3 ^ 2 = 3 := Real.sq_sqrt (by norm_num)
theorem three_lo : (1.732 : ℝ) < √3 := by rw [Real.lt_sqrt (by norm_num)]; norm_num
theorem three_hi : √3 < (1.733 : ℝ) := by rw [Real.sqrt_lt' (by norm_num)]; norm_num

theorem maH_deriv (s u : ℝ) : HasDerivAt (maH s) ((s + (√3 * s - 1) * u - (√3 + 3 * s) * u ^ 2) * exp (-√3 * u)) u := by
  have h1 : HasDerivAt (fun u : ℝ => 1 + (√3 + s) * u + (1 + √3 * s) * u ^ 2)
      ((√3 + s) + (1 + √3 * s) * (2 * u)) u := by
    have a := ((hasDerivAt_id' u).const_mul (√3 + s)).const_add 1
    have b := ((hasDerivAt_id' u).fun_pow 2).const_mul (1 + √3 * s)
    exact (a.fun_add b).congr_deriv (by push_cast; ring)
  have h2 : HasDerivAt (fun u : ℝ => exp (-√3 * u)) (exp (-√3 * u) * (-√3)) u :=
    (((hasDerivAt_id' u).const_mul (-√3)).exp).congr_deriv (by ring)
  refine (h1.fun_mul h2).congr_deriv ?_
  linear_combination (-(u + s * u ^ 2) * exp (-√3 * u)) * three_sq

theorem maAl_root {d : ℝ} (hd : 0 < d) : 0 < maAl d ∧
    1 + (√(3 * d) - 1) * maAl d - (√(3 * d) + 3 * d) * maAl d ^ 2 = 0 := by
  set t := √(3 * d) with ht
  have ht0 : 0 < t := Real.sqrt_pos.mpr (by linarith)
  have htt : t ^ 2 = 3 * d := Real.sq_sqrt (by linarith)
  set R := √(15 * d + 2 * t + 1) with hR
  have hR0 : 0 < R := Real.sqrt_pos.mpr (by linarith)
  have hRR : R ^ 2 = 15 * d + 2 * t + 1 := Real.sq_sqrt (by linarith)
  have hP : 0 < 3 * d + t := by linarith
  have hal : maAl d * (2 * (3 * d + t)) = t - 1 + R := by
    unfold maAl; rw [← ht, ← hR]; field_simp
  set α := maAl d
  have hpos : 0 < t - 1 + R := by nlinarith
  refine ⟨?_, ?_⟩
  · exact pos_of_mul_pos_left (hal ▸ hpos) (by linarith)
  · have h : (α * (2 * (3 * d + t)) - (t - 1)) ^ 2 = R ^ 2 := by rw [hal]; ring
    have h2 : 4 * (3 * d + t) * (1 + (t - 1) * α - (t + 3 * d) * α ^ 2) = 0 := by
      linear_combination (-1) * hRR - h + htt
    have := mul_eq_zero.mp h2
    rcases this with h | h
    · linarith
    · exact h

theorem ma_max {d : ℝ} (hd : 0 < d) {u : ℝ} (hu : 0 ≤ u) : maH (√d) u ≤ maM d := by
  set s := √d with hs
  have hs0 : 0 < s := Real.sqrt_pos.mpr hd
  have hss : s ^ 2 = d := Real.sq_sqrt hd.le
  have ht : √(3 * d) = √3 * s := by rw [Real.sqrt_mul (by norm_num)]
  obtain ⟨ha0, hroot⟩ := maAl_root hd
  rw [ht] at hroot
  set u0 := s * maAl d with hu0
  have hu0p : 0 < u0 := by positivity
  have hM : maM d = maH s u0 := by
    unfold maM maH
    rw [ht, hu0]
    congr 1
    · rw [← hss]; ring
    · congr 1; ring
  have hQ0 : s + (√3 * s - 1) * u0 - (√3 + 3 * s) * u0 ^ 2 = 0 := by
    rw [hu0]
    linear_combination s * hroot + (-3 * s * maAl d ^ 2) * hss
  have h3 : 0 < √3 := by positivity
  have hfac : ∀ x, s + (√3 * s - 1) * x - (√3 + 3 * s) * x ^ 2 = (u0 - x) * (s / u0 + (√3 + 3 * s) * x) := by
    intro x
    field_simp
    linear_combination x * hQ0
  rw [hM]
  have hcont : Continuous (maH s) := by unfold maH; fun_prop
  rcases le_total u u0 with h | h
  · have hm : MonotoneOn (maH s) (Icc 0 u0) := by
      refine monotoneOn_of_deriv_nonneg (convex_Icc 0 u0) hcont.continuousOn
        (fun x _ => (maH_deriv s x).differentiableAt.differentiableWithinAt) ?_
      intro x hx
      rw [interior_Icc] at hx
      rw [(maH_deriv s x).deriv, hfac]
      have h1 : 0 ≤ u0 - x := by linarith [hx.2]
      have h2 := hx.1.le
      positivity
    exact hm ⟨hu, h⟩ ⟨hu0p.le, le_rfl⟩ h
  · have hm : AntitoneOn (maH s) (Ici u0) := by
      refine antitoneOn_of_deriv_nonpos (convex_Ici u0) hcont.continuousOn
        (fun x _ => (maH_deriv s x).differentiableAt.differentiableWithinAt) ?_
      intro x hx
      rw [interior_Ici] at hx
      rw [(maH_deriv s x).deriv, hfac]
      have h1 : 0 ≤ x - u0 := by linarith [mem_Ioi.mp hx]
      have h2 : 0 ≤ x := by linarith
      have : 0 ≤ (x - u0) * (s / u0 + (√3 + 3 * s) * x) * exp (-√3 * x) := by positivity
      linarith
    exact hm (mem_Ici.mpr le_rfl) h h

/-- Value row, Matérn 5/2, as a function of the norm `u` and of a bound `S ≤ √d u` on the sum of the coordinates. -/
theorem ma_val {d : ℝ} (hd : 1 ≤ d) {u S : ℝ} (hu : 0 ≤ u) (hS : S ≤ √d * u) :
    (1 + √3 * u + u ^ 2 + (1 + √3 * u) * S) * exp (-√3 * u) ≤ maM d := by
  refine le_trans (mul_le_mul_of_nonneg_right ?_ (Real.exp_pos _).le) (ma_max (by linarith) hu)
  have h3 : 0 < √3 := by positivity
  have := mul_le_mul_of_nonneg_left hS (by positivity : 0 ≤ 1 + √3 * u)
  linarith

/-- Gradient row, Matérn 5/2. -/
theorem ma_grad {d : ℝ} (hd : 1 ≤ d) {a b u : ℝ} (ha : 0 ≤ a) (hb : 0 ≤ b) (hu : u = √(a ^ 2 + b ^ 2)) :
    (a * (1 + √3 * u) + |1 + √3 * u - 3 * a ^ 2| + 3 * a * (√(d - 1) * b)) * exp (-√3 * u) ≤ maM d := by
  have hu0 : 0 ≤ u := by rw [hu]; exact Real.sqrt_nonneg _
  have huu : u ^ 2 = a ^ 2 + b ^ 2 := by rw [hu]; exact Real.sq_sqrt (by positivity)
  have hau : a ≤ u := by
    refine le_of_sq_le_sq ?_ hu0
    rw [huu]; linarith [sq_nonneg b]
  have hcs : a + √(d - 1) * b ≤ √d * u := by rw [hu]; exact cs hd
  set D := √(d - 1) with hDdef
  have hD0 : 0 ≤ D := Real.sqrt_nonneg _
  have hD2 : D ^ 2 = d - 1 := Real.sq_sqrt (by linarith)
  have hsd : √d ^ 2 = d := Real.sq_sqrt (by linarith)
  have hs1 : 1 ≤ √d := by rw [Real.one_le_sqrt]; exact hd
  set s := √d with hsdef
  have hDs : D ≤ s := by
    refine le_of_sq_le_sq ?_ (by linarith)
    rw [hD2, hsd]; linarith
  have h3 := three_sq
  have h3l := three_lo
  have h3h := three_hi
  set z := √3 with hz
  set t := z * u with htdef
  have ht0 : 0 ≤ t := by positivity
  have ht2 : t ^ 2 = 3 * u ^ 2 := by rw [htdef, mul_pow, h3]
  have hut : u = z * t / 3 := by rw [htdef]; linear_combination (-u / 3) * h3
  have hut' : u ≤ 0.578 * t := by
    rw [hut]
    have := mul_le_mul_of_nonneg_right h3h.le ht0
    linarith
  -- lower bound on the maximum
  have hM2 : exp (-2) * (13 / 3 + 2 * z * s) ≤ maM d := by
    have h := ma_max (by linarith : 0 < d) (u := 2 * z / 3) (by positivity)
    refine le_trans (le_of_eq ?_) h
    unfold maH
    rw [← hsdef, ← hz]
    rw [show -z * (2 * z / 3) = -2 by linear_combination (-2 / 3) * h3]
    linear_combination (-(exp (-2)) * (10 / 9 + 4 * s * z / 9)) * h3
  -- e^{-t} in terms of e^{-2}
  have hexp : (t / 2) ^ 2 * exp (-t) ≤ exp (-2) := by
    have h1 := Real.add_one_le_exp (t / 2 - 1)
    have h2 : (t / 2) ^ 2 ≤ exp (t / 2 - 1) ^ 2 := pow_le_pow_left₀ (by positivity) (by linarith) 2
    have h3 : exp (t / 2 - 1) ^ 2 = exp (t - 2) := by rw [← Real.exp_nat_mul]; congr 1; push_cast; ring
    rw [h3] at h2
    have h4 := mul_le_mul_of_nonneg_right h2 (Real.exp_pos (-t)).le
    have h5 : exp (t - 2) * exp (-t) = exp (-2) := by rw [← Real.exp_add]; congr 1; ring
    linarith
  have hE : 0 < exp (-2 : ℝ) := Real.exp_pos _
  rw [show -z * u = -t by rw [htdef]; ring]
  have hEt : 0 < exp (-t) := Real.exp_pos _
  rcases le_total (3 * a ^ 2) (1 + t) with hc | hc
  · rw [abs_of_nonneg (by linarith)]
    rcases le_total (3 * a) (1 + t) with hc2 | hc2
    · have hv := ma_val hd hu0 hcs
      rw [← hz, show -z * u = -t by rw [htdef]; ring, ← htdef] at hv
      refine le_trans (mul_le_mul_of_nonneg_right ?_ hEt.le) hv
      have h1 : 3 * a * (D * b) ≤ (1 + t) * (D * b) := mul_le_mul_of_nonneg_right hc2 (by positivity)
      have h2 : 0 ≤ 3 * a ^ 2 := by positivity
      have h4 : 0 ≤ u ^ 2 := by positivity
      linarith
    · refine le_trans ?_ hM2
      -- 1.366 ≤ t
      have htl : 1.36 ≤ t := by
        have : 3 * u ≥ 1 + t := by linarith
        have : z * t ≥ 1 + t := by rw [hut] at this; linarith
        have := mul_le_mul_of_nonneg_right h3h.le ht0
        linarith
      have h1 : a * (1 + t) ≤ 0.578 * t * (1 + t) := mul_le_mul_of_nonneg_right (by linarith) (by linarith)
      have h2 : (1 + t) ^ 2 / 3 ≤ 3 * a ^ 2 := by
        have := pow_le_pow_left₀ (by linarith) hc2 2
        linarith
      have htq : 1.36 * t ≤ t ^ 2 := by rw [sq]; exact mul_le_mul_of_nonneg_right htl ht0
      have h5 : 3 * a * (D * b) ≤ D * (t ^ 2 / 2) := by
        have h0 := mul_nonneg hD0 (sq_nonneg (a - b))
        rw [ht2, huu]; linarith
      have h6 : a * (1 + t) + (1 + t - 3 * a ^ 2) ≤ 5.79 * (t / 2) ^ 2 := by linarith
      have h7 : a * (1 + t) + (1 + t - 3 * a ^ 2) + 3 * a * (D * b) ≤ (5.79 + 2 * D) * (t / 2) ^ 2 := by linarith
      have h8 := mul_le_mul_of_nonneg_right h7 hEt.le
      have h9 := mul_le_mul_of_nonneg_left hexp (by linarith : 0 ≤ 5.79 + 2 * D)
      have h10 : 5.79 + 2 * D ≤ 13 / 3 + 2 * z * s := by
        have := mul_le_mul_of_nonneg_right h3l.le (by linarith : 0 ≤ s)
        linarith
      have h11 := mul_le_mul_of_nonneg_left h10 hE.le
      linarith
  · rw [abs_of_nonpos (by linarith)]
    refine le_trans ?_ hM2
    have hquad : a ^ 2 + D * (a * b) ≤ (1 + s) / 2 * (a ^ 2 + b ^ 2) := by
      have hD : D ^ 2 = (s - 1) * (s + 1) := by linear_combination hD2 - hsd
      have hk : 0 < s + 1 := by linarith
      have : 0 ≤ (D * a - (s + 1) * b) ^ 2 := sq_nonneg _
      have e : (D * a - (s + 1) * b) ^ 2 = (s + 1) * ((s - 1) * a ^ 2 - 2 * D * (a * b) + (s + 1) * b ^ 2) := by
        linear_combination a ^ 2 * hD
      rw [e] at this
      have := nonneg_of_mul_nonneg_right this hk
      linarith
    have h1 : 3 * (a ^ 2 + D * (a * b)) ≤ 2 * (1 + s) * (t / 2) ^ 2 := by
      have : 2 * (1 + s) * (t / 2) ^ 2 = 3 * ((1 + s) / 2 * (a ^ 2 + b ^ 2)) := by
        rw [← huu]; linear_combination ((1 + s) / 2) * ht2
      rw [this]; linarith
    have h2 : (a - 1) * (1 + t) ≤ 7 / 3 * (t / 2) ^ 2 := by
      have : (a - 1) * (1 + t) ≤ (0.578 * t - 1) * (1 + t) := mul_le_mul_of_nonneg_right (by linarith) (by linarith)
      have := sq_nonneg t
      linarith
    have h3 : a * (1 + t) + -(1 + t - 3 * a ^ 2) + 3 * a * (D * b) ≤ (7 / 3 + 2 * (1 + s)) * (t / 2) ^ 2 := by linarith
    have h8 := mul_le_mul_of_nonneg_right h3 hEt.le
    have h9 := mul_le_mul_of_nonneg_left hexp (by linarith : 0 ≤ 7 / 3 + 2 * (1 + s))
    have h10 : 7 / 3 + 2 * (1 + s) ≤ 13 / 3 + 2 * z * s := by
      have := mul_le_mul_of_nonneg_right h3l.le (by linarith : 0 ≤ s)
      linarith
    have h11 := mul_le_mul_of_nonneg_left h10 hE.le
    linarith

theorem one_le_seM {d : ℝ} (hd : 1 ≤ d) : 1 ≤ seM d := by
  have := se_max (by linarith : 0 < d) 0 le_rfl
  simpa using this

theorem one_le_maM {d : ℝ} (hd : 1 ≤ d) : 1 ≤ maM d := by
  have := ma_max (by linarith : 0 < d) (u := 0) le_rfl
  simpa [maH] using this

end RB
