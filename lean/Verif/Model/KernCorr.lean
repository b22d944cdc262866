import Verif.Model.Kernel

/-! Model of the correlation functions of `gpgradpy/plt/plt_kern_corr.py`, entry by entry (numpy applies them to a vector of
normalised distances `rvec`). -/

noncomputable section

namespace GP

/-- `calc_sq_exp_1d_corr`: plt/plt_kern_corr.py:53-61. -/
def sqExp1dCorr (r : ℝ) : ℝ × ℝ × ℝ :=
  let k := Real.exp (-0.5 * r ^ 2)
  (k * 1, -r * k, (1 - r ^ 2) * k)

/-- `calc_sq_exp_2d_corr`: plt/plt_kern_corr.py:63-64. The function reads the module variables `Xrvec`, `Yrvec` (here `gx`, `gy`)
and not its arguments. -/
def sqExp2dCorr (gx gy _xIn _yIn : ℝ) : ℝ := -gx * gy * Real.exp (-0.5 * (gx ^ 2 + gy ^ 2))

/-- `calc_Ma5f2_1d_corr`: plt/plt_kern_corr.py:66-75. -/
def ma5f21dCorr (r : ℝ) : ℝ × ℝ × ℝ :=
  let rnorm := |r|
  let A := Real.exp (-Real.sqrt 3 * rnorm)
  ((1 + Real.sqrt 3 * rnorm + rnorm ^ 2) * A, -r * (1 + Real.sqrt 3 * rnorm) * A,
    ((1 + Real.sqrt 3 * rnorm) - 3 * r ^ 2) * A)

/-- `calc_rat_qd_corr`: plt/plt_kern_corr.py:77-84. -/
def ratQd1dCorr (r alpha : ℝ) : ℝ × ℝ × ℝ :=
  let base := 1 + r ^ 2 / (2 * alpha)
  (base ^ (-alpha), -r * base ^ (-alpha - 1),
    base ^ (-alpha - 1) - r ^ 2 * ((alpha + 1) / alpha) * base ^ (-alpha - 2))

/-- The three curves that the script plots for a kernel: plt/plt_kern_corr.py:87-89. -/
def corr1d (k : KType) (r alpha : ℝ) : ℝ × ℝ × ℝ :=
  match k with
  | .sqExp => sqExp1dCorr r
  | .matern => ma5f21dCorr r
  | .ratQuad => ratQd1dCorr r alpha

end GP
