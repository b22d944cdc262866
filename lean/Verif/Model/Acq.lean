import Verif.Model.ParaDef
import Mathlib.Probability.Distributions.Gaussian.Real
import Mathlib.Probability.CDF

/-! Model of the acquisition functions of `gpgradpy/plt/plt_acq.py` and `gpgradpy/plt/plt_surr_1d.py`, entry by entry.
`scipy.stats.norm.cdf` and `norm.pdf` are the distribution function and the density of the standard normal distribution. -/

noncomputable section

namespace GP

/-- `norm.cdf(z)`: the probability that a standard normal variable is at most `z`. -/
def normCdf (z : ℝ) : ℝ := ProbabilityTheory.cdf (ProbabilityTheory.gaussianReal 0 1) z

/-- `norm.pdf(z)`. -/
def normPdf (z : ℝ) : ℝ := Real.exp (-z ^ 2 / 2) / Real.sqrt (2 * Real.pi)

/-- `calc_acq_upper_conf`: plt/plt_acq.py:37-38, plt/plt_surr_1d.py:69-70. -/
def acqUpperConf (mu sig : ℝ) (beta : ℝ := 2) : ℝ := mu - beta * sig

open Classical in
/-- `calc_acq_exp_improvement`: plt/plt_acq.py:40-42, plt/plt_surr_1d.py:72-74. For `fsig = 0` the quotient is infinite, so that
`norm.cdf` is 1 or 0 and `norm.pdf` is 0, or NaN (`none`) if `fval_best = fmu`. -/
def acqExpImp (mu sig best : ℝ) : Fl :=
  if sig = 0 then
    if best = mu then none else if mu < best then some (-((best - mu) * 1 + sig * 0)) else some (-((best - mu) * 0 + sig * 0))
  else
    let z := (best - mu) / sig
    some (-((best - mu) * normCdf z + sig * normPdf z))

end GP
