import Verif.Model.Sweep
import Verif.Model.Acq

/-! Model of the computations of `plt/plt_acq.py` with `plt/SurrPlt.py: plot_acq`: a surrogate with fixed length scale, two acquisition functions on a grid and
the points marked as their minima. -/

open Np

noncomputable section

namespace GP

/-- `np.argmin`: the first NaN if there is one. -/
def argminFl (l : List Fl) : Py ℕ :=
  match l.findIdx? Option.isNone with
  | some i => .ok i
  | none => nanArgmin l

/-- A column of `acq_val_all`: plt/plt_acq.py:116-127. -/
def acqColumn {nx dim : ℕ} (out : EvalOut nx dim) (beta : ℝ) : FVec :=
  ⟨nx, fun i => if h : i < nx then some (acqUpperConf (out.mu ⟨i, h⟩) (out.sig ⟨i, h⟩) beta) else some 0⟩

/-- What is drawn of a column and the position marked as its minimum. First `acq_val_scl_all` (plt/plt_acq.py:134-137, the formula of `ln_lkd_scl` of
plt/plt_surr_1d.py, 0/0 is NaN), then `plot_acq` with `b_scl_data` (plt/SurrPlt.py:91-94) and `np.argmin` (line 109). -/
def acqPlotCol (v : FVec) : Py (FVec × ℕ) := do
  let s ← sweepScl v
  let w ← acqScl s
  let k ← argminFl ((List.range w.n).map w.get)
  pure (w, k)

/-- The computations of the script: plt/plt_acq.py:98-137 and the calls of `plot_acq`. -/
def acqRun (g : Gp) (env : LkdEnv) (theta : Arr1) (X : Arr2) : Py (EvalOut X.r g.dim × (FVec × ℕ) × (FVec × ℕ)) := do
  let r ← calcLkdAll g env { theta := some theta } true false                                     -- line 99
  let b ← need r.1.beta                                                                           -- line 101
  let hp : HpVals := { beta := some ⟨1, fun _ => b ⟨0, Nat.one_pos⟩⟩, theta := some theta, varK := r.1.varK } -- line 106
  let st ← setupEvalModel g hp false                                                              -- line 109
  let out ← evalModel g st hp X true false                                                        -- line 111
  let a1 ← acqPlotCol (acqColumn out 0)
  let a2 ← acqPlotCol (acqColumn out 2)
  pure (out, a1, a2)

end GP
