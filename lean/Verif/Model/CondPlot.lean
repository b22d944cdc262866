import Verif.Model.PlotData
import Verif.Model.LkdAll

/-! Model of `calc_cond_lkd` of `plt/plt_cond.py`: the condition number and the likelihood for all pairs of length scales on a grid. -/

open Np

noncomputable section

namespace GP

/-- `varK`: plt/plt_cond.py:89. -/
def condVarK : ℝ := 1 / 10

/-- `GP.make_hp_class(varK = varK, theta = theta, kernel = hp_kernel)`: plt/plt_cond.py:180 and 187-188. -/
def condHp (g : Gp) (s t : ℝ) : HpVals :=
  { theta := some ⟨2, fun d => if d = 0 then s else t⟩, kernel := hpKernelDefault g.kernel, varK := some condVarK }

/-- `lkd_info.ln_lkd` of one pair; `None` stored in an array of floats is NaN: plt/plt_cond.py:189 and 191. -/
def cellLkd (g : Gp) (env : LkdEnv) (s t : ℝ) : Py Fl := do
  let r ← calcLkdAll g env (condHp g s t) true false
  pure r.1.lnLkd

/-- `lkd_info.cond` of one pair: plt/plt_cond.py:189 and 192. -/
def cellCond (g : Gp) (env : LkdEnv) (s t : ℝ) : Py Fl := do
  let r ← calcLkdAll g env (condHp g s t) true false
  pure r.1.cond

/-- `calc_cond_lkd` after the object is made: plt/plt_cond.py:180-205. The two arrays are filled by the same pass in the code; they are filled one after the
other here. `np.log10` is only applied to positive numbers (`Props.C134_grid`). -/
def calcCondLkd (g : Gp) (env : LkdEnv) (n : ℕ) (theta gamma : ℕ → ℝ) : Py (FMat × FMat × Option (ℝ × ℝ)) := do
  let L ← gridLkd n theta (cellLkd g env)
  let C ← gridLkd n theta (cellCond g env)
  let r ← gridMax n gamma L
  pure (⟨C.r, C.c, fun i j => (C.get i j).map (Real.logb 10)⟩, L, r)

end GP
