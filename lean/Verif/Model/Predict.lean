import Verif.Model.OptzHp

/-! Model of `eval_model` and `eval_model_var` on the whole object: eval/GpEvalModel.py:59-317. -/

open Np

noncomputable section

namespace GP

/-- `eval_model` after the check of the hyperparameters, with or without data scaling: eval/GpEvalModel.py:116-198. -/
def GpObj.evalWith (o : GpObj) (g : Gp) (e : EvalState g.nData) (hp : HpVals) (X : Arr2) (calcGrad calcHess : Bool) : Py Obj6 :=
  if o.useScl then
    match o.scl with
    | some s => evalModelScl s g e hp X calcGrad calcHess
    | none => .error .attribute
  else do
    let r ← evalModel g e hp X calcGrad calcHess
    pure r.arrs

/-- What `setup_eval_model` stored for `n` data, used for `m` data: `cho_solve` raises if the numbers differ. -/
def EvalState.cast {n : ℕ} (e : EvalState n) (m : ℕ) : Py (EvalState m) :=
  if h : n = m then .ok (h ▸ e) else .error .shape

open Classical in
/-- `eval_model` (without `squeeze_nx`) on the whole object: eval/GpEvalModel.py:59-198. The hyperparameters are compared by value with
the copy made by `setup_eval_model`; the identity of the arrays is modelled in `Model/HpGuard`. NaN in the hyperparameters is not
modelled (the model raises). The matrices are those of the last `setup_eval_model` that got as far as storing them, the points
those of the last `set_data` (line 124). If the getter of the objective data would raise, so does the model (the code only calls the
getter of the points). -/
def Session.predict (X : Arr2) (calcGrad calcHess : Bool) (s : Session) : Py Obj6 :=
  match s.ev, s.hp with
  | some ⟨_, e⟩, some h =>
    if s.setupHp = some h then                                                                  -- lines 108-114
      match h.nums with
      | none => .error .raised
      | some hp => do
        let g ← s.obj.view
        let e ← e.cast g.nData
        s.obj.evalWith g { e with hp := hp } hp X calcGrad calcHess
    else .error .raised
  | _, _ => .error .attribute

end GP
