import Verif.Model.EvalModel
import Verif.Model.Rescale

/-! Model of prediction with data scaling: the getters and conversions of GaussianProcess.py:399-457 and the scaling in
`eval_model` (eval/GpEvalModel.py:121-122, 182-184). -/

open Np

noncomputable section

namespace GP

/-- The object as the likelihood and evaluation code sees it when data scaling is on: `get_scl_x_w_dist` and
`get_scl_eval_data` (GaussianProcess.py:399-404, 423-433); `g0` holds the data given to `set_data`. Where the noise level is
not known the getter returns `None` instead of the standard deviations; the readers check the flags themselves. -/
def sclView (g0 : Gp) (s : Scl) : Py Gp := do
  let r ← objInit2Scl s { mu := some g0.fval, sig := g0.stdFval, dmu := g0.grad, dsig := g0.stdGrad }
  match r.mu with
  | some v => pure { g0 with x := s.xScl, fval := v, stdFval := r.sig, grad := r.dmu, stdGrad := r.dsig }
  | none => .error .typeError

/-- The result of `eval_model` as numpy arrays; Hessians have the shape `(1, dim, dim)` (eval/GpEvalModel.py:363, 382). -/
def EvalOut.arrs {nx dim : ℕ} (o : EvalOut nx dim) : Obj6 where
  mu := some ⟨nx, fun a => if h : a < nx then o.mu ⟨a, h⟩ else 0⟩
  sig := some ⟨nx, fun a => if h : a < nx then o.sig ⟨a, h⟩ else 0⟩
  dmu := o.dmu.map fun M => ⟨nx, dim, fun a i => if h : a < nx ∧ i < dim then M ⟨a, h.1⟩ ⟨i, h.2⟩ else 0⟩
  dsig := o.dsig.map fun M => ⟨nx, dim, fun a i => if h : a < nx ∧ i < dim then M ⟨a, h.1⟩ ⟨i, h.2⟩ else 0⟩
  d2mu := o.d2mu.map fun M => ⟨1, dim, dim, fun _ e i => if h : e < dim ∧ i < dim then M ⟨e, h.1⟩ ⟨i, h.2⟩ else 0⟩
  d2sig := o.d2sig.join.map fun M => ⟨1, dim, dim, fun _ e i => if h : e < dim ∧ i < dim then M ⟨e, h.1⟩ ⟨i, h.2⟩ else 0⟩

/-- `eval_model` with data scaling (without `squeeze_nx`): the points are scaled (line 122), the model is evaluated in scaled
coordinates, and the results are converted back with `data_scl_2_init` (line 184). `d2sig` is absent both for `None` and for an
array of NaN. -/
def evalModelScl (s : Scl) (g : Gp) (st : EvalState g.nData) (hp : HpVals) (X : Arr2) (calcGrad calcHess : Bool) : Py Obj6 := do
  let X' ← xInit2Scl s X
  let o ← evalModel g st hp X' calcGrad calcHess
  objScl2Init s o.arrs

/-- `eval_model_var` with data scaling raises: eval/GpEvalModel.py:254-256. The comparison of the hyperparameters comes first,
and also raises `Exception`. -/
def evalModelVarScl (s : Scl) (g : Gp) (_st : EvalState g.nData) (_hp : HpVals) (_X : Arr2) (_calcGrad _calcHess : Bool) : Py Obj6 :=
  .error .raised

end GP
