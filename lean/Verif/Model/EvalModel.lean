import Verif.Model.MeanFun
import Verif.Model.CommonFun

/-! Model of `gpgradpy/src/eval/GpEvalModel.py`, in scaled coordinates (the conversions from and to the original
coordinates are modelled with `Rescaling`). Arrays whose shapes have been checked are Mathlib matrices. -/

open Np Matrix

noncomputable section

namespace GP

/-- The attributes that `setup_eval_model` stores: eval/GpEvalModel.py:25, 46-57. -/
structure EvalState (n : ℕ) where
  /-- `self._hp_vals_model_setup` -/
  hp : HpVals
  dataVec : Vec n
  Kern : Mat n n
  KernEta : Mat n n
  chofac : Option (ChoFac n)
  condK : Option ℝ
  etaK : ℝ
  /-- `self.invKernEta_fdiff` -/
  w : Option (Vec n)

/-- `setup_eval_model`: eval/GpEvalModel.py:17-57. The tensor of differences that `set_data` stores (`get_scl_x_w_dist`) is
recomputed from the points here. -/
def setupEvalModel (g : Gp) (hp : HpVals) (calcCond : Bool) : Py (EvalState g.nData) := do
  let R ← calcRtensor g.x g.x                                                                   -- line 27
  let beta ← need hp.beta
  let mf ← evalMeanFun g.dim nBetaCoeff g.x beta g.bvec g.useGrad false                         -- lines 30-32
  let mvec := makeDataVec mf.1 mf.2.1                                                           -- line 36
  let dvec := makeDataVec g.fval g.grad                                                         -- line 37
  let out ← calcAllK g R hp none true calcCond none true                                        -- lines 39-41
  if dvec.n = g.nData ∧ mvec.n = g.nData then
    pure { hp := hp, dataVec := toVec g.nData dvec, Kern := out.Kern, KernEta := out.Kcov, chofac := out.chofac
           condK := out.condK, etaK := out.etaK
           w := out.chofac.map fun F => choSolveV F (toVec g.nData dvec - toVec g.nData mvec) } -- lines 43-57
  else .error .shape

/-- `Kyx` and `dKxy_dx`: eval/GpEvalModel.py:134-149 (same code in `eval_model_var`, lines 263-278). -/
def crossKern (g : Gp) (hp : HpVals) (X : Arr2) (calcGrad : Bool) : Py (Arr2 × Option Arr2) := do
  let theta ← need hp.theta
  let R ← calcRtensor g.x X                                                                     -- line 134
  if g.useGrad || calcGrad then do
    let A ← calcKernGrad g.kernel R theta hp.kernel g.bvec none                                 -- line 136
    if g.useGrad then
      pure (A.slice 0 A.r 0 X.r, some (A.slice 0 A.r X.r A.c).T)                                -- lines 140-141
    else
      pure (A.slice 0 g.nEval 0 X.r, some (A.slice 0 g.nEval X.r A.c).T)                        -- lines 143-145
  else do
    let A ← calcKernBase g.kernel R theta hp.kernel                                             -- line 147
    pure (A, none)

/-- `calc_Kern_hess_x(Rtensor, theta, hp_kernel)`: eval/GpEvalModel.py:152-153, kernel/Kernel.py:115-126. No mask is
passed. -/
def crossHess (g : Gp) (hp : HpVals) (X : Arr2) : Py Arr3 := do
  let theta ← need hp.theta
  let R ← calcRtensor X g.x
  if g.useGrad then calcKernGradGradX g.kernel R theta hp.kernel none else calcKernBaseHessX g.kernel R theta hp.kernel

/-- What `eval_model` returns for `nx` points: eval/GpEvalModel.py:198. The Hessians exist for `nx = 1` only; the inner
`none` of `d2sig` is an array of NaN. -/
structure EvalOut (nx dim : ℕ) where
  mu : Vec nx
  sig : Vec nx
  dmu : Option (Mat nx dim) := none
  dsig : Option (Mat nx dim) := none
  d2mu : Option (Mat dim dim) := none
  d2sig : Option (Option (Mat dim dim)) := none

/-- Row `i*nx + a` of `dKxy_dx`: the covariances of the data with the derivative wrt coordinate `i` at point `a`. The
reshapes to `(nx, dim)` in column-major order (lines 323, 351) use this order. -/
def dkRow {n : ℕ} (dK : Arr2) (nx dim : ℕ) (a : Fin nx) (i : Fin dim) : Vec n := fun q => dK.get (i * nx + a) q

/-- `calc_dmudx` plus the gradient of the mean function: eval/GpEvalModel.py:319-325, 172. -/
def calcDmu {n nx dim : ℕ} (dK : Arr2) (w : Vec n) (base : Arr2) : Mat nx dim :=
  of fun a i => dkRow dK nx dim a i ⬝ᵥ w + base.get a i

/-- `calc_dsigdx`: eval/GpEvalModel.py:339-354. `np.kron` replicates `1/sig` over the columns and the rows of
`Kxy_invKernEta` over the coordinates. -/
def calcDsig {n nx dim : ℕ} (dK : Arr2) (kinv : Mat n nx) (sig : Vec nx) (sigK : ℝ) : Mat nx dim :=
  of fun a i =>
    let invSig := (if sig a ≠ 0 then 1 / sig a else 0);                                          -- line 346
    (-invSig) * ((dkRow dK nx dim a i ⬝ᵥ fun q => kinv q a) * sigK ^ 2)                           -- lines 347-352

/-- `calc_d2mudx2` for one point: eval/GpEvalModel.py:356-363. -/
def calcD2mu {n dim : ℕ} (H : Arr3) (w : Vec n) : Mat dim dim := of fun e i => ∑ q : Fin n, H.get e i q * w q

/-- `calc_d2sigdx2` for one point: eval/GpEvalModel.py:365-382. `none` stands for NaN. -/
def calcD2sig {n dim : ℕ} (H : Arr3) (F : ChoFac n) (dK : Arr2) (kinv : Mat n 1) (sig : ℝ) (dsig : Mat 1 dim) (sigK : ℝ) :
    Option (Mat dim dim) :=
  let term1 : Mat dim dim := of fun e i => ∑ q : Fin n, H.get e i q * kinv q 0                  -- line 372
  let D : Mat dim n := of fun i q => dkRow dK 1 dim 0 i q
  let term2 : Mat dim dim := D * choSolve F Dᵀ                                                  -- line 373
  let d2sig2 : Mat dim dim := (-2 * sigK ^ 2) • (term1 + term2)                                 -- line 374
  if sig = 0 then none                                                                          -- lines 377-378
  else some ((1 / (2 * sig)) • (d2sig2 - (2 : ℝ) • of fun e i => dsig 0 e * dsig 0 i))          -- line 380

/-- `n_data` as recomputed in `calc_d2mudx2` and `calc_d2sigdx2`: eval/GpEvalModel.py:358, 368. -/
def hessNData (g : Gp) : ℕ := if g.useGrad then g.nEval * (1 + g.dim) else g.nEval

/-- The derivative part of `eval_model`: eval/GpEvalModel.py:170-179. `kinv` is `Kxy_invKernEta.T`. -/
def evalDerivs (g : Gp) (hp : HpVals) (X : Arr2) (F : ChoFac g.nData) (w : Vec g.nData) (dK : Option Arr2)
    (kinv : Mat g.nData X.r) (base : Option Arr2) (mu sig : Vec X.r) (sigK : ℝ) (calcGrad calcHess : Bool) :
    Py (EvalOut X.r g.dim) :=
  if calcGrad then do
    let dK ← need dK
    let base ← need base
    if dK.r = X.r * g.dim ∧ dK.c = g.nData then
      let dmu : Mat X.r g.dim := calcDmu dK w base
      let dsig : Mat X.r g.dim := calcDsig dK kinv sig sigK
      if calcHess then do
        let H ← crossHess g hp X
        pyAssert (H.d = g.dim ∧ H.r = g.dim ∧ H.c = hessNData g)                                -- lines 359, 369
        if h : X.r = 1 ∧ H.c = g.nData then
          let kinv1 : Mat g.nData 1 := of fun q _ => kinv q ⟨0, by omega⟩
          let dsig1 : Mat 1 g.dim := of fun _ i => dsig ⟨0, by omega⟩ i
          pure { mu := mu, sig := sig, dmu := some dmu, dsig := some dsig, d2mu := some (calcD2mu H w)
                 d2sig := some (calcD2sig H F dK kinv1 (sig ⟨0, by omega⟩) dsig1 sigK) }
        else .error .shape
      else pure { mu := mu, sig := sig, dmu := some dmu, dsig := some dsig }
    else .error .shape
  else pure { mu := mu, sig := sig }

open Classical in
/-- `eval_model` without data scaling and without `squeeze_nx`: eval/GpEvalModel.py:59-198. The comparison of `hp_vals`
with the copy made by `setup_eval_model` (line 108) is by value; the identity of the arrays is modelled in
`Model/HpGuard`. Adding the mean-function Hessian (zeros) is dropped. -/
def evalModel (g : Gp) (st : EvalState g.nData) (hp : HpVals) (X : Arr2) (calcGrad calcHess : Bool) :
    Py (EvalOut X.r g.dim) :=
  match st.chofac with
  | none => .error .assertion                                                                   -- line 92
  | some F =>
    if hp ≠ st.hp then .error .raised                                                           -- lines 108-114
    else do
      let beta ← need hp.beta
      let varK ← need hp.varK
      let sigK := Real.sqrt varK                                                                -- line 122
      pyAssert (calcHess = true → calcGrad = true)                                              -- line 130
      let K ← crossKern g hp X calcGrad
      if K.1.r = g.nData ∧ K.1.c = X.r then
        let Kyx : Mat g.nData X.r := toMat g.nData X.r K.1
        let kinv := choSolve F Kyx                                                              -- line 155
        let w ← need st.w
        let mf ← evalMeanFun g.dim nBetaCoeff X beta none calcGrad calcHess                     -- lines 159-161
        let sig2 : Vec X.r := fun a => 1 - (Kyxᵀ * kinv) a a                                    -- line 163
        if X.r = 0 then .error .shape                                                           -- `np.min` of an empty array
        else do
          pyAssert (∀ a, 0 ≤ sig2 a)                                                            -- line 164
          let sig : Vec X.r := fun a => Real.sqrt (if sig2 a < 0 then 0 else sig2 a) * sigK     -- lines 166-167
          let mu : Vec X.r := fun a => mf.1.get a + (Kyxᵀ *ᵥ w) a                               -- line 169
          evalDerivs g hp X F w K.2 kinv mf.2.1 mu sig sigK calcGrad calcHess
      else .error .shape

/-- What `eval_model_var` returns: variances and their gradient: eval/GpEvalModel.py:317. -/
structure EvalVarOut (nx dim : ℕ) where
  sig2 : Vec nx
  dsig2 : Option (Mat nx dim) := none

/-- The gradient part of `eval_model_var` with `calc_dsig2dx`: eval/GpEvalModel.py:299-305, 327-337. -/
def evalVarDerivs (g : Gp) (X : Arr2) (dK : Option Arr2) (kinv : Mat g.nData X.r) (sig2 : Vec X.r) (varK : ℝ)
    (calcGrad calcHess : Bool) : Py (EvalVarOut X.r g.dim) :=
  if calcHess then .error .raised                                                               -- line 305
  else if calcGrad then do
    let dK ← need dK
    if dK.r = X.r * g.dim ∧ dK.c = g.nData then
      pure { sig2 := sig2
             dsig2 := some (of fun a i => -2 * (dkRow dK X.r g.dim a i ⬝ᵥ fun q => kinv q a) * varK) }
    else .error .shape
  else pure { sig2 := sig2 }

open Classical in
/-- `eval_model_var` without data scaling and without `squeeze_nx`: eval/GpEvalModel.py:200-317. A missing Cholesky factor
makes `cho_solve` raise. -/
def evalModelVar (g : Gp) (st : EvalState g.nData) (hp : HpVals) (X : Arr2) (calcGrad calcHess : Bool) :
    Py (EvalVarOut X.r g.dim) :=
  if hp ≠ st.hp then .error .raised                                                             -- lines 236-242
  else do
    let beta ← need hp.beta
    let varK ← need hp.varK
    pyAssert (calcHess = true → calcGrad = true)                                                -- line 257
    let K ← crossKern g hp X calcGrad
    let F ← need st.chofac                                                                      -- line 284
    if K.1.r = g.nData ∧ K.1.c = X.r then
      let Kyx : Mat g.nData X.r := toMat g.nData X.r K.1
      let kinv := choSolve F Kyx
      let _ ← evalMeanFun g.dim nBetaCoeff X beta none calcGrad calcHess                        -- lines 288-290
      let sig2 : Vec X.r := fun a => varK * (1 - (Kyxᵀ * kinv) a a)                             -- line 292
      if X.r = 0 then .error .shape
      else do
        pyAssert (∀ a, 0 ≤ sig2 a)                                                              -- line 293
        evalVarDerivs g X K.2 kinv sig2 varK calcGrad calcHess
    else .error .shape

end GP
