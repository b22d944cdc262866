import Verif.Model.Kernel
import Verif.Model.LinAlg

/-! Model of the covariance part of `gpgradpy/src/kernel/Kernel.py` (lines 128-357) and of the attributes of
`self` it reads. -/

open Np Matrix

noncomputable section

namespace GP

/-- The attributes of `self` that control conditioning: GaussianProcess.py:81-112 and 194-217, 330-331. -/
structure CondOpts where
  /-- `self.wellcond_mtd == 'precon'` -/
  precon : Bool
  /-- `self.cond_eta_is_const` -/
  etaConst : Bool
  /-- `self._etaK` -/
  etaK : ℝ
  condMaxTarget : ℝ
  condMax : ℝ
  condMaxAbs : ℝ
  /-- `self.cond_norm == 'fro'` -/
  fro : Bool

/-- `self` as the likelihood and evaluation code sees it through its getters
(`get_scl_x_w_dist`, `get_scl_eval_data`: GaussianProcess.py:399-433): data in scaled coordinates. -/
structure Gp where
  dim : ℕ
  useGrad : Bool
  kernel : KType
  nEval : ℕ
  nGrad : ℕ
  nData : ℕ
  bvec : Option (List Bool)
  o : CondOpts
  knownFval : Bool
  knownFgrad : Bool
  fvalZero : Bool
  fgradZero : Bool
  noisy : Bool
  /-- scaled points -/
  x : Arr2
  fval : Arr1
  stdFval : Option Arr1
  grad : Option Arr2
  stdGrad : Option Arr2

/-- `HparaOptzVal`: base/GpHpara.py:12-19. -/
structure HpVals where
  beta : Option Arr1 := none
  theta : Option Arr1 := none
  kernel : Option ℝ := none
  varK : Option ℝ := none
  varFval : Option ℝ := none
  varFgrad : Option ℝ := none

/-- Use of a possibly `None` attribute where a number or array is required. -/
def need {α : Type} : Option α → Py α
  | some a => .ok a
  | none => .error .typeError

/-- The entries of an array as a Mathlib matrix. -/
def toMat (n m : ℕ) (A : Arr2) : Mat n m := Matrix.of fun i j => A.get i j
/-- The entries of an array as a vector. -/
def toVec (n : ℕ) (v : Arr1) : Vec n := fun i => v.get i

/-- `np.zeros(n)`. -/
def zeros1 (n : ℕ) : Arr1 := ⟨n, fun _ => 0⟩

/-- `v[:k] = w` for a vector `w` of exactly that size. -/
def setHead (v : Arr1) (k : ℕ) (w : Arr1) : Py Arr1 :=
  if w.n = min k v.n then .ok ⟨v.n, fun p => if p < k then w.get p else v.get p⟩ else .error .shape

/-- `v[k:] = w` for a vector `w` of exactly that size. -/
def setTail (v : Arr1) (k : ℕ) (w : Arr1) : Py Arr1 :=
  if w.n = v.n - min k v.n then .ok ⟨v.n, fun p => if k ≤ p then w.get (p - k) else v.get p⟩ else .error .shape

/-- The value part of the noise vector: kernel/Kernel.py:339-348. -/
def noiseHead (g : Gp) (hp : HpVals) (stdFval : Option Arr1) : Py Arr1 :=
  let v0 := zeros1 g.nData                                                                      -- line 339
  if g.knownFval then do
    pyAssert (hp.varFval.isNone)
    let s ← need stdFval
    setHead v0 g.nEval (s.map fun v => v ^ 2)                                                   -- line 346
  else do
    let v ← need hp.varFval
    pure ⟨v0.n, fun p => if p < g.nEval then v else v0.get p⟩                                   -- line 348

/-- The gradient part of the noise vector: kernel/Kernel.py:350-355. -/
def noiseTail (g : Gp) (hp : HpVals) (stdFgrad : Option Arr2) (v1 : Arr1) : Py Arr1 :=
  if g.knownFgrad then do
    pyAssert (hp.varFgrad.isNone)
    let s ← need stdFgrad
    setTail v1 g.nEval (flattenF (s.map fun v => v ^ 2))                                        -- line 353
  else do
    let v ← need hp.varFgrad
    pure ⟨v1.n, fun p => if g.nEval ≤ p then v else v1.get p⟩                                   -- line 355

/-- `calc_noise_vec`: kernel/Kernel.py:309-357. Standard deviations stored by `set_data` contain no NaN (it drops an
array with NaN), so the `isnan` assertions only fail on `None`, as a TypeError. Assigning a `None` variance (numpy
would store NaN) is a TypeError here. -/
def calcNoiseVec (g : Gp) (hp : HpVals) : Py Arr1 := do
  let stdFval : Option Arr1 := if g.fvalZero && g.fgradZero then some (zeros1 g.nEval)          -- lines 324-326
    else (if g.knownFval then g.stdFval else none)                                              -- line 328
  let stdFgrad : Option Arr2 := if g.fvalZero && g.fgradZero then some (Arr2.zeros g.nGrad g.dim)
    else (if g.knownFgrad then g.stdGrad else none)
  if !g.useGrad then
    if g.knownFval then
      pyAssert (hp.varFval.isNone)                                                              -- line 332
      let s ← need stdFval
      pure (s.map fun v => v ^ 2)                                                               -- line 334
    else
      match stdFval with
      | none => .error .attribute                                                               -- line 336: None.size
      | some s => do
        let v ← need hp.varFval
        pure ⟨s.n, fun _ => v⟩
  else
    let v1 ← noiseHead g hp stdFval
    noiseTail g hp stdFgrad v1

/-- The tuple returned by `calc_all_K_w_chofac` (without `idx_etaK_argmax`, which no caller reads). -/
structure CovOut (n : ℕ) where
  Kern : Mat n n
  Kcor : Option (Mat n n)
  Kcov : Mat n n
  chofac : Option (ChoFac n)
  condK : Option ℝ
  etaK : ℝ

/-- `np.linalg.cond(A, p=self.cond_norm)`. -/
def condNum (o : CondOpts) {n : ℕ} (A : Mat n n) : ℝ := if o.fro then condFro A else cond2 A

/-- The nugget: kernel/Kernel.py:232-237 (on `Kcor`) and 272-277 (on `Kern`). -/
def pickEta (o : CondOpts) {n : ℕ} (M : Mat n n) : Py ℝ :=
  if o.etaConst then .ok o.etaK else do
    let m ← vecMax (absRowSum M)
    pure (m / (o.condMaxTarget - 1))

open Classical in
/-- `calc_all_K_w_chofac` from the kernel matrix on: kernel/Kernel.py:221-307. Printing and timing are dropped. -/
def covCore {n : ℕ} (o : CondOpts) (useGrad : Bool) (varK : ℝ) (Kern : Mat n n) (noise : Vec n)
    (calcChofac calcCond : Bool) : Py (CovOut n) := do
  let Kwn := Kern + Matrix.diagonal fun i => noise i / varK                                     -- line 221
  if o.precon then
    pyAssert (useGrad = true)                                                                   -- line 225
    let pvec : Vec n := fun i => Real.sqrt (Kwn i i)                                            -- line 227
    let P := Matrix.diagonal pvec
    let Pinv := Matrix.diagonal fun i => 1 / pvec i
    let Kcor := Pinv * Kwn * Pinv                                                               -- line 230
    let eta ← pickEta o Kcor                                                                    -- lines 232-237
    let Kp := varK • (Kcor + eta • (1 : Mat n n))                                               -- line 239
    let Kcov := P * Kp * P                                                                      -- line 240
    let condK := if calcCond then some (condNum o Kp) else none                                 -- lines 242-248
    let fac := if calcChofac then (choFactor Kp true).map fun F => (⟨P * F.c, F.lower⟩ : ChoFac n) else none
    pure ⟨Kern, some Kcor, Kcov, fac, condK, eta⟩
  else
    let eta ← pickEta o Kern                                                                    -- lines 272-277
    let Kcov := varK • (Kwn + eta • (1 : Mat n n))                                              -- line 280
    let condK := if calcCond then some (condNum o Kcov) else none                               -- lines 282-288
    let doFac : Bool := calcChofac && !(calcCond && decide (o.condMaxAbs < condNum o Kcov))     -- lines 285-286
    let fac := if doFac then choFactor Kcov false else none                                     -- lines 292-303
    pure ⟨Kern, none, Kcov, fac, condK, eta⟩

/-- `self.calc_Kern(Rtensor, theta, hp_kernel[, masks])`: kernel/Kernel.py:115-126, 216-219. -/
def calcKern (g : Gp) (R : Arr3) (theta : Arr1) (hk : Option ℝ) : Py Arr2 :=
  if g.useGrad then calcKernGrad g.kernel R theta hk g.bvec g.bvec else calcKernBase g.kernel R theta hk

/-- `calc_all_K_w_chofac`: kernel/Kernel.py:140-307. `n_data` is `noise_vec.size`, which every caller makes equal to
`self.n_data`; other sizes (numpy could still broadcast a 1x1 noise matrix) are a shape error here. -/
def calcAllK (g : Gp) (R : Arr3) (hp : HpVals) (noiseIn : Option Arr1) (calcChofac calcCond : Bool)
    (varKin : Option ℝ) (normlz : Bool) : Py (CovOut g.nData) := do
  let theta ← need hp.theta                                                                     -- line 190
  pyAssert (R.r = R.c)                                                                          -- line 194
  let varK0 ← match varKin with                                                                 -- lines 196-198
    | some v => pure v
    | none => match hp.varK with
      | some v => pure v
      | none => .error .assertion
  let varK ← if normlz then pure 1 else do                                                      -- lines 200-203
    pyAssert (0 < varK0)
    pure varK0
  let noise ← match noiseIn with                                                                -- lines 212-213
    | some v => pure v
    | none => calcNoiseVec g hp
  let Kern ← calcKern g R theta hp.kernel                                                       -- lines 216-219
  if Kern.r = g.nData ∧ Kern.c = g.nData ∧ noise.n = g.nData then
    covCore g.o g.useGrad varK (toMat g.nData g.nData Kern) (toVec g.nData noise) calcChofac calcCond
  else .error .shape

/-- `calc_Kern_w_chofac`: kernel/Kernel.py:128-138. -/
def calcKernWChofac (g : Gp) (R : Arr3) (hp : HpVals) (noise : Option Arr1) (calcChofac calcCond : Bool) :
    Py (CovOut g.nData) := do
  pyAssert (g.noisy = false)
  calcAllK g R hp noise calcChofac calcCond (some 1) false

end GP
