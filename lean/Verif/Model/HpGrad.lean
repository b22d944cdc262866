import Verif.Model.HpOptz

/-! Model of `gpgradpy/src/optz/GpHparaGrad.py`. -/

open Np Matrix

noncomputable section

namespace GP

/-- `self.calc_Kern_grad_theta(Rtensor, theta, hp_kernel, self.bvec_use_grad)`: kernel/Kernel.py:120, 126. -/
def calcKernGradTheta (g : Gp) (R : Arr3) (theta : Arr1) (hk : Option ℝ) : Py Arr3 :=
  if g.useGrad then calcKernGradGradTh g.kernel R theta hk g.bvec else calcKernBaseGradTh g.kernel R theta hk

/-- `self.calc_Kern_grad_alpha(Rtensor, theta, hp_kernel, self.bvec_use_grad)`: kernel/Kernel.py:121, 127. -/
def calcKernGradAlpha (g : Gp) (R : Arr3) (theta : Arr1) (hk : Option ℝ) : Py Arr3 :=
  if g.useGrad then calcKernGradGradAlpha g.kernel R theta hk g.bvec else calcKernBaseGradAlpha g.kernel R theta hk

/-- `A[idx,:,:] = B` for an index array and a 3-d array. -/
def setSlabs (A : Arr3) (idx : List ℕ) (B : Arr3) : Py Arr3 :=
  if B.d = idx.length ∧ B.r = A.r ∧ B.c = A.c then
    if ∀ i ∈ idx, i < A.d then
      .ok ⟨A.d, A.r, A.c, fun d p q => if d ∈ idx then B.get (idx.idxOf d) p q else A.get d p q⟩
    else .error .index
  else .error .shape

/-- `A[k,:,:] = B`. -/
def setSlab (A : Arr3) (k : ℕ) (B : Arr2) : Py Arr3 :=
  if k < A.d then if B.r = A.r ∧ B.c = A.c then .ok (A.putSlab k B) else .error .shape else .error .index

/-- `np.diag(np.diag(A))`. -/
def diagDiag (A : Arr2) : Arr2 := ⟨A.r, A.c, fun p q => if p = q then A.get p q else 0⟩

/-- `for i in range(A.shape[0]): A[i] += np.diag(np.diag(A[i])) * eta`: optz/GpHparaGrad.py:109-112, 122-126. (The theta
loop is over `range(self.dim)`, which is the size of the first axis.) -/
def addDiagEta (A : Arr3) (eta : ℝ) : Arr3 :=
  ⟨A.d, A.r, A.c, fun d p q => A.get d p q + if p = q then A.get d p q * eta else 0⟩

/-- The preconditioner term of `calc_KernGrad_hp`: optz/GpHparaGrad.py:41-50. -/
def addPreconTerm (g : Gp) (idx : List ℕ) (theta : Arr1) (eta : ℝ) (A : Arr3) : Py Arr3 := do
  let (pvec, _, gp) ← calcKernPreconVec g.kernel g.nEval g.nGrad theta
  forRange 0 g.dim A fun i A => do
    let k ← match idx[i]? with
      | some k => pure k
      | none => .error .index
    A.addSlice k g.nEval A.r g.nEval A.c
      (diagArr ⟨pvec.n - g.nEval, fun q => 2 * eta * pvec.get (g.nEval + q) * gp.get (g.nEval + q) i⟩)

/-- Theta part of `calc_KernGrad_hp`: optz/GpHparaGrad.py:36-50. -/
def kernGradHpTheta (g : Gp) (info : HpInfo) (hp : HpVals) (R : Arr3) (etaK : Option ℝ) (A : Arr3) : Py Arr3 :=
  if info.hasTheta then do
    let theta ← need hp.theta
    let B ← calcKernGradTheta g R theta hp.kernel
    let A ← setSlabs A info.idxTheta B
    if g.o.precon then addPreconTerm g info.idxTheta theta (etaK.getD g.o.etaK) A else pure A
  else .ok A

/-- Kernel part of `calc_KernGrad_hp`: optz/GpHparaGrad.py:52-54. -/
def kernGradHpKernel (g : Gp) (info : HpInfo) (hp : HpVals) (R : Arr3) (A : Arr3) : Py Arr3 :=
  if info.hasKernel then do
    let theta ← need hp.theta
    let B ← calcKernGradAlpha g R theta hp.kernel
    setSlabs A [info.idxKernel] B
  else .ok A

/-- `calc_KernGrad_hp`: optz/GpHparaGrad.py:13-57. -/
def calcKernGradHp (g : Gp) (info : HpInfo) (hp : HpVals) (R : Arr3) (etaK : Option ℝ) : Py Arr3 := do
  pyAssert (info.hasVarK = false)
  pyAssert (info.hasVarFval = false)
  pyAssert (info.hasVarFgrad = false)
  let A ← kernGradHpTheta g info hp R etaK (Arr3.zeros info.nHp g.nData g.nData)
  kernGradHpKernel g info hp R A

/-- `calc_Kcov_grad_theta` (`varK` is not `None` by the assertion of the caller): optz/GpHparaGrad.py:102-114. -/
def kcovGradTheta (g : Gp) (hp : HpVals) (varK : ℝ) (R : Arr3) : Py Arr3 := do
  let theta ← need hp.theta
  let B ← calcKernGradTheta g R theta hp.kernel
  let B := B.map (varK * ·)
  pure (if g.o.precon then addDiagEta B g.o.etaK else B)

/-- `calc_Kcov_grad_alpha`: optz/GpHparaGrad.py:116-128. -/
def kcovGradAlpha (g : Gp) (hp : HpVals) (varK : ℝ) (R : Arr3) : Py Arr3 := do
  let theta ← need hp.theta
  let B ← calcKernGradAlpha g R theta hp.kernel
  let B := B.map (varK * ·)
  pure (if g.o.precon then addDiagEta B g.o.etaK else B)

/-- `calc_Kcov_grad_varK`: optz/GpHparaGrad.py:130-139. -/
def kcovGradVarK (g : Gp) (Kern : Arr2) : Arr2 :=
  if g.o.precon then ⟨Kern.r, Kern.c, fun p q => Kern.get p q + g.o.etaK * (diagDiag Kern).get p q⟩
  else ⟨Kern.r, Kern.c, fun p q => Kern.get p q + g.o.etaK * (if p = q then 1 else 0)⟩

/-- The scalar of `calc_Kcov_grad_var_fval` and `calc_Kcov_grad_var_fgrad`: optz/GpHparaGrad.py:143-146, 152-155. -/
def noiseScalar (g : Gp) : ℝ := if g.o.precon then 1 + g.o.etaK else 1

/-- `calc_Kcov_grad_var_fval`: optz/GpHparaGrad.py:141-148. -/
def kcovGradVarFval (g : Gp) : Arr2 :=
  (diagArr (hstack ⟨g.nEval, fun _ => 1⟩ ⟨g.nGrad * g.dim, fun _ => 0⟩)).map (noiseScalar g * ·)

/-- `calc_Kcov_grad_var_fgrad`: optz/GpHparaGrad.py:150-157. -/
def kcovGradVarFgrad (g : Gp) : Arr2 :=
  (diagArr (hstack ⟨g.nEval, fun _ => 0⟩ ⟨g.nGrad * g.dim, fun _ => 1⟩)).map (noiseScalar g * ·)

/-- `if has: A[idx,:,:] = B`. -/
def setSlabIf (has : Bool) (A : Arr3) (k : ℕ) (B : Arr2) : Py Arr3 := if has then setSlab A k B else .ok A

/-- Theta part of `calc_Kcov_grad_hp`: optz/GpHparaGrad.py:81-83. -/
def kcovHpTheta (g : Gp) (info : HpInfo) (hp : HpVals) (varK : ℝ) (R : Arr3) (A : Arr3) : Py Arr3 :=
  if info.hasTheta then do
    let B ← kcovGradTheta g hp varK R
    setSlabs A info.idxTheta B
  else .ok A

/-- Kernel part of `calc_Kcov_grad_hp`: optz/GpHparaGrad.py:85-86. -/
def kcovHpKernel (g : Gp) (info : HpInfo) (hp : HpVals) (varK : ℝ) (R : Arr3) (A : Arr3) : Py Arr3 :=
  if info.hasKernel then do
    let B ← kcovGradAlpha g hp varK R
    setSlabs A [info.idxKernel] B
  else .ok A

/-- `calc_Kcov_grad_hp`: optz/GpHparaGrad.py:59-100. -/
def calcKcovGradHp (g : Gp) (info : HpInfo) (hp : HpVals) (Kern : Arr2) (R : Arr3) : Py Arr3 :=
  match hp.varK with
  | none => .error .assertion                                                                   -- line 75
  | some varK => do
    let A ← kcovHpTheta g info hp varK R (Arr3.zeros info.nHp g.nData g.nData)
    let A ← kcovHpKernel g info hp varK R A
    let A ← setSlabIf info.hasVarK A info.idxVarK (kcovGradVarK g Kern)
    let A ← setSlabIf info.hasVarFval A info.idxVarFval (kcovGradVarFval g)
    setSlabIf info.hasVarFgrad A info.idxVarFgrad (kcovGradVarFgrad g)

end GP
