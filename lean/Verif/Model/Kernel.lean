import Verif.Model.CommonFun
import Verif.Model.KernelSqExp
import Verif.Model.KernelMatern5f2
import Verif.Model.KernelRatQuad

/-! Model of `gpgradpy/src/kernel/Kernel.py` (dispatch part), `kernel/KernelCommon.py` and the
`*_Kern_precon` methods of the three kernel classes. -/

open Np

noncomputable section

namespace GP

/-- The three values of `kernel_type` that the constructor accepts: kernel/Kernel.py:27, 54, 81. -/
inductive KType where
  | sqExp
  | matern
  | ratQuad
  deriving DecidableEq

/-- `Kernel.__init__` on the string: kernel/Kernel.py:27, 54, 81, 108-109. -/
def parseKernel (s : String) : Py KType :=
  if s = "SqExp" then .ok .sqExp
  else if s = "Ma5f2" then .ok .matern
  else if s = "RatQu" then .ok .ratQuad
  else .error .raised

/-- `hp_kernel` used as a number; `None` in arithmetic is a TypeError (rational quadratic only). -/
def needHp : Option ℝ → Py ℝ
  | some a => .ok a
  | none => .error .typeError

/-- `hp_kernel_default`: KernelSqExp.py:577, KernelMatern5f2.py:651, KernelRatQuad.py:849. -/
def hpKernelDefault : KType → Option ℝ
  | .ratQuad => some ratQuadDefault
  | _ => none

/-- `kernel_has_hp`: kernel/Kernel.py:111. -/
def kernelHasHp (k : KType) : Bool := (hpKernelDefault k).isSome

/-- `hp_kernel_range`; the NaN pair is `none`: KernelSqExp.py:578, KernelMatern5f2.py:652, KernelRatQuad.py:850. -/
def hpKernelRange : KType → Option (ℝ × ℝ)
  | .ratQuad => some ratQuadRange
  | _ => none

/-- `self.calc_KernBase`: kernel/Kernel.py:34, 61, 88. -/
def calcKernBase (k : KType) (R : Arr3) (theta : Arr1) (hp : Option ℝ) : Py Arr2 :=
  match k with
  | .sqExp => sqExpKernBase R theta
  | .matern => maternKernBase R theta
  | .ratQuad => do ratQuadKernBase R theta (← needHp hp)

/-- `self.calc_KernGrad`: kernel/Kernel.py:35, 62, 89. -/
def calcKernGrad (k : KType) (R : Arr3) (theta : Arr1) (hp : Option ℝ) (m1 m2 : Option (List Bool)) : Py Arr2 :=
  match k with
  | .sqExp => sqExpKernGrad R theta m1 m2
  | .matern => maternKernGrad R theta m1 m2
  | .ratQuad => do ratQuadKernGrad R theta (← needHp hp) m1 m2

/-- `self.calc_KernBase_grad_th`: kernel/Kernel.py:43, 70, 97. -/
def calcKernBaseGradTh (k : KType) (R : Arr3) (theta : Arr1) (hp : Option ℝ) : Py Arr3 :=
  match k with
  | .sqExp => sqExpKernBaseGradTh R theta
  | .matern => maternKernBaseGradTh R theta
  | .ratQuad => do ratQuadKernBaseGradTh R theta (← needHp hp)

/-- `self.calc_KernGrad_grad_th`: kernel/Kernel.py:44, 71, 98. -/
def calcKernGradGradTh (k : KType) (R : Arr3) (theta : Arr1) (hp : Option ℝ) (m : Option (List Bool)) : Py Arr3 :=
  match k with
  | .sqExp => sqExpKernGradGradTh R theta m
  | .matern => maternKernGradGradTh R theta m
  | .ratQuad => do ratQuadKernGradGradTh R theta (← needHp hp) m

/-- `self.calc_KernBase_grad_alpha`: kernel/Kernel.py:47, 74, 101 (raises for the first two kernels:
KernelSqExp.py:126-127, KernelMatern5f2.py:138-139). -/
def calcKernBaseGradAlpha (k : KType) (R : Arr3) (theta : Arr1) (hp : Option ℝ) : Py Arr3 :=
  match k with
  | .sqExp => .error .raised
  | .matern => .error .raised
  | .ratQuad => do ratQuadKernBaseGradAlpha R theta (← needHp hp)

/-- `self.calc_KernGrad_grad_alpha`: kernel/Kernel.py:48, 75, 102. -/
def calcKernGradGradAlpha (k : KType) (R : Arr3) (theta : Arr1) (hp : Option ℝ) (m : Option (List Bool)) : Py Arr3 :=
  match k with
  | .sqExp => sqExpKernGradGradAlpha
  | .matern => maternKernGradGradAlpha
  | .ratQuad => do ratQuadKernGradGradAlpha R theta (← needHp hp) m

/-- `self.calc_KernBase_hess_x`: kernel/Kernel.py:51, 78, 105. -/
def calcKernBaseHessX (k : KType) (R : Arr3) (theta : Arr1) (hp : Option ℝ) : Py Arr3 :=
  match k with
  | .sqExp => sqExpKernBaseHessX R theta
  | .matern => maternKernBaseHessX R theta
  | .ratQuad => do ratQuadKernBaseHessX R theta (← needHp hp)

/-- `self.calc_KernGrad_grad_x`: kernel/Kernel.py:52, 79, 106. -/
def calcKernGradGradX (k : KType) (R : Arr3) (theta : Arr1) (hp : Option ℝ) (m2 : Option (List Bool)) : Py Arr3 :=
  match k with
  | .sqExp => sqExpKernGradGradX R theta m2
  | .matern => maternKernGradGradX R theta m2
  | .ratQuad => do ratQuadKernGradGradX R theta (← needHp hp) m2

/-- `self.theta2gamma`: kernel/Kernel.py:38, 65, 92. -/
def theta2gamma : KType → ℝ → ℝ
  | .sqExp => sqExpTheta2gamma
  | .matern => maternTheta2gamma
  | .ratQuad => ratQuadTheta2gamma

/-- `self.gamma2theta`: kernel/Kernel.py:39, 66, 93. -/
def gamma2theta : KType → ℝ → ℝ
  | .sqExp => sqExpGamma2theta
  | .matern => maternGamma2theta
  | .ratQuad => ratQuadGamma2theta

/-- `gamma_grad_theta` as a function of gamma: KernelSqExp.py:598 (`1/gamma`), KernelMatern5f2.py:672
(`5/(6 gamma)`), KernelRatQuad.py:871 (`1/gamma`). -/
def gammaGradTheta : KType → ℝ → ℝ
  | .sqExp => fun g => 1 / g
  | .matern => fun g => 5 / (6 * g)
  | .ratQuad => fun g => 1 / g

/-- `np.ones(n)`. -/
def ones1 (n : ℕ) : Arr1 := ⟨n, fun _ => 1⟩

/-- `np.kron(a, b)` of two vectors. -/
def kron1 (a b : Arr1) : Arr1 := ⟨a.n * b.n, fun p => a.get (p / b.n) * b.get (p % b.n)⟩

/-- `np.diag(v)`. -/
def diagArr (v : Arr1) : Arr2 := ⟨v.n, v.n, fun i j => if i = j then v.get i else 0⟩

/-- `v[a:b] = x` for a scalar `x` (clamped slice). -/
def setConst1 (v : Arr1) (a b : ℕ) (x : ℝ) : Arr1 := ⟨v.n, fun p => if a ≤ p ∧ p < b then x else v.get p⟩

/-- `KernelCommon.calc_grad_precon_matrix` with `b_return_vec=True`: kernel/KernelCommon.py:25-35. -/
def calcGradPreconVec (nEval nGrad : ℕ) (gg : Arr1) : Py Arr2 :=
  forRange 0 gg.n (Arr2.zeros (nEval + nGrad * gg.n) gg.n) fun i A => do
    let a := nEval + i * nGrad
    let b := a + nGrad
    let g ← gg.at' i
    A.setSlice a b i (i + 1) ⟨1, 1, fun _ _ => g⟩

/-- `KernelCommon.calc_grad_precon_matrix` with `b_return_vec=False`: kernel/KernelCommon.py:36-47. -/
def calcGradPreconMat (nEval nGrad : ℕ) (gg : Arr1) : Py Arr3 :=
  let nData := nEval + nGrad * gg.n
  forRange 0 gg.n (Arr3.zeros gg.n nData nData) fun i A => do
    let a := nEval + i * nGrad
    let b := a + nGrad
    let g ← gg.at' i
    let vec := setConst1 ⟨nData, fun _ => 0⟩ a b g
    A.setSlice i 0 nData 0 nData (diagArr vec)

/-- `pvec` of `calc_Kern_precon`: KernelSqExp.py:594-595, KernelMatern5f2.py:668-669, KernelRatQuad.py:867-868. -/
def kernPvec (k : KType) (nEval nGrad : ℕ) (theta : Arr1) : Arr1 :=
  hstack (ones1 nEval) (kron1 (theta.map (theta2gamma k)) (ones1 nGrad))

/-- `calc_Kern_precon(..., b_return_vec=True)`: KernelSqExp.py:590-604, KernelMatern5f2.py:664-678,
KernelRatQuad.py:862-877. -/
def calcKernPreconVec (k : KType) (nEval nGrad : ℕ) (theta : Arr1) : Py (Arr1 × Arr1 × Arr2) := do
  let gamma := theta.map (theta2gamma k)
  let pvec := kernPvec k nEval nGrad theta
  let pvecInv := pvec.map fun x => 1 / x
  let g ← calcGradPreconVec nEval nGrad (gamma.map (gammaGradTheta k))
  pure (pvec, pvecInv, g)

/-- `calc_Kern_precon(..., b_return_vec=False)` (same lines). -/
def calcKernPreconMat (k : KType) (nEval nGrad : ℕ) (theta : Arr1) : Py (Arr2 × Arr2 × Arr3) := do
  let gamma := theta.map (theta2gamma k)
  let pvec := kernPvec k nEval nGrad theta
  let pvecInv := pvec.map fun x => 1 / x
  let g ← calcGradPreconMat nEval nGrad (gamma.map (gammaGradTheta k))
  pure (diagArr pvec, diagArr pvecInv, g)

end GP
