import Verif.Np
import Mathlib.Analysis.SpecialFunctions.Pow.Real

/-! Model of `gpgradpy/src/kernel/KernelSqExp.py` (classes `KernelSqExpBase`, `KernelSqExpGradMod`,
`KernelSqExp`; `KernelSqExpGrad`, lines 129-316, is not in the MRO of `KernelSqExp`, line 574: see
Model/KernelPlain).  `hp_kernel` is unused by this kernel and omitted. -/

open Np

noncomputable section

namespace GP

/-- The loop `exp_sum -= theta[i] * Rtensor[i]**2`: kernel/KernelSqExp.py:38-42 (also 109-110, 343-344). -/
def sqExpSum (R : Arr3) (theta : Arr1) : Py Arr2 :=
  forRange 0 R.d (Arr2.zeros R.r R.c) fun i E => do
    let th ← theta.at' i
    let Ri ← R.slab i
    E.sub (Ri.map fun x => th * x ^ 2)

/-- `sq_exp_calc_KernBase`: kernel/KernelSqExp.py:16-46. -/
def sqExpKernBase (R : Arr3) (theta : Arr1) : Py Arr2 := do
  let expSum ← sqExpSum R theta
  pure (expSum.map Real.exp)

/-- `int(i == k)`. -/
def delta (i k : ℕ) : ℝ := if i = k then 1 else 0

/-- `sq_exp_calc_KernBase_hess_x_jit`: kernel/KernelSqExp.py:64-88. -/
def sqExpKernBaseHessXJit (R : Arr3) (theta : Arr1) (KernBase : Arr2) : Py Arr3 :=
  forRange 0 R.d (Arr3.zeros R.d (R.r * R.d) R.c) fun k H =>
    forRange 0 R.d H fun i H => do
      let thi ← theta.at' i
      let thk ← theta.at' k
      let Ri ← R.slab i
      let Rk ← R.slab k
      let ri1 := i * R.r
      let ri2 := ri1 + R.r
      let RR ← (Ri.smul (4 * thi * thk)).mul Rk
      let V ← (RR.map fun x => -2 * thi * delta i k + x).mul KernBase
      H.setSlice k ri1 ri2 0 R.c V

/-- `sq_exp_calc_KernBase_hess_x`: kernel/KernelSqExp.py:48-62. -/
def sqExpKernBaseHessX (R : Arr3) (theta : Arr1) : Py Arr3 := do
  let KernBase ← sqExpKernBase R theta
  sqExpKernBaseHessXJit R theta KernBase

/-- `sq_exp_calc_KernBase_grad_th`: kernel/KernelSqExp.py:90-123. -/
def sqExpKernBaseGradTh (R : Arr3) (theta : Arr1) : Py Arr3 := do
  let Rsq := R.map (· ^ 2)
  let expSum ← forRange 0 R.d (Arr2.zeros R.r R.c) fun i E => do
    let th ← theta.at' i
    let Ri ← Rsq.slab i
    E.sub (Ri.smul th)
  let KernBase := expSum.map Real.exp
  forRange 0 theta.n (Arr3.zeros R.d R.r R.c) fun i D => do
    let Ri ← Rsq.slab i
    let V ← (Ri.map fun x => -x).mul KernBase
    D.setSlice i 0 R.r 0 R.c V

/-- The arrays used by the gradient blocks after masking. -/
structure SqExpTerms where
  n1g : ℕ
  n2g : ℕ
  Rg1 : Arr3
  Rg2 : Arr3
  Rgg : Arr3
  Kg1 : Arr2
  Kg2 : Arr2
  Kgg : Arr2

/-- "Modify terms for case where not all grads are used": kernel/KernelSqExp.py:350-381. -/
def sqExpTerms (R : Arr3) (K : Arr2) (m1 m2 : Option (List Bool)) : Py SqExpTerms :=
  match m1, m2 with
  | none, none => pure ⟨R.r, R.c, R, R, R, K, K, K⟩
  | _, _ => do
    let (n1g, Rg1, Kg1) ← (match m1 with
      | none => (pure (R.r, R, K) : Py (ℕ × Arr3 × Arr2))
      | some m => do pure (nTrue m, ← R.maskRows m, ← K.maskRows m))
    match m2 with
    | none => pure ⟨n1g, R.c, Rg1, R, Rg1, Kg1, K, Kg1⟩
    | some m => do
      pure ⟨n1g, nTrue m, Rg1, ← R.maskCols m, ← Rg1.maskCols m, Kg1, ← K.maskCols m, ← Kg1.maskCols m⟩

/-- `sq_exp_calc_KernGrad`: kernel/KernelSqExp.py:320-410. -/
def sqExpKernGrad (R : Arr3) (theta : Arr1) (m1 m2 : Option (List Bool)) : Py Arr2 := do
  let Rsq := R.map (· ^ 2)
  let expSum ← forRange 0 R.d (Arr2.zeros R.r R.c) fun i E => do
    let th ← theta.at' i
    let Ri ← Rsq.slab i
    E.sub (Ri.smul th)
  let KernBase := expSum.map Real.exp
  let t ← sqExpTerms R KernBase m1 m2
  let n1 := R.r
  let n2 := R.c
  let A ← (Arr2.zeros (n1 + t.n1g * R.d) (n2 + t.n2g * R.d)).setSlice 0 n1 0 n2 KernBase
  forRange 0 R.d A fun i A => do
    let thi ← theta.at' i
    let ri1 := n1 + i * t.n1g
    let ri2 := ri1 + t.n1g
    let ci1 := n2 + i * t.n2g
    let ci2 := ci1 + t.n2g
    let A ← A.setSlice ri1 ri2 0 n2 (← ((← t.Rg1.slab i).smul (-2 * thi)).mul t.Kg1)
    let A ← A.setSlice 0 n1 ci1 ci2 (← ((← t.Rg2.slab i).smul (2 * thi)).mul t.Kg2)
    let A ← A.setSlice ri1 ri2 ci1 ci2
      (← ((← t.Rgg.slab i).map fun x => 2 * thi - 4 * thi ^ 2 * x ^ 2).mul t.Kgg)
    forRange (i + 1) R.d A fun j A => do
      let thj ← theta.at' j
      let rj1 := n1 + j * t.n1g
      let rj2 := rj1 + t.n1g
      let cj1 := n2 + j * t.n2g
      let cj2 := cj1 + t.n2g
      let prod ← (← (← t.Rgg.slab i).mul (← t.Rgg.slab j)).mul t.Kgg
      let term := prod.smul (-4 * thi * thj)
      let A ← A.addSlice ri1 ri2 cj1 cj2 term
      A.addSlice rj1 rj2 ci1 ci2 term

/-- `sq_exp_calc_KernGrad_grad_x_jit`: kernel/KernelSqExp.py:430-468. Note `cj2 = cj1 + n2`, line 459. -/
def sqExpKernGradGradXJit (R : Arr3) (theta : Arr1) (KernBase : Arr2) (hessX : Arr3)
    (m2 : Option (List Bool)) : Py Arr3 := do
  let n1 := R.r
  let n2 := R.c
  let (n2g, Rg2, Kg2) ← (match m2 with
    | none => (pure (n2, R, KernBase) : Py (ℕ × Arr3 × Arr2))
    | some m => do pure (nTrue m, ← R.maskCols m, ← KernBase.maskCols m))
  let D ← (Arr3.zeros R.d (n1 * R.d) (n2 + n2g * R.d)).setCols n2 hessX
  forRange 0 R.d D fun k D =>
    forRange 0 R.d D fun i D =>
      forRange 0 R.d D fun j D => do
        let thi ← theta.at' i
        let thj ← theta.at' j
        let thk ← theta.at' k
        let ri1 := i * n1
        let ri2 := ri1 + n1
        let cj1 := n2 + j * n2g
        let cj2 := cj1 + n2
        let Ri ← Rg2.slab i
        let Rj ← Rg2.slab j
        let Rk ← Rg2.slab k
        let T1 ← (Rj.smul (delta i k)).add (Ri.smul (delta j k))
        let T2 ← (T1.smul (-4 * thi * thj)).sub (Rk.smul (4 * delta i j * thi * thk))
        let T3 ← (← (Ri.smul (8 * thi * thj * thk)).mul Rj).mul Rk
        let V ← (← T2.add T3).mul Kg2
        D.setSlice k ri1 ri2 cj1 cj2 V

/-- `sq_exp_calc_KernGrad_grad_x`: kernel/KernelSqExp.py:412-428. -/
def sqExpKernGradGradX (R : Arr3) (theta : Arr1) (m2 : Option (List Bool)) : Py Arr3 := do
  let KernBase ← sqExpKernBase R theta
  let hessX ← sqExpKernBaseHessXJit R theta KernBase
  sqExpKernGradGradXJit R theta KernBase hessX m2

/-- Masked arrays of `sq_exp_calc_KernGrad_grad_th_jit`: kernel/KernelSqExp.py:505-521. -/
structure SqExpThTerms where
  ng : ℕ
  Rg1 : Arr3
  Rsqg1 : Arr3
  Rsqgg : Arr3
  Kg1 : Arr2
  Kgg : Arr2

/-- "Modify terms": kernel/KernelSqExp.py:505-521. -/
def sqExpThTerms (R Rsq : Arr3) (K : Arr2) (m : Option (List Bool)) : Py SqExpThTerms :=
  match m with
  | none => pure ⟨R.r, R, Rsq, Rsq, K, K⟩
  | some m => do
    let Rg1 ← R.maskRows m
    let Rsqg1 ← Rsq.maskRows m
    let Rsqgg ← Rsqg1.maskCols m
    let Kg1 ← K.maskRows m
    let Kgg ← Kg1.maskCols m
    pure ⟨nTrue m, Rg1, Rsqg1, Rsqgg, Kg1, Kgg⟩

/-- `sq_exp_calc_KernGrad_grad_th_jit`: kernel/KernelSqExp.py:488-568. Line 552 uses the unmasked
`Rtensor` and `KernBase`. -/
def sqExpKernGradGradThJit (R : Arr3) (theta : Arr1) (KernGrad : Arr2) (m : Option (List Bool)) :
    Py Arr3 := do
  let n1 := R.r
  pyAssert (R.r = R.c)
  let KernBase := KernGrad.slice 0 n1 0 n1
  let Rsq := R.map (· ^ 2)
  let t ← sqExpThTerms R Rsq KernBase m
  let nRows := n1 + t.ng * R.d
  forRange 0 R.d (Arr3.zeros R.d nRows nRows) fun d D => do
    let D ← D.setSlice d 0 n1 0 n1 (← ((← Rsq.slab d).map fun x => -x).mul KernBase)
    let rd1 := n1 + d * t.ng
    let rd2 := rd1 + t.ng
    let term ← ((← t.Rg1.slab d).smul (-2)).mul t.Kg1
    let D ← D.addSlice d rd1 rd2 0 n1 term
    let D ← D.addSlice d 0 n1 rd1 rd2 term.T
    let D ← D.addSlice d rd1 rd2 rd1 rd2 (t.Kgg.smul 2)
    forRange 0 R.d D fun i D => do
      let thi ← theta.at' i
      let ri1 := n1 + i * t.ng
      let ri2 := ri1 + t.ng
      let term ← ((← t.Rsqg1.slab d).map fun x => -x).mul (KernGrad.slice ri1 ri2 0 n1)
      let D ← D.addSlice d ri1 ri2 0 n1 term
      let D ← D.addSlice d 0 n1 ri1 ri2 term.T
      let term ← (← ((← R.slab d).smul (-4 * thi)).mul (← R.slab i)).mul KernBase
      let D ← D.addSlice d rd1 rd2 ri1 ri2 term
      let D ← D.addSlice d ri1 ri2 rd1 rd2 term
      let D ← D.subSlice d ri1 ri2 ri1 ri2 (← (← t.Rsqgg.slab d).mul (KernGrad.slice ri1 ri2 ri1 ri2))
      forRange (i + 1) R.d D fun j D => do
        let cj1 := n1 + j * t.ng
        let cj2 := cj1 + t.ng
        let term ← ((← t.Rsqgg.slab d).map fun x => -x).mul (KernGrad.slice ri1 ri2 cj1 cj2)
        let D ← D.addSlice d ri1 ri2 cj1 cj2 term
        D.addSlice d cj1 cj2 ri1 ri2 term

/-- `sq_exp_calc_KernGrad_grad_th`: kernel/KernelSqExp.py:470-486. -/
def sqExpKernGradGradTh (R : Arr3) (theta : Arr1) (m : Option (List Bool)) : Py Arr3 := do
  let KernGrad ← sqExpKernGrad R theta m m
  sqExpKernGradGradThJit R theta KernGrad m

/-- `sq_exp_calc_KernGrad_grad_alpha`: kernel/KernelSqExp.py:570-572 (always raises). -/
def sqExpKernGradGradAlpha : Py Arr3 := .error .raised

/-- `sq_exp_theta2gamma`: kernel/KernelSqExp.py:579-582. -/
def sqExpTheta2gamma (th : ℝ) : ℝ := Real.sqrt (2 * th)

/-- `sq_exp_gamma2theta`: kernel/KernelSqExp.py:584-587. -/
def sqExpGamma2theta (g : ℝ) : ℝ := 0.5 * g ^ 2

end GP
