import Verif.Model.Kernel

/-! Model of the gradient-kernel classes without masks: `KernelSqExpGrad`
(`gpgradpy/src/kernel/KernelSqExp.py:129-316`), `KernelMatern5f2Grad`
(`kernel/KernelMatern5f2.py:141-348`) and `KernelRatQuadGrad` (`kernel/KernelRatQuad.py:165-432`).
They are the alternative bases named in the comments at KernelMatern5f2.py:648 and KernelRatQuad.py:846;
the kernel objects inherit from the `*GradMod` classes instead.  `theta[i]` past the end is not checked by
numba; the model raises, so the functions are only meaningful for `theta.size ≥ dim`. -/

open Np

noncomputable section

namespace GP

/-- `KernelSqExpGrad.sq_exp_calc_KernGrad`: kernel/KernelSqExp.py:131-183. -/
def sqExpPlainKernGrad (R : Arr3) (theta : Arr1) : Py Arr2 := do
  let n1 := R.r
  let n2 := R.c
  let Rsq := R.map (· ^ 2)
  let expSum ← forRange 0 R.d (Arr2.zeros R.r R.c) fun i E => do
    let th ← theta.at' i
    let Ri ← Rsq.slab i
    E.sub (Ri.smul th)
  let KernBase := expSum.map Real.exp
  let A ← (Arr2.zeros (n1 * (R.d + 1)) (n2 * (R.d + 1))).setSlice 0 n1 0 n2 KernBase
  forRange 0 R.d A fun i A => do
    let thi ← theta.at' i
    let ri1 := (i + 1) * n1
    let ri2 := ri1 + n1
    let c1a := (i + 1) * n2
    let c2a := c1a + n2
    let term ← ((← R.slab i).smul (2 * thi)).mul KernBase
    let A ← A.setSlice ri1 ri2 0 n2 (term.map fun x => -x)
    let A ← A.setSlice 0 n1 c1a c2a term
    let A ← A.setSlice ri1 ri2 c1a c2a
      (← ((← R.slab i).map fun x => 2 * thi - 4 * thi ^ 2 * x ^ 2).mul KernBase)
    forRange (i + 1) R.d A fun j A => do
      let thj ← theta.at' j
      let prod ← (← (← R.slab i).mul (← R.slab j)).mul KernBase
      let term := prod.smul (-4 * thi * thj)
      let A ← A.addSlice ri1 ri2 (n2 * (j + 1)) (n2 * (j + 2)) term
      A.addSlice (n1 * (j + 1)) (n1 * (j + 2)) (n2 * (i + 1)) (n2 * (i + 2)) term

/-- `KernelSqExpGrad.sq_exp_calc_KernGrad_grad_x_jit`: kernel/KernelSqExp.py:203-239. -/
def sqExpPlainGradXJit (R : Arr3) (theta : Arr1) (KernBase : Arr2) (hessX : Arr3) : Py Arr3 := do
  let n1 := R.r
  let n2 := R.c
  let D ← (Arr3.zeros R.d (n1 * R.d) (n2 * (1 + R.d))).setCols n2 hessX
  forRange 0 R.d D fun k D => do
    let thk ← theta.at' k
    let Tk ← R.slab k
    forRange 0 R.d D fun i D => do
      let thi ← theta.at' i
      let Ti ← R.slab i
      let ri1 := i * n1
      let ri2 := ri1 + n1
      forRange 0 R.d D fun j D => do
        let thj ← theta.at' j
        let Tj ← R.slab j
        let c1a := (j + 1) * n2
        let c2a := c1a + n2
        let T1 ← (Tj.smul (delta i k)).add (Ti.smul (delta j k))
        let T2 ← (T1.smul (-4 * thi * thj)).sub (Tk.smul (4 * delta i j * thi * thk))
        let T3 ← (← (Ti.smul (8 * thi * thj * thk)).mul Tj).mul Tk
        let V ← (← T2.add T3).mul KernBase
        D.setSlice k ri1 ri2 c1a c2a V

/-- `KernelSqExpGrad.sq_exp_calc_KernGrad_grad_x`: kernel/KernelSqExp.py:185-201. -/
def sqExpPlainGradX (R : Arr3) (theta : Arr1) : Py Arr3 := do
  let KernBase ← sqExpKernBase R theta
  let hessX ← sqExpKernBaseHessXJit R theta KernBase
  sqExpPlainGradXJit R theta KernBase hessX

/-- `KernelSqExpGrad.sq_exp_calc_KernGrad_grad_th_jit`: kernel/KernelSqExp.py:257-312. -/
def sqExpPlainGradThJit (R : Arr3) (theta : Arr1) (KernGrad : Arr2) : Py Arr3 := do
  let n1 := R.r
  pyAssert (R.r = R.c)
  let KernBase := KernGrad.slice 0 n1 0 n1
  let Rsq := R.map (· ^ 2)
  forRange 0 R.d (Arr3.zeros R.d (n1 * (R.d + 1)) (n1 * (R.d + 1))) fun d D => do
    let D ← D.setSlice d 0 n1 0 n1 (← ((← Rsq.slab d).map fun x => -x).mul KernBase)
    let d1 := (d + 1) * n1
    let d2 := d1 + n1
    let term ← ((← R.slab d).smul 2).mul KernBase
    let D ← D.subSlice d d1 d2 0 n1 term
    let D ← D.addSlice d 0 n1 d1 d2 term
    let D ← D.addSlice d d1 d2 d1 d2 (KernBase.smul 2)
    forRange 0 R.d D fun i D => do
      let thi ← theta.at' i
      let ri1 := (i + 1) * n1
      let ri2 := ri1 + n1
      let D ← D.subSlice d ri1 ri2 0 n1 (← (← Rsq.slab d).mul (KernGrad.slice ri1 ri2 0 n1))
      let D ← D.subSlice d 0 n1 ri1 ri2 (← (← Rsq.slab d).mul (KernGrad.slice 0 n1 ri1 ri2))
      let term ← (← ((← R.slab d).smul (-4 * thi)).mul (← R.slab i)).mul KernBase
      let D ← D.addSlice d d1 d2 ri1 ri2 term
      let D ← D.addSlice d ri1 ri2 d1 d2 term
      let D ← D.subSlice d ri1 ri2 ri1 ri2 (← (← Rsq.slab d).mul (KernGrad.slice ri1 ri2 ri1 ri2))
      forRange (i + 1) R.d D fun j D => do
        let c1a := (j + 1) * n1
        let c2a := c1a + n1
        let term ← ((← Rsq.slab d).map fun x => -x).mul (KernGrad.slice ri1 ri2 c1a c2a)
        let D ← D.addSlice d ri1 ri2 c1a c2a term
        D.addSlice d c1a c2a ri1 ri2 term

/-- `KernelSqExpGrad.sq_exp_calc_KernGrad_grad_th`: kernel/KernelSqExp.py:241-255. -/
def sqExpPlainGradTh (R : Arr3) (theta : Arr1) : Py Arr3 := do
  let KernGrad ← sqExpPlainKernGrad R theta
  sqExpPlainGradThJit R theta KernGrad

/-- `KernelMatern5f2Grad.matern_5f2_calc_KernGrad`: kernel/KernelMatern5f2.py:143-193. -/
def maternPlainKernGrad (R : Arr3) (theta : Arr1) : Py Arr2 := do
  let n1 := R.r
  let n2 := R.c
  let nu ← materNu R theta
  let Abase := nu.map fun v => Real.exp (-sqrt5 * v)
  let mat1 ← (nu.map fun v => (5 / 3) * (1 + sqrt5 * v)).mul Abase
  let A ← (Arr2.zeros (n1 * (R.d + 1)) (n2 * (R.d + 1))).setSlice 0 n1 0 n2
    (← (nu.map fun v => 1 + sqrt5 * v + (5 / 3) * v ^ 2).mul Abase)
  forRange 0 R.d A fun i A => do
    let thi ← theta.at' i
    let r1 := (i + 1) * n1
    let r2 := r1 + n1
    let c1 := (i + 1) * n2
    let c2 := c1 + n2
    let term := (← mat1.mul (← R.slab i)).map (· * thi)
    let A ← A.setSlice r1 r2 0 n2 (term.map fun x => -x)
    let A ← A.setSlice 0 n1 c1 c2 term
    let sq ← ((← R.slab i).map fun x => (25 / 3) * thi ^ 2 * x ^ 2).mul Abase
    let A ← A.setSlice r1 r2 c1 c2 (← (mat1.map (· * thi)).sub sq)
    forRange (i + 1) R.d A fun j A => do
      let thj ← theta.at' j
      let term ← (← ((← R.slab i).smul (-(25 / 3) * thi * thj)).mul (← R.slab j)).mul Abase
      let A ← A.addSlice r1 r2 (n2 * (j + 1)) (n2 * (j + 2)) term
      A.addSlice (n1 * (j + 1)) (n1 * (j + 2)) (n2 * (i + 1)) (n2 * (i + 2)) term

/-- `KernelMatern5f2Grad.matern_5f2_calc_KernGrad_grad_x`: kernel/KernelMatern5f2.py:195-209. It calls the
compiled function of `KernelMatern5f2` (that is, of `KernelMatern5f2GradMod`) with the default mask. -/
def maternPlainGradX (R : Arr3) (theta : Arr1) : Py Arr3 := do
  let hessX ← maternKernBaseHessX R theta
  maternKernGradGradXJit R theta hessX none

/-- `KernelMatern5f2Grad.matern_5f2_calc_KernGrad_grad_x_jit`: kernel/KernelMatern5f2.py:211-263. -/
def maternPlainGradXJit (R : Arr3) (theta : Arr1) (hessX : Arr3) : Py Arr3 := do
  let n1 := R.r
  let n2 := R.c
  let nu ← materNu R theta
  let D ← (Arr3.zeros R.d (n1 * R.d) (n2 * (1 + R.d))).setCols n2 hessX
  let base := nu.map fun v => Real.exp (-sqrt5 * v)
  let invNu := nu.map fun v => 1 / max v (10 ^ (-16 : ℤ))
  forRange 0 R.d D fun k D => do
    let thk ← theta.at' k
    let Rk := (← R.slab k).map (· * thk)
    forRange 0 R.d D fun i D => do
      let thi ← theta.at' i
      let Ri := (← R.slab i).map (· * thi)
      let r1 := i * n1
      let r2 := r1 + n1
      forRange 0 R.d D fun j D => do
        let thj ← theta.at' j
        let Rj := (← R.slab j).map (· * thj)
        let c1 := (j + 1) * n2
        let c2 := c1 + n2
        let S1 ← (Rj.smul (thi * delta i k)).add (Ri.smul (thj * delta j k))
        let S2 ← S1.add (Rk.smul (thi * delta i j))
        let S3 ← (← (← (invNu.smul sqrt5).mul Ri).mul Rj).mul Rk
        let V ← ((← S2.sub S3).smul (-(25 / 3))).mul base
        D.setSlice k r1 r2 c1 c2 V

/-- `KernelMatern5f2Grad.matern_5f2_calc_KernGrad_grad_th`: kernel/KernelMatern5f2.py:265-344. -/
def maternPlainGradTh (R : Arr3) (theta : Arr1) : Py Arr3 := do
  let n1 := R.r
  pyAssert (R.r = R.c)
  let Rsq := R.map (· ^ 2)
  let nu ← materNu R theta
  let invNu := nu.map fun v => 1 / max v (10 ^ (-16 : ℤ))
  let Abase := nu.map fun v => Real.exp (-sqrt5 * v)
  let mat1 ← (nu.map fun v => (5 / 3) * (1 + sqrt5 * v)).mul Abase
  forRange 0 R.d (Arr3.zeros R.d (n1 * (R.d + 1)) (n1 * (R.d + 1))) fun d D => do
    let D ← D.setSlice d 0 n1 0 n1 ((← (← Rsq.slab d).mul mat1).smul (-0.5))
    let d1 := (d + 1) * n1
    let d2 := d1 + n1
    let term ← mat1.mul (← R.slab d)
    let D ← D.subSlice d d1 d2 0 n1 term
    let D ← D.addSlice d 0 n1 d1 d2 term
    let D ← D.addSlice d d1 d2 d1 d2 mat1
    forRange 0 R.d D fun i D => do
      let thi ← theta.at' i
      let r1 := (i + 1) * n1
      let r2 := r1 + n1
      let term ← (← ((← R.slab i).smul (-(25 / 6) * thi)).mul (← Rsq.slab d)).mul Abase
      let D ← D.subSlice d r1 r2 0 n1 term
      let D ← D.addSlice d 0 n1 r1 r2 term
      let term ← (← ((← R.slab i).smul (-(25 / 3 * thi))).mul (← R.slab d)).mul Abase
      let D ← D.addSlice d d1 d2 r1 r2 term
      let D ← D.addSlice d r1 r2 d1 d2 term
      let D ← D.subSlice d r1 r2 r1 r2 (← ((← Rsq.slab d).smul (25 / 6 * thi)).mul Abase)
      let D ← D.addSlice d r1 r2 r1 r2 (← (← (← ((← Rsq.slab i).smul (25 * sqrt5 / 6 * thi ^ 2)).mul
        (← Rsq.slab d)).mul invNu).mul Abase)
      forRange (i + 1) R.d D fun j D => do
        let thj ← theta.at' j
        let c1 := (j + 1) * n1
        let c2 := c1 + n1
        let term ← (← (← (← ((← R.slab i).smul (25 * sqrt5 / 6 * thi * thj)).mul
          (← R.slab j)).mul (← Rsq.slab d)).mul invNu).mul Abase
        let D ← D.addSlice d r1 r2 c1 c2 term
        D.addSlice d c1 c2 r1 r2 term

/-- `KernelRatQuadGrad.rat_quad_calc_KernGrad`: kernel/KernelRatQuad.py:167-226. -/
def ratQuadPlainKernGrad (R : Arr3) (theta : Arr1) (alpha : ℝ) : Py Arr2 := do
  let n1 := R.r
  let n2 := R.c
  let temp ← ratQuadSum R theta
  let Rsq := R.map (· ^ 2)
  let mat1 := temp.map fun s => 1 + s / alpha
  let B0 := mat1.map fun b => b ^ (-alpha)
  let B1 := mat1.map fun b => b ^ (-alpha - 1)
  let B2 := mat1.map fun b => b ^ (-alpha - 2)
  let A ← (Arr2.zeros (n1 * (R.d + 1)) (n2 * (R.d + 1))).setSlice 0 n1 0 n2 B0
  let const := 4 * (1 + 1 / alpha)
  forRange 0 R.d A fun i A => do
    let thi ← theta.at' i
    let r1 := (i + 1) * n1
    let r2 := r1 + n1
    let c1 := (i + 1) * n2
    let c2 := c1 + n2
    let term ← ((← R.slab i).smul (2 * thi)).mul B1
    let A ← A.setSlice r1 r2 0 n2 (term.map fun x => -x)
    let A ← A.setSlice 0 n1 c1 c2 term
    let sq ← ((← Rsq.slab i).smul (const * thi ^ 2)).mul B2
    let A ← A.setSlice r1 r2 c1 c2 (← (B1.smul (2 * thi)).sub sq)
    forRange (i + 1) R.d A fun j A => do
      let thj ← theta.at' j
      let term ← (← ((← R.slab i).smul (-const * thi * thj)).mul (← R.slab j)).mul B2
      let A ← A.addSlice r1 r2 (n2 * (j + 1)) (n2 * (j + 2)) term
      A.addSlice (n1 * (j + 1)) (n1 * (j + 2)) (n2 * (i + 1)) (n2 * (i + 2)) term

/-- `KernelRatQuadGrad.rat_quad_calc_KernGrad_grad_x`: kernel/KernelRatQuad.py:228-287. -/
def ratQuadPlainGradX (R : Arr3) (theta : Arr1) (alpha : ℝ) : Py Arr3 := do
  let n1 := R.r
  let n2 := R.c
  let temp ← ratQuadSum R theta
  let B := temp.map fun s => 1 + s / alpha
  let B1 := B.map fun b => b ^ (-alpha - 1)
  let B2 := B.map fun b => b ^ (-alpha - 2)
  let B3 := B.map fun b => b ^ (-alpha - 3)
  let scalar1 := 4 * (1 + 1 / alpha)
  let scalar2 := 2 * (1 + 2 / alpha) * scalar1
  forRange 0 R.d (Arr3.zeros R.d (n1 * R.d) (n2 * (1 + R.d))) fun k D => do
    let thk ← theta.at' k
    let D ← D.subSlice k (k * n1) ((k + 1) * n1) 0 n2 (B1.smul (2 * thk))
    forRange 0 R.d D fun i D => do
      let thi ← theta.at' i
      let r1 := i * n1
      let r2 := r1 + n1
      let D ← D.addSlice k r1 r2 0 n2
        (← (← ((← R.slab i).smul (scalar1 * thi * thk)).mul (← R.slab k)).mul B2)
      let D ← D.subSlice k r1 r2 ((i + 1) * n2) ((i + 2) * n2)
        (← ((← R.slab k).smul (scalar1 * thi * thk)).mul B2)
      let term ← ((← R.slab i).smul (-(scalar1 * thi * thk))).mul B2
      let D ← D.addSlice k r1 r2 ((k + 1) * n2) ((k + 2) * n2) term
      let D ← D.addSlice k (k * n1) ((k + 1) * n1) ((i + 1) * n2) ((i + 2) * n2) term
      forRange 0 R.d D fun j D => do
        let thj ← theta.at' j
        D.addSlice k r1 r2 ((j + 1) * n2) ((j + 2) * n2)
          (← (← (← ((← R.slab i).smul (scalar2 * thi * thj * thk)).mul (← R.slab j)).mul
            (← R.slab k)).mul B3)

/-- `KernelRatQuadGrad.rat_quad_calc_KernGrad_grad_th`: kernel/KernelRatQuad.py:289-371. -/
def ratQuadPlainGradTh (R : Arr3) (theta : Arr1) (alpha : ℝ) : Py Arr3 := do
  let n1 := R.r
  pyAssert (R.r = R.c)
  let Rsq := R.map (· ^ 2)
  let base ← ratQuadSum R theta
  let B1 := base.map fun s => (1 + s / alpha) ^ (-alpha - 1)
  let B2 := base.map fun s => (1 + s / alpha) ^ (-alpha - 2)
  let B3 := base.map fun s => (1 + s / alpha) ^ (-alpha - 3)
  let scalar1 := 1 + 1 / alpha
  let scalar2 := scalar1 * (1 + 2 / alpha)
  forRange 0 R.d (Arr3.zeros R.d (n1 * (R.d + 1)) (n1 * (R.d + 1))) fun d D => do
    let D ← D.setSlice d 0 n1 0 n1 (← ((← Rsq.slab d).map fun x => -x).mul B1)
    let d1 := (d + 1) * n1
    let d2 := d1 + n1
    let term ← ((← R.slab d).smul (-2)).mul B1
    let D ← D.addSlice d d1 d2 0 n1 term
    let D ← D.addSlice d 0 n1 d1 d2 term.T
    let D ← D.addSlice d d1 d2 d1 d2 (B1.smul 2)
    forRange 0 R.d D fun i D => do
      let thi ← theta.at' i
      let r1 := (i + 1) * n1
      let r2 := r1 + n1
      let term ← (← ((← R.slab i).smul (2 * scalar1 * thi)).mul (← Rsq.slab d)).mul B2
      let D ← D.addSlice d r1 r2 0 n1 term
      let D ← D.addSlice d 0 n1 r1 r2 term.T
      let term ← (← ((← R.slab i).smul (-4 * scalar1 * thi)).mul (← R.slab d)).mul B2
      let D ← D.addSlice d d1 d2 r1 r2 term
      let D ← D.addSlice d r1 r2 d1 d2 term
      let e1 ← ((← Rsq.slab d).smul (-2 * scalar1 * thi)).mul B2
      let e2 ← (← ((← Rsq.slab i).smul (4 * scalar2 * thi ^ 2)).mul (← Rsq.slab d)).mul B3
      let D ← D.addSlice d r1 r2 r1 r2 (← e1.add e2)
      forRange (i + 1) R.d D fun j D => do
        let thj ← theta.at' j
        let c1 := (j + 1) * n1
        let c2 := c1 + n1
        let term ← (← (← ((← R.slab i).smul (4 * scalar2 * thi * thj)).mul (← R.slab j)).mul
          (← Rsq.slab d)).mul B3
        let D ← D.addSlice d r1 r2 c1 c2 term
        D.addSlice d c1 c2 r1 r2 term

/-- `KernelRatQuadGrad.rat_quad_calc_KernGrad_grad_alpha`: kernel/KernelRatQuad.py:373-432. -/
def ratQuadPlainGradAlpha (R : Arr3) (theta : Arr1) (alpha : ℝ) : Py Arr3 := do
  let n1 := R.r
  let Rsq := R.map (· ^ 2)
  pyAssert (R.r = R.c)
  let mat1 ← ratQuadSum R theta
  let B := mat1.map fun s => 1 + s / alpha
  let B2 := B.map fun b => b ^ (-alpha - 2)
  let BlnB := B.map fun b => b * Real.log b
  let T0 ← (B2.smul 2).mul (← (mat1.smul ((-alpha - 1) / alpha ^ 2)).add BlnB)
  let T1 ← (B2.smul 2).mul (← (mat1.smul ((alpha + 1) / alpha ^ 2)).sub BlnB)
  let T2 ← ((B.map fun b => b ^ (-alpha - 3)).smul 4).mul
    (← (← (B.map fun b => b / alpha ^ 2).sub (mat1.smul ((1 + 1 / alpha) * (alpha + 2) / alpha ^ 2))).add
      (BlnB.smul (1 + 1 / alpha)))
  let e ← (mat1.map fun s => s / alpha).sub (B.map fun b => b * Real.log b)
  let D ← (Arr3.zeros 1 (n1 * (R.d + 1)) (n1 * (R.d + 1))).setSlice 0 0 n1 0 n1
    (← (B.map fun b => b ^ (-alpha - 1)).mul e)
  forRange 0 R.d D fun i D => do
    let thi ← theta.at' i
    let r1 := (i + 1) * n1
    let r2 := r1 + n1
    let term ← ((← R.slab i).smul thi).mul T0
    let D ← D.addSlice 0 r1 r2 0 n1 term
    let D ← D.subSlice 0 0 n1 r1 r2 term
    let D ← D.addSlice 0 r1 r2 r1 r2
      (← (T1.smul thi).add (← ((← Rsq.slab i).smul (thi ^ 2)).mul T2))
    forRange (i + 1) R.d D fun j D => do
      let thj ← theta.at' j
      let c1 := (j + 1) * n1
      let c2 := c1 + n1
      let term ← (← ((← R.slab i).smul (thi * thj)).mul (← R.slab j)).mul T2
      let D ← D.addSlice 0 r1 r2 c1 c2 term
      D.addSlice 0 c1 c2 r1 r2 term

/-- The three classes as one dispatcher, in the style of `Kernel.py:27-103` (no such dispatcher exists in
the repo; it only names the method of the class belonging to the kernel). -/
def plainKernGrad (k : KType) (R : Arr3) (theta : Arr1) (hp : Option ℝ) : Py Arr2 :=
  match k with
  | .sqExp => sqExpPlainKernGrad R theta
  | .matern => maternPlainKernGrad R theta
  | .ratQuad => do ratQuadPlainKernGrad R theta (← needHp hp)

/-- `calc_KernGrad_grad_x` of the plain class. -/
def plainGradX (k : KType) (R : Arr3) (theta : Arr1) (hp : Option ℝ) : Py Arr3 :=
  match k with
  | .sqExp => sqExpPlainGradX R theta
  | .matern => maternPlainGradX R theta
  | .ratQuad => do ratQuadPlainGradX R theta (← needHp hp)

/-- `calc_KernGrad_grad_th` of the plain class. -/
def plainGradTh (k : KType) (R : Arr3) (theta : Arr1) (hp : Option ℝ) : Py Arr3 :=
  match k with
  | .sqExp => sqExpPlainGradTh R theta
  | .matern => maternPlainGradTh R theta
  | .ratQuad => do ratQuadPlainGradTh R theta (← needHp hp)

/-- `calc_KernGrad_grad_alpha` of the plain class; the first two raise (KernelSqExp.py:314-316,
KernelMatern5f2.py:346-348). -/
def plainGradAlpha (k : KType) (R : Arr3) (theta : Arr1) (hp : Option ℝ) : Py Arr3 :=
  match k with
  | .sqExp => .error .raised
  | .matern => .error .raised
  | .ratQuad => do ratQuadPlainGradAlpha R theta (← needHp hp)

end GP
