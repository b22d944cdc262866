import Verif.Model.KernelSqExp

/-! Model of `gpgradpy/src/kernel/KernelMatern5f2.py` (classes `KernelMatern5f2Base`,
`KernelMatern5f2GradMod`, `KernelMatern5f2`; the class `KernelMatern5f2Grad` is not in the MRO, line 647:
see Model/KernelPlain). -/

open Np

noncomputable section

namespace GP

/-- The loop `nu_mat += theta[i] * Rtensor[i,:,:]**2`, then `np.sqrt`:
kernel/KernelMatern5f2.py:42-47 (also 68-73, 111-116, 370-375, 478-483, 552-557). -/
def materNu (R : Arr3) (theta : Arr1) : Py Arr2 := do
  let nu ← forRange 0 R.d (Arr2.zeros R.r R.c) fun i E => do
    let th ← theta.at' i
    let Ri ← R.slab i
    E.add (Ri.map fun x => th * x ^ 2)
  pure (nu.map Real.sqrt)

/-- `np.sqrt(5)`. -/
def sqrt5 : ℝ := Real.sqrt 5

/-- `matern_5f2_calc_KernBase`: kernel/KernelMatern5f2.py:16-52. -/
def maternKernBase (R : Arr3) (theta : Arr1) : Py Arr2 := do
  let nu ← materNu R theta
  pure (nu.map fun v => (1 + sqrt5 * v + (5 / 3) * v ^ 2) * Real.exp (-sqrt5 * v))

/-- `matern_5f2_calc_KernBase_hess_x`: kernel/KernelMatern5f2.py:54-94. -/
def maternKernBaseHessX (R : Arr3) (theta : Arr1) : Py Arr3 := do
  let nu ← materNu R theta
  let base := nu.map fun v => Real.exp (-sqrt5 * v)
  let A ← (nu.map fun v => (5 / 3) * (1 + sqrt5 * v)).mul base
  forRange 0 R.d (Arr3.zeros R.d (R.r * R.d) R.c) fun k H => do
    let thk ← theta.at' k
    let Rk := (← R.slab k).map (· * thk)
    let H ← H.subSlice k (k * R.r) ((k + 1) * R.r) 0 R.c (A.smul thk)
    forRange 0 R.d H fun i H => do
      let thi ← theta.at' i
      let Ri := (← R.slab i).map (· * thi)
      let r1 := i * R.r
      let r2 := r1 + R.r
      H.addSlice k r1 r2 0 R.c (← (← (Ri.smul (25 / 3)).mul Rk).mul base)

/-- `matern_5f2_calc_KernBase_grad_th`: kernel/KernelMatern5f2.py:96-135. -/
def maternKernBaseGradTh (R : Arr3) (theta : Arr1) : Py Arr3 := do
  pyAssert (R.r = R.c)
  let nu ← materNu R theta
  let invNu := nu.map fun v => 1 / (2 * max v (10 ^ (-16 : ℤ)))
  let Rsq := R.map (· ^ 2)
  let KernBase := nu.map fun v => (1 + sqrt5 * v + (5 / 3) * v ^ 2) * Real.exp (-sqrt5 * v)
  forRange 0 R.d (Arr3.zeros R.d R.r R.r) fun d D => do
    let V ← (← ((← Rsq.slab d).smul (-sqrt5)).mul invNu).mul KernBase
    D.setSlice d 0 R.r 0 R.r V

/-- Arrays after masking, kernel/KernelMatern5f2.py:383-421. -/
structure MaternTerms where
  n1g : ℕ
  n2g : ℕ
  Rg1 : Arr3
  Rg2 : Arr3
  Rgg : Arr3
  Mg1 : Arr2   -- mat1_g1
  Mg2 : Arr2   -- mat1_g2
  Mgg : Arr2   -- mat1_gg
  Agg : Arr2   -- Abase_gg

/-- "Modify terms for case where not all grads are used": kernel/KernelMatern5f2.py:383-421. -/
def maternTerms (R : Arr3) (mat1 Abase : Arr2) (m1 m2 : Option (List Bool)) : Py MaternTerms :=
  match m1, m2 with
  | none, none => pure ⟨R.r, R.c, R, R, R, mat1, mat1, mat1, Abase⟩
  | _, _ => do
    let (n1g, Rg1, Ag1, Mg1) ← (match m1 with
      | none => (pure (R.r, R, Abase, mat1) : Py (ℕ × Arr3 × Arr2 × Arr2))
      | some m => do pure (nTrue m, ← R.maskRows m, ← Abase.maskRows m, ← mat1.maskRows m))
    match m2 with
    | none => pure ⟨n1g, R.c, Rg1, R, Rg1, Mg1, mat1, Mg1, Ag1⟩
    | some m => do
      let Rg2 ← R.maskCols m
      let Mg2 ← mat1.maskCols m
      let Rgg ← Rg1.maskCols m
      let Agg ← Ag1.maskCols m
      let Mgg ← Mg1.maskCols m
      pure ⟨n1g, nTrue m, Rg1, Rg2, Rgg, Mg1, Mg2, Mgg, Agg⟩

/-- `matern_5f2_calc_KernGrad`: kernel/KernelMatern5f2.py:352-450. -/
def maternKernGrad (R : Arr3) (theta : Arr1) (m1 m2 : Option (List Bool)) : Py Arr2 := do
  let nu ← materNu R theta
  let Abase := nu.map fun v => Real.exp (-sqrt5 * v)
  let mat1 ← (nu.map fun v => (5 / 3) * (1 + sqrt5 * v)).mul Abase
  let t ← maternTerms R mat1 Abase m1 m2
  let n1 := R.r
  let n2 := R.c
  let A ← (Arr2.zeros (n1 + t.n1g * R.d) (n2 + t.n2g * R.d)).setSlice 0 n1 0 n2
    (← (nu.map fun v => 1 + sqrt5 * v + (5 / 3) * v ^ 2).mul Abase)
  forRange 0 R.d A fun i A => do
    let thi ← theta.at' i
    let ri1 := n1 + i * t.n1g
    let ri2 := ri1 + t.n1g
    let ci1 := n2 + i * t.n2g
    let ci2 := ci1 + t.n2g
    let A ← A.setSlice ri1 ri2 0 n2 (← ((← t.Rg1.slab i).smul (-thi)).mul t.Mg1)
    let A ← A.setSlice 0 n1 ci1 ci2 (← ((← t.Rg2.slab i).smul thi).mul t.Mg2)
    let sq ← ((← t.Rgg.slab i).map fun x => (25 / 3 * thi ^ 2) * x ^ 2).mul t.Agg
    let A ← A.setSlice ri1 ri2 ci1 ci2 (← (t.Mgg.smul thi).sub sq)
    forRange (i + 1) R.d A fun j A => do
      let thj ← theta.at' j
      let rj1 := n1 + j * t.n1g
      let rj2 := rj1 + t.n1g
      let cj1 := n2 + j * t.n2g
      let cj2 := cj1 + t.n2g
      let term ← (← ((← t.Rgg.slab i).smul (-(25 / 3) * thi * thj)).mul (← t.Rgg.slab j)).mul t.Agg
      let A ← A.addSlice ri1 ri2 cj1 cj2 term
      A.addSlice rj1 rj2 ci1 ci2 term

/-- `matern_5f2_calc_KernGrad_grad_x_jit`: kernel/KernelMatern5f2.py:469-530. Note `cj2 = cj1 + n2`. -/
def maternKernGradGradXJit (R : Arr3) (theta : Arr1) (hessX : Arr3) (m2 : Option (List Bool)) :
    Py Arr3 := do
  let n1 := R.r
  let n2 := R.c
  let nu ← materNu R theta
  let (n2g, Rg2, nug2) ← (match m2 with
    | none => (pure (n2, R, nu) : Py (ℕ × Arr3 × Arr2))
    | some m => do pure (nTrue m, ← R.maskCols m, ← nu.maskCols m))
  let Ag2 := nug2.map fun v => Real.exp (-sqrt5 * v)
  let D ← (Arr3.zeros R.d (n1 * R.d) (n2 + n2g * R.d)).setCols n2 hessX
  let invNu := nug2.map fun v => 1 / max v (10 ^ (-16 : ℤ))
  forRange 0 R.d D fun k D => do
    let thk ← theta.at' k
    let Rk := (← Rg2.slab k).map (· * thk)
    forRange 0 R.d D fun i D => do
      let thi ← theta.at' i
      let Ri := (← Rg2.slab i).map (· * thi)
      let ri1 := i * n1
      let ri2 := ri1 + n1
      forRange 0 R.d D fun j D => do
        let thj ← theta.at' j
        let Rj := (← Rg2.slab j).map (· * thj)
        let cj1 := n2 + j * n2g
        let cj2 := cj1 + n2
        let S1 ← (Rj.smul (thi * delta i k)).add (Ri.smul (thj * delta j k))
        let S2 ← S1.add (Rk.smul (thi * delta i j))
        let S3 ← (← (← (invNu.smul sqrt5).mul Ri).mul Rj).mul Rk
        let V ← ((← S2.sub S3).smul (-(25 / 3))).mul Ag2
        D.setSlice k ri1 ri2 cj1 cj2 V

/-- `matern_5f2_calc_KernGrad_grad_x`: kernel/KernelMatern5f2.py:452-467. -/
def maternKernGradGradX (R : Arr3) (theta : Arr1) (m2 : Option (List Bool)) : Py Arr3 := do
  let hessX ← maternKernBaseHessX R theta
  maternKernGradGradXJit R theta hessX m2

/-- Masked arrays of `matern_5f2_calc_KernGrad_grad_th`: kernel/KernelMatern5f2.py:565-590. -/
structure MaternThTerms where
  ng : ℕ
  Rg1 : Arr3
  Rgg : Arr3
  Rsqg1 : Arr3
  Rsqgg : Arr3
  Ag1 : Arr2
  Agg : Arr2
  Mg1 : Arr2
  nugg : Arr2

/-- "Modify terms": kernel/KernelMatern5f2.py:565-590. -/
def maternThTerms (R Rsq : Arr3) (Abase mat1 nu : Arr2) (m : Option (List Bool)) : Py MaternThTerms :=
  match m with
  | none => pure ⟨R.r, R, R, Rsq, Rsq, Abase, Abase, mat1, nu⟩
  | some m => do
    let Rg1 ← R.maskRows m
    let Rgg ← Rg1.maskCols m
    let Rsqg1 ← Rsq.maskRows m
    let Rsqgg ← Rsqg1.maskCols m
    let Ag1 ← Abase.maskRows m
    let Agg ← Ag1.maskCols m
    let Mg1 ← mat1.maskRows m
    let nug1 ← nu.maskRows m
    let nugg ← nug1.maskCols m
    pure ⟨nTrue m, Rg1, Rgg, Rsqg1, Rsqgg, Ag1, Agg, Mg1, nugg⟩

/-- `matern_5f2_calc_KernGrad_grad_th`: kernel/KernelMatern5f2.py:532-642. Line 614 adds the unmasked
`mat1`; line 626 uses the row-masked arrays for a gradient-gradient block. -/
def maternKernGradGradTh (R : Arr3) (theta : Arr1) (m : Option (List Bool)) : Py Arr3 := do
  let n1 := R.r
  pyAssert (R.r = R.c)
  let Rsq := R.map (· ^ 2)
  let nu ← materNu R theta
  let Abase := nu.map fun v => Real.exp (-sqrt5 * v)
  let mat1 ← (nu.map fun v => (5 / 3) * (1 + sqrt5 * v)).mul Abase
  let t ← maternThTerms R Rsq Abase mat1 nu m
  let invNu := t.nugg.map fun v => 1 / max v (10 ^ (-16 : ℤ))
  let nRows := n1 + t.ng * R.d
  forRange 0 R.d (Arr3.zeros R.d nRows nRows) fun d D => do
    let D ← D.setSlice d 0 n1 0 n1 ((← (← Rsq.slab d).mul mat1).smul (-0.5))
    let rd1 := n1 + d * t.ng
    let rd2 := rd1 + t.ng
    let term ← ((← t.Rg1.slab d).map fun x => -x).mul t.Mg1
    let D ← D.addSlice d rd1 rd2 0 n1 term
    let D ← D.addSlice d 0 n1 rd1 rd2 term.T
    let D ← D.addSlice d rd1 rd2 rd1 rd2 mat1
    forRange 0 R.d D fun i D => do
      let thi ← theta.at' i
      let ri1 := n1 + i * t.ng
      let ri2 := ri1 + t.ng
      let term ← (← ((← t.Rg1.slab i).smul (25 / 6 * thi)).mul (← t.Rsqg1.slab d)).mul t.Ag1
      let D ← D.addSlice d ri1 ri2 0 n1 term
      let D ← D.addSlice d 0 n1 ri1 ri2 term.T
      let term ← (← ((← t.Rg1.slab i).smul (-(25 / 3 * thi))).mul (← t.Rg1.slab d)).mul t.Ag1
      let D ← D.addSlice d rd1 rd2 ri1 ri2 term
      let D ← D.addSlice d ri1 ri2 rd1 rd2 term.T
      let e1 ← ((← t.Rsqgg.slab d).smul (-(25 / 6 * thi))).mul t.Agg
      let e2 ← (← (← ((← t.Rsqgg.slab i).smul (25 * sqrt5 / 6 * thi ^ 2)).mul
        (← t.Rsqgg.slab d)).mul invNu).mul t.Agg
      let D ← D.addSlice d ri1 ri2 ri1 ri2 (← e1.add e2)
      forRange (i + 1) R.d D fun j D => do
        let thj ← theta.at' j
        let cj1 := n1 + j * t.ng
        let cj2 := cj1 + t.ng
        let term ← (← (← (← ((← t.Rgg.slab i).smul (25 * sqrt5 / 6 * thi * thj)).mul
          (← t.Rgg.slab j)).mul (← t.Rsqgg.slab d)).mul invNu).mul t.Agg
        let D ← D.addSlice d ri1 ri2 cj1 cj2 term
        D.addSlice d cj1 cj2 ri1 ri2 term

/-- `matern_5f2_calc_KernGrad_grad_alpha`: kernel/KernelMatern5f2.py:644-646 (always raises). -/
def maternKernGradGradAlpha : Py Arr3 := .error .raised

/-- `matern_5f2_theta2gamma`: kernel/KernelMatern5f2.py:653-656. -/
def maternTheta2gamma (th : ℝ) : ℝ := Real.sqrt (5 / 3 * th)

/-- `matern_5f2_gamma2theta`: kernel/KernelMatern5f2.py:658-661. -/
def maternGamma2theta (g : ℝ) : ℝ := (3 / 5) * g ^ 2

end GP
