import Verif.Model.KernelSqExp

/-! Model of `gpgradpy/src/kernel/KernelRatQuad.py` (classes `KernelRatQuadBase`,
`KernelRatQuadGradMod`, `KernelRatQuad`; the class `KernelRatQuadGrad` is not in the MRO, line 846:
see Model/KernelPlain).  `hp_kernel` is `alpha`. -/

open Np

noncomputable section

namespace GP

/-- The loop `temp += theta[d] * Rtensor_sq[d, :, :]`: kernel/KernelRatQuad.py:40-45
(also 72-75, 117-118, 148-151, 458-461, 568-571, 656-660, 775-778). -/
def ratQuadSum (R : Arr3) (theta : Arr1) : Py Arr2 := do
  let Rsq := R.map (· ^ 2)
  forRange 0 R.d (Arr2.zeros R.r R.c) fun d E => do
    let th ← theta.at' d
    let Rd ← Rsq.slab d
    E.add (Rd.smul th)

/-- `rat_quad_calc_KernBase`: kernel/KernelRatQuad.py:16-50. -/
def ratQuadKernBase (R : Arr3) (theta : Arr1) (alpha : ℝ) : Py Arr2 := do
  let temp ← ratQuadSum R theta
  pure (temp.map fun s => (1 + s / alpha) ^ (-alpha))

/-- `rat_quad_calc_KernBase_hess_x`: kernel/KernelRatQuad.py:52-96. -/
def ratQuadKernBaseHessX (R : Arr3) (theta : Arr1) (alpha : ℝ) : Py Arr3 := do
  let temp ← ratQuadSum R theta
  let B := temp.map fun s => 1 + s / alpha
  let Bm1 := B.map fun b => b ^ (-alpha - 1)
  let Bm2 := B.map fun b => b ^ (-alpha - 2)
  let scalar1 := 4 * (1 + 1 / alpha)
  forRange 0 R.d (Arr3.zeros R.d (R.r * R.d) R.c) fun k H => do
    let thk ← theta.at' k
    let H ← H.subSlice k (k * R.r) ((k + 1) * R.r) 0 R.c (Bm1.smul (2 * thk))
    forRange 0 R.d H fun i H => do
      let thi ← theta.at' i
      H.addSlice k (i * R.r) ((i + 1) * R.r) 0 R.c
        (← (← ((← R.slab i).smul (scalar1 * thi * thk)).mul (← R.slab k)).mul Bm2)

/-- `rat_quad_calc_KernBase_grad_th`: kernel/KernelRatQuad.py:98-129. -/
def ratQuadKernBaseGradTh (R : Arr3) (theta : Arr1) (alpha : ℝ) : Py Arr3 := do
  pyAssert (R.r = R.c)
  let base ← ratQuadSum R theta
  let Rsq := R.map (· ^ 2)
  let Bm1 := base.map fun s => (1 + s / alpha) ^ (-alpha - 1)
  forRange 0 R.d (Arr3.zeros R.d R.r R.r) fun d D => do
    D.setSlice d 0 R.r 0 R.r (← ((← Rsq.slab d).map fun x => -x).mul Bm1)

/-- `rat_quad_calc_KernBase_grad_alpha`: kernel/KernelRatQuad.py:131-163. The accumulator has shape
`(n1, n1)`, line 153, so the loop raises unless `n1 = n2` (or the sizes broadcast). -/
def ratQuadKernBaseGradAlpha (R : Arr3) (theta : Arr1) (alpha : ℝ) : Py Arr3 := do
  let Rsq := R.map (· ^ 2)
  let mat1 ← forRange 0 R.d (Arr2.zeros R.r R.r) fun d E => do
    let th ← theta.at' d
    let Rd ← Rsq.slab d
    E.add (Rd.smul th)
  let B := mat1.map fun s => 1 + s / alpha
  let e ← (mat1.map fun s => s / alpha).sub (B.map fun b => b * Real.log b)
  (Arr3.zeros 1 R.r R.r).setSlice 0 0 R.r 0 R.r (← (B.map fun b => b ^ (-alpha - 1)).mul e)

/-- Arrays after masking, kernel/KernelRatQuad.py:472-516. -/
structure RatQuadTerms where
  n1g : ℕ
  n2g : ℕ
  Rg1 : Arr3
  Rg2 : Arr3
  Rgg : Arr3
  Rsqgg : Arr3
  B1g1 : Arr2   -- B_m_alpha_m1_g1
  B1g2 : Arr2   -- B_m_alpha_m1_g2
  B1gg : Arr2   -- B_m_alpha_m1_gg
  B2gg : Arr2   -- B_m_alpha_m2_gg

/-- "Modify terms for case where not all grads are used": kernel/KernelRatQuad.py:472-516.
When only the first mask is given, `B_m_alpha_m1_g2 = B_m_alpha_m1_g1` (line 502). -/
def ratQuadTerms (R Rsq : Arr3) (B1 B2 : Arr2) (m1 m2 : Option (List Bool)) : Py RatQuadTerms :=
  match m1, m2 with
  | none, none => pure ⟨R.r, R.c, R, R, R, Rsq, B1, B1, B1, B2⟩
  | _, _ => do
    let (n1g, Rg1, Rsqg1, B1g1, B2g1) ← (match m1 with
      | none => (pure (R.r, R, Rsq, B1, B2) : Py (ℕ × Arr3 × Arr3 × Arr2 × Arr2))
      | some m => do
        pure (nTrue m, ← R.maskRows m, ← Rsq.maskRows m, ← B1.maskRows m, ← B2.maskRows m))
    match m2 with
    | none => pure ⟨n1g, R.c, Rg1, R, Rg1, Rsqg1, B1g1, B1g1, B1g1, B2g1⟩
    | some m => do
      let Rg2 ← R.maskCols m
      let Rgg ← Rg1.maskCols m
      let Rsqgg ← Rsqg1.maskCols m
      let B1g2 ← B1.maskCols m
      let B1gg ← B1g1.maskCols m
      let B2gg ← B2g1.maskCols m
      pure ⟨n1g, nTrue m, Rg1, Rg2, Rgg, Rsqgg, B1g1, B1g2, B1gg, B2gg⟩

/-- `rat_quad_calc_KernGrad`: kernel/KernelRatQuad.py:437-552. -/
def ratQuadKernGrad (R : Arr3) (theta : Arr1) (alpha : ℝ) (m1 m2 : Option (List Bool)) : Py Arr2 := do
  let temp ← ratQuadSum R theta
  let Rsq := R.map (· ^ 2)
  let mat1 := temp.map fun s => 1 + s / alpha
  let B0 := mat1.map fun b => b ^ (-alpha)
  let B1 := mat1.map fun b => b ^ (-alpha - 1)
  let B2 := mat1.map fun b => b ^ (-alpha - 2)
  let t ← ratQuadTerms R Rsq B1 B2 m1 m2
  let n1 := R.r
  let n2 := R.c
  let A ← (Arr2.zeros (n1 + t.n1g * R.d) (n2 + t.n2g * R.d)).setSlice 0 n1 0 n2 B0
  let const := 4 * (1 + 1 / alpha)
  forRange 0 R.d A fun i A => do
    let thi ← theta.at' i
    let ri1 := n1 + i * t.n1g
    let ri2 := ri1 + t.n1g
    let ci1 := n2 + i * t.n2g
    let ci2 := ci1 + t.n2g
    let A ← A.setSlice ri1 ri2 0 n2 (← ((← t.Rg1.slab i).smul (-2 * thi)).mul t.B1g1)
    let A ← A.setSlice 0 n1 ci1 ci2 (← ((← t.Rg2.slab i).smul (2 * thi)).mul t.B1g2)
    let sq ← ((← t.Rsqgg.slab i).smul (const * thi ^ 2)).mul t.B2gg
    let A ← A.setSlice ri1 ri2 ci1 ci2 (← (t.B1gg.smul (2 * thi)).sub sq)
    forRange (i + 1) R.d A fun j A => do
      let thj ← theta.at' j
      let rj1 := n1 + j * t.n1g
      let rj2 := rj1 + t.n1g
      let cj1 := n2 + j * t.n2g
      let cj2 := cj1 + t.n2g
      let term ← (← ((← t.Rgg.slab i).smul (-const * thi * thj)).mul (← t.Rgg.slab j)).mul t.B2gg
      let A ← A.addSlice ri1 ri2 cj1 cj2 term
      A.addSlice rj1 rj2 ci1 ci2 term

/-- `rat_quad_calc_KernGrad_grad_x`: kernel/KernelRatQuad.py:554-632. Note `c?2 = c?1 + n2`. -/
def ratQuadKernGradGradX (R : Arr3) (theta : Arr1) (alpha : ℝ) (m2 : Option (List Bool)) : Py Arr3 := do
  let n1 := R.r
  let n2 := R.c
  let temp ← ratQuadSum R theta
  let B := temp.map fun s => 1 + s / alpha
  let B1 := B.map fun b => b ^ (-alpha - 1)
  let B2 := B.map fun b => b ^ (-alpha - 2)
  let B3 := B.map fun b => b ^ (-alpha - 3)
  let (n2g, Rg2, B2g2, B3g2) ← (match m2 with
    | none => (pure (n2, R, B2, B3) : Py (ℕ × Arr3 × Arr2 × Arr2))
    | some m => do pure (nTrue m, ← R.maskCols m, ← B2.maskCols m, ← B3.maskCols m))
  let scalar1 := 4 * (1 + 1 / alpha)
  let scalar2 := 2 * (1 + 2 / alpha) * scalar1
  forRange 0 R.d (Arr3.zeros R.d (n1 * R.d) (n2 + n2g * R.d)) fun k D => do
    let thk ← theta.at' k
    let rk1 := k * n1
    let rk2 := rk1 + n1
    let ck1 := n2 + k * n2g
    let ck2 := ck1 + n2
    let D ← D.subSlice k rk1 rk2 0 n2 (B1.smul (2 * thk))
    forRange 0 R.d D fun i D => do
      let thi ← theta.at' i
      let ri1 := i * n1
      let ri2 := ri1 + n1
      let ci1 := n2 + i * n2g
      let ci2 := ci1 + n2
      let D ← D.addSlice k ri1 ri2 0 n2
        (← (← ((← R.slab i).smul (scalar1 * thi * thk)).mul (← R.slab k)).mul B2)
      let D ← D.subSlice k ri1 ri2 ci1 ci2 (← ((← Rg2.slab k).smul (scalar1 * thi * thk)).mul B2g2)
      let D ← D.subSlice k ri1 ri2 ck1 ck2 (← ((← Rg2.slab i).smul (scalar1 * thi * thk)).mul B2g2)
      let D ← D.subSlice k rk1 rk2 ci1 ci2 (← ((← Rg2.slab i).smul (scalar1 * thi * thk)).mul B2g2)
      forRange 0 R.d D fun j D => do
        let thj ← theta.at' j
        let cj1 := n2 + j * n2g
        let cj2 := cj1 + n2
        D.addSlice k ri1 ri2 cj1 cj2
          (← (← (← ((← Rg2.slab i).smul (scalar2 * thi * thj * thk)).mul (← Rg2.slab j)).mul
            (← Rg2.slab k)).mul B3g2)

/-- Masked arrays of `rat_quad_calc_KernGrad_grad_th`: kernel/KernelRatQuad.py:668-695. -/
structure RatQuadThTerms where
  ng : ℕ
  Rg1 : Arr3
  Rgg : Arr3
  Rsqg1 : Arr3
  Rsqgg : Arr3
  B1g1 : Arr2
  B1gg : Arr2
  B2g1 : Arr2
  B2gg : Arr2
  B3gg : Arr2

/-- "Modify terms": kernel/KernelRatQuad.py:668-695. -/
def ratQuadThTerms (R Rsq : Arr3) (B1 B2 B3 : Arr2) (m : Option (List Bool)) : Py RatQuadThTerms :=
  match m with
  | none => pure ⟨R.r, R, R, Rsq, Rsq, B1, B1, B2, B2, B3⟩
  | some m => do
    let Rg1 ← R.maskRows m
    let Rgg ← Rg1.maskCols m
    let Rsqg1 ← Rsq.maskRows m
    let Rsqgg ← Rsqg1.maskCols m
    let B1g1 ← B1.maskRows m
    let B1gg ← B1g1.maskCols m
    let B2g1 ← B2.maskRows m
    let B2gg ← B2g1.maskCols m
    let B3g1 ← B3.maskRows m
    let B3gg ← B3g1.maskCols m
    pure ⟨nTrue m, Rg1, Rgg, Rsqg1, Rsqgg, B1g1, B1gg, B2g1, B2gg, B3gg⟩

/-- `rat_quad_calc_KernGrad_grad_th`: kernel/KernelRatQuad.py:634-748. -/
def ratQuadKernGradGradTh (R : Arr3) (theta : Arr1) (alpha : ℝ) (m : Option (List Bool)) : Py Arr3 := do
  let n1 := R.r
  pyAssert (R.r = R.c)
  let Rsq := R.map (· ^ 2)
  let base ← ratQuadSum R theta
  let B1 := base.map fun s => (1 + s / alpha) ^ (-alpha - 1)
  let B2 := base.map fun s => (1 + s / alpha) ^ (-alpha - 2)
  let B3 := base.map fun s => (1 + s / alpha) ^ (-alpha - 3)
  let t ← ratQuadThTerms R Rsq B1 B2 B3 m
  let nRows := n1 + t.ng * R.d
  let scalar1 := 1 + 1 / alpha
  let scalar2 := scalar1 * (1 + 2 / alpha)
  forRange 0 R.d (Arr3.zeros R.d nRows nRows) fun d D => do
    let rd1 := n1 + d * t.ng
    let rd2 := rd1 + t.ng
    let D ← D.setSlice d 0 n1 0 n1 (← ((← Rsq.slab d).map fun x => -x).mul B1)
    let term ← ((← t.Rg1.slab d).smul (-2)).mul t.B1g1
    let D ← D.addSlice d rd1 rd2 0 n1 term
    let D ← D.addSlice d 0 n1 rd1 rd2 term.T
    let D ← D.addSlice d rd1 rd2 rd1 rd2 (t.B1gg.smul 2)
    forRange 0 R.d D fun i D => do
      let thi ← theta.at' i
      let ri1 := n1 + i * t.ng
      let ri2 := ri1 + t.ng
      let term ← (← ((← t.Rg1.slab i).smul (2 * scalar1 * thi)).mul (← t.Rsqg1.slab d)).mul t.B2g1
      let D ← D.addSlice d ri1 ri2 0 n1 term
      let D ← D.addSlice d 0 n1 ri1 ri2 term.T
      let term ← (← ((← t.Rgg.slab i).smul (-4 * scalar1 * thi)).mul (← t.Rgg.slab d)).mul t.B2gg
      let D ← D.addSlice d rd1 rd2 ri1 ri2 term
      let D ← D.addSlice d ri1 ri2 rd1 rd2 term
      let e1 ← ((← t.Rsqgg.slab d).smul (-2 * scalar1 * thi)).mul t.B2gg
      let e2 ← (← ((← t.Rsqgg.slab i).smul (4 * scalar2 * thi ^ 2)).mul (← t.Rsqgg.slab d)).mul t.B3gg
      let D ← D.addSlice d ri1 ri2 ri1 ri2 (← e1.add e2)
      forRange (i + 1) R.d D fun j D => do
        let thj ← theta.at' j
        let cj1 := n1 + j * t.ng
        let cj2 := cj1 + t.ng
        let term ← (← (← ((← t.Rgg.slab i).smul (4 * scalar2 * thi * thj)).mul (← t.Rgg.slab j)).mul
          (← t.Rsqgg.slab d)).mul t.B3gg
        let D ← D.addSlice d ri1 ri2 cj1 cj2 term
        D.addSlice d cj1 cj2 ri1 ri2 term

/-- Masked arrays of `rat_quad_calc_KernGrad_grad_alpha`: kernel/KernelRatQuad.py:791-816. -/
structure RatQuadAlphaTerms where
  ng : ℕ
  Rg1 : Arr3
  Rgg : Arr3
  Rsqgg : Arr3
  T0g1 : Arr2
  T1gg : Arr2
  T2gg : Arr2

/-- "Modify terms": kernel/KernelRatQuad.py:791-816. -/
def ratQuadAlphaTerms (R Rsq : Arr3) (T0 T1 T2 : Arr2) (m : Option (List Bool)) : Py RatQuadAlphaTerms :=
  match m with
  | none => pure ⟨R.r, R, R, Rsq, T0, T1, T2⟩
  | some m => do
    let Rg1 ← R.maskRows m
    let Rgg ← Rg1.maskCols m
    let Rsqg1 ← Rsq.maskRows m
    let Rsqgg ← Rsqg1.maskCols m
    let T0g1 ← T0.maskRows m
    let T1g1 ← T1.maskRows m
    let T1gg ← T1g1.maskCols m
    let T2g1 ← T2.maskRows m
    let T2gg ← T2g1.maskCols m
    pure ⟨nTrue m, Rg1, Rgg, Rsqgg, T0g1, T1gg, T2gg⟩

/-- `rat_quad_calc_KernGrad_grad_alpha`: kernel/KernelRatQuad.py:750-843. -/
def ratQuadKernGradGradAlpha (R : Arr3) (theta : Arr1) (alpha : ℝ) (m : Option (List Bool)) :
    Py Arr3 := do
  let n1 := R.r
  let Rsq := R.map (· ^ 2)
  pyAssert (R.r = R.c)
  let mat1 ← ratQuadSum R theta
  let B := mat1.map fun s => 1 + s / alpha
  let B2 := B.map fun b => b ^ (-alpha - 2)
  let BlnB := B.map fun b => b * Real.log b
  let T0 ← (B2.smul 2).mul (← (mat1.smul ((-alpha - 1) / alpha ^ 2)).add BlnB)
  let T1 ← (B2.smul 2).mul (← (mat1.smul ((alpha + 1) / alpha ^ 2)).sub BlnB)
  let T2 ← ((B.map fun b => b ^ (-alpha - 3)).smul 4).mul
    (← (← (B.map fun b => b / alpha ^ 2).sub (mat1.smul ((1 + 1 / alpha) * (alpha + 2) / alpha ^ 2))).add
      (BlnB.smul (1 + 1 / alpha)))
  let t ← ratQuadAlphaTerms R Rsq T0 T1 T2 m
  let nRows := n1 + t.ng * R.d
  let e ← (mat1.map fun s => s / alpha).sub (B.map fun b => b * Real.log b)
  let D ← (Arr3.zeros 1 nRows nRows).setSlice 0 0 n1 0 n1 (← (B.map fun b => b ^ (-alpha - 1)).mul e)
  forRange 0 R.d D fun i D => do
    let thi ← theta.at' i
    let ri1 := n1 + i * t.ng
    let ri2 := ri1 + t.ng
    let term ← ((← t.Rg1.slab i).smul thi).mul t.T0g1
    let D ← D.addSlice 0 ri1 ri2 0 n1 term
    let D ← D.addSlice 0 0 n1 ri1 ri2 term.T
    let D ← D.addSlice 0 ri1 ri2 ri1 ri2
      (← (t.T1gg.smul thi).add (← ((← t.Rsqgg.slab i).smul (thi ^ 2)).mul t.T2gg))
    forRange (i + 1) R.d D fun j D => do
      let thj ← theta.at' j
      let cj1 := n1 + j * t.ng
      let cj2 := cj1 + t.ng
      let term ← (← ((← t.Rgg.slab i).smul (thi * thj)).mul (← t.Rgg.slab j)).mul t.T2gg
      let D ← D.addSlice 0 ri1 ri2 cj1 cj2 term
      D.addSlice 0 cj1 cj2 ri1 ri2 term

/-- `rat_quad_hp_kernel_default`: kernel/KernelRatQuad.py:849. -/
def ratQuadDefault : ℝ := 2
/-- `rat_quad_hp_kernel_range`: kernel/KernelRatQuad.py:850. -/
def ratQuadRange : ℝ × ℝ := (1 / 1000, 10)

/-- `rat_quad_theta2gamma`: kernel/KernelRatQuad.py:852-855. -/
def ratQuadTheta2gamma (th : ℝ) : ℝ := Real.sqrt (2 * th)

/-- `rat_quad_gamma2theta`: kernel/KernelRatQuad.py:857-860. -/
def ratQuadGamma2theta (g : ℝ) : ℝ := 0.5 * g ^ 2

end GP
