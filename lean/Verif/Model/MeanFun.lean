import Verif.Model.Cov

/-! Model of `gpgradpy/src/eval/GpMeanFun.py`. `set_mean_fun_op` (lines 195-204) accepts only `'poly_ord_0'`, so that
`n_beta_coeff` is 1; the basis functions are modelled for the number `nb` of coefficients that the code supports
(1, or `dim + 1` for order one), the object-level code uses `nBetaCoeff`. -/

open Np Matrix

noncomputable section

namespace GP

/-- `self.n_beta_coeff`: eval/GpMeanFun.py:199-200. -/
def nBetaCoeff : ℕ := 1

/-- `vand_base`: eval/GpMeanFun.py:147, 159-163. Columns that the code leaves at NaN (none if `nb` is 1 or `dim + 1`)
are 0 here. -/
def vandBase (dim nb : ℕ) (X : Arr2) : Py Arr2 := do
  let V : Arr2 := Arr2.zeros X.r nb
  if nb = 0 then .error .index                                                                  -- line 160
  else
    let V1 : Arr2 := ⟨V.r, V.c, fun i j => if j = 0 then 1 else V.get i j⟩
    if 1 < nb then V1.setSlice 0 X.r 1 (dim + 1) X                                              -- line 163
    else pure V1

/-- `vand_grad`: eval/GpMeanFun.py:150, 165-166. -/
def vandGrad (dim nb : ℕ) (X : Arr2) : Py Arr3 :=
  let G := Arr3.zeros dim X.r nb
  if 1 < nb then
    forRange 0 dim G fun i G =>
      if i + 1 < nb then .ok ⟨G.d, G.r, G.c, fun d a k => if d = i ∧ k = i + 1 then 1 else G.get d a k⟩
      else .error .index
  else .ok G

/-- Optional masking `A[:, mask, :]`. -/
def maskRowsOpt (A : Arr3) : Option (List Bool) → Py Arr3
  | none => .ok A
  | some m => A.maskRows m

/-- `np.vstack((A, G.reshape((g*dim, nb))))`: eval/GpMeanFun.py:182-187. -/
def vstackGrad (A : Arr2) (G : Arr3) : Py Arr2 :=
  if A.c = G.c then .ok ⟨A.r + G.d * G.r, A.c, fun p k =>
    if p < A.r then A.get p k else G.get ((p - A.r) / G.r) ((p - A.r) % G.r) k⟩ else .error .shape

/-- `calc_aug_vand`: eval/GpMeanFun.py:172-191. The mask argument and `self.bvec_use_grad` (line 185) are the same at
the only call. -/
def calcAugVand (dim nb : ℕ) (useGrad : Bool) (X : Arr2) (mask : Option (List Bool)) : Py Arr2 := do
  pyAssert (X.c = dim)                                                                          -- line 176
  let B ← vandBase dim nb X
  if useGrad then
    let G ← vandGrad dim nb X
    let G ← maskRowsOpt G mask
    vstackGrad B G
  else pure B

/-- `np.einsum('ijk,k->ji', vand_grad, beta_vec)`: eval/GpMeanFun.py:55. -/
def einsumMeanGrad (G : Arr3) (beta : Arr1) : Arr2 :=
  ⟨G.r, G.d, fun a i => ∑ k ∈ Finset.range G.c, G.get i a k * beta.get k⟩

/-- The gradient part of `eval_mean_fun_poly`: eval/GpMeanFun.py:51-55. -/
def meanGradPart (dim nb : ℕ) (X : Arr2) (beta : Arr1) (mask : Option (List Bool)) (calcGrad : Bool) : Py (Option Arr2) :=
  if calcGrad then do
    let G ← vandGrad dim nb X
    let G ← maskRowsOpt G mask
    pure (some (einsumMeanGrad G beta))
  else pure none

/-- `eval_mean_fun_poly` without a Hessian mask (none is ever passed): eval/GpMeanFun.py:14-67. `vand_hess` is an array of
zeros (line 153), so the Hessian of the mean function is `zeros (n, dim, dim)`. -/
def evalMeanFun (dim nb : ℕ) (X : Arr2) (beta : Arr1) (mask : Option (List Bool)) (calcGrad calcHess : Bool) :
    Py (Arr1 × Option Arr2 × Option Arr3) := do
  pyAssert (beta.n = nb)                                                                        -- line 45
  let B ← vandBase dim nb X
  let fval : Arr1 := ⟨B.r, fun p => ∑ k ∈ Finset.range B.c, B.get p k * beta.get k⟩             -- line 49
  let fgrad ← meanGradPart dim nb X beta mask calcGrad
  pure (fval, fgrad, if calcGrad && calcHess then some (Arr3.zeros X.r dim dim) else none)

/-- The tuple returned by `calc_model_max_lkd`. -/
structure MeanFit (n b m : ℕ) where
  val : Vec n
  gradHp : Option (Mat n m)
  beta : Vec b
  betaGrad : Option (Mat b m)

/-- `calc_model_max_lkd_poly` from the basis matrix on: eval/GpMeanFun.py:101-122. `np.linalg.solve` raises for a
singular matrix. `dK` holds the `m` derivatives of the matrix. -/
def calcModelMaxLkd {n b m : ℕ} (F : ChoFac n) (V : Mat n b) (y : Vec n) (dK : Option (Fin m → Mat n n)) :
    Py (MeanFit n b m) :=
  let invKV := choSolve F V                                                                     -- line 101
  if (Vᵀ * invKV).det = 0 then .error .linalg
  else
    let term1 : Mat b n := (Vᵀ * invKV)⁻¹ * invKVᵀ                                              -- line 102
    let beta := term1 *ᵥ y                                                                      -- line 106
    let val := V *ᵥ beta
    match dK with
    | none => .ok ⟨val, none, beta, none⟩
    | some dK =>
      let invKy := choSolveV F y
      let term2 := invKV *ᵥ beta - invKy                                                        -- line 115
      let betaGrad : Mat b m := Matrix.of fun i k => ∑ j, ∑ l, term1 i j * dK k j l * term2 l   -- line 116
      .ok ⟨val, some (V * betaGrad), beta, some betaGrad⟩

end GP
