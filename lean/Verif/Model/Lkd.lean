import Verif.Model.MeanFun
import Verif.Model.CommonFun

/-! Model of `gpgradpy/src/optz/CalcLkd.py`, on matrices. `n` data, `b` coefficients of the mean function, `m`
hyperparameters. -/

open Np Matrix

noncomputable section

namespace GP

/-- The likelihood options read from `self`: GaussianProcess.py (`lkd_varK_pnlt_*`, `lkd_use_adj_mtd`). -/
structure LkdOpts where
  pnltUse : Bool
  pnltC1 : ℝ
  pnltC2 : ℝ
  pnltLbVar : ℝ
  useAdj : Bool

/-- `LkdInfo`: optz/CalcLkd.py:14-26. -/
structure LkdInfo (b m : ℕ) where
  beta : Option (Vec b) := none
  betaGrad : Option (Mat b m) := none
  varK : Option ℝ := none
  varKGrad : Option (Vec m) := none
  lnDet : Option ℝ := none
  lnDetGrad : Option (Vec m) := none
  lnLkd : Option ℝ := none
  lnLkdGrad : Option (Vec m) := none
  cond : Option ℝ := none
  condGrad : Option (Vec m) := none

/-- `np.var` of a vector. -/
def npVar (v : Arr1) : ℝ :=
  (∑ i ∈ Finset.range v.n, (v.get i - (∑ j ∈ Finset.range v.n, v.get j) / v.n) ^ 2) / v.n

/-- The default of `varK_min`: optz/CalcLkd.py:98. -/
def varKMin : ℝ := 1 / 10 ^ 32

/-- `np.einsum('i,kij,j', u, dK, w)`. -/
def einsumQuad {n m : ℕ} (u : Vec n) (dK : Fin m → Mat n n) (w : Vec n) : Vec m :=
  fun k => ∑ i, ∑ j, u i * dK k i j * w j

/-- `np.einsum('ijk,jk', dK, A)`. -/
def einsumAdj {n m : ℕ} (dK : Fin m → Mat n n) (A : Mat n n) : Vec m := fun k => ∑ i, ∑ j, dK k i j * A i j

/-- `calc_lkd_opt_varK`: optz/CalcLkd.py:97-116. -/
def optVarK {n m : ℕ} (y mval : Vec n) (F : ChoFac n) (mgrad : Option (Mat n m)) (dK : Option (Fin m → Mat n n)) :
    ℝ × Option (Vec m) :=
  let res := y - mval
  let invRes := choSolveV F res
  let varK := max varKMin (res ⬝ᵥ invRes / n)                                                   -- line 108
  match mgrad, dK with
  | some mg, some dK => (varK, some fun k => (-2 * (invRes ᵥ* mg) k - einsumQuad invRes dK invRes k) / n)  -- lines 113-114
  | _, _ => (varK, none)

/-- `calc_lkd_varK_pnlt`: optz/CalcLkd.py:118-133. -/
def varKPnlt (o : LkdOpts) (varK : ℝ) (fval : Arr1) : ℝ × ℝ :=
  if o.pnltUse then
    let v := max (npVar fval) o.pnltLbVar                                                       -- line 121
    let mx := max (varK - o.pnltC2 * v) 0                                                       -- line 122
    (o.pnltC1 * v * mx ^ 2, 2 * o.pnltC1 * v * mx)
  else (0, 0)

/-- `calc_detKmat`: optz/CalcLkd.py:348-367. -/
def calcDetK {n m : ℕ} (F : ChoFac n) (dK : Option (Fin m → Mat n n)) : ℝ × Option (Vec m) :=
  (choLogDet F, dK.map fun dK k => trace (choSolve F (dK k)))

/-- `calc_lkd_w_Kern_mtd_direct`: optz/CalcLkd.py:135-147. -/
def lkdDirect {m : ℕ} (n : ℕ) (varK lnDet : ℝ) (varKGrad lnDetGrad : Option (Vec m)) (pv pg : ℝ) : ℝ × Option (Vec m) :=
  let l := -(n * Real.log varK + lnDet) / 2 - pv
  match varKGrad, lnDetGrad with
  | some vg, some dg => (l, some fun k => -0.5 * (n * (vg k / varK) + dg k) - pg * vg k)
  | _, _ => (l, none)

/-- `calc_lkd_w_Kern_mtd_adjoint`: optz/CalcLkd.py:149-181. Returns `varK, ln_det_Kern, ln_lkd, ln_lkd_grad`. -/
def lkdAdjoint {n m : ℕ} (o : LkdOpts) (fval : Arr1) (y mval : Vec n) (F : ChoFac n) (dK : Option (Fin m → Mat n n))
    (calcLkd : Bool) : ℝ × ℝ × Option ℝ × Option (Vec m) :=
  let res := y - mval
  let invRes := choSolveV F res
  let varK := max varKMin (res ⬝ᵥ invRes / n)                                                   -- line 159
  let pn := varKPnlt o varK fval
  let lnDet := choLogDet F                                                                      -- line 165
  if calcLkd then
    let l := -(n * Real.log varK + lnDet) / 2 - pn.1                                            -- line 168
    match dK with
    | none => (varK, lnDet, some l, none)
    | some dK =>
      let adjVarK : Mat n n := vecMulVec invRes (-(fun i => invRes i / n))                      -- line 173
      let adjLnDet : Mat n n := choSolve F 1                                                    -- line 174
      let adj : Mat n n := (pn.2 + n / (2 * varK)) • (-adjVarK) - (0.5 : ℝ) • adjLnDet          -- line 175
      (varK, lnDet, some l, some (einsumAdj dK adj))                                            -- line 177
  else (varK, lnDet, none, none)

/-- `calc_lkd_all_wo_noise` (the `theta` argument is unused): optz/CalcLkd.py:30-95. `V` is the basis matrix that
`calc_model_max_lkd` builds. -/
def lkdWoNoise {n b m : ℕ} (o : LkdOpts) (fval : Arr1) (y : Vec n) (V : Mat n b) (F : ChoFac n)
    (dK : Option (Fin m → Mat n n)) (calcLkd useAdj : Bool) : Py (LkdInfo b m) :=
  if useAdj then do
    let fit ← calcModelMaxLkd (m := m) F V y none                                               -- line 58
    let r := lkdAdjoint o fval y fit.val F dK calcLkd
    pure { beta := some fit.beta, betaGrad := fit.betaGrad, varK := some r.1, varKGrad := none,
           lnDet := some r.2.1, lnDetGrad := none, lnLkd := r.2.2.1, lnLkdGrad := r.2.2.2 }
  else do
    let fit ← calcModelMaxLkd F V y dK                                                          -- line 68
    let vk := optVarK y fit.val F fit.gradHp dK
    if calcLkd then
      let pn := varKPnlt o vk.1 fval
      let ld := calcDetK F dK
      let r := lkdDirect n vk.1 ld.1 vk.2 ld.2 pn.1 pn.2
      pure { beta := some fit.beta, betaGrad := fit.betaGrad, varK := some vk.1, varKGrad := vk.2,
             lnDet := some ld.1, lnDetGrad := ld.2, lnLkd := some r.1, lnLkdGrad := r.2 }
    else
      pure { beta := some fit.beta, betaGrad := fit.betaGrad, varK := some vk.1, varKGrad := vk.2 }

/-- `calc_lkd_w_Kcov`: optz/CalcLkd.py:253-266. -/
def lkdWKcov {n m : ℕ} (diff sol : Vec n) (lnDet : ℝ) (dK : Option (Fin m → Mat n n)) (lnDetGrad : Option (Vec m))
    (mgrad : Option (Mat n m)) : ℝ × Option (Vec m) :=
  let l := -(lnDet + diff ⬝ᵥ sol) / 2
  match dK, lnDetGrad, mgrad with
  | some dK, some dg, some mg => (l, some fun k => -0.5 * dg k + 0.5 * einsumQuad sol dK sol k + (sol ᵥ* mg) k)
  | _, _, _ => (l, none)

/-- `calc_lkd_all_w_noise` (the `theta` argument is unused): optz/CalcLkd.py:185-251. -/
def lkdWNoise {n b m : ℕ} (y : Vec n) (V : Mat n b) (F : ChoFac n)
    (dK : Option (Fin m → Mat n n)) (calcLkd useAdj : Bool) : Py (LkdInfo b m) := do
  let fit ← calcModelMaxLkd F V y dK                                                            -- line 215
  let diff := y - fit.val                                                                       -- line 219
  let sol := choSolveV F diff
  let base : LkdInfo b m := { beta := some fit.beta, betaGrad := fit.betaGrad }
  if calcLkd then
    if useAdj then
      let lnDet := choLogDet F                                                                  -- line 224
      let l := -(lnDet + diff ⬝ᵥ sol) / 2                                                       -- line 225
      pure { base with
        lnDet := some lnDet, lnLkd := some l
        lnLkdGrad := dK.map fun dK => einsumAdj dK ((0.5 : ℝ) • (vecMulVec sol sol - choSolve F 1)) }  -- lines 232-234
    else
      let ld := calcDetK F dK
      let r := lkdWKcov diff sol ld.1 dK ld.2 fit.gradHp
      pure { base with lnDet := some ld.1, lnDetGrad := ld.2, lnLkd := some r.1, lnLkdGrad := r.2 }
  else pure base

end GP
