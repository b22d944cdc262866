import Verif.Model.Cov
import Mathlib.Analysis.SpecialFunctions.Pow.Real

/-! Model of the hyperparameter layout: `gpgradpy/src/optz/GpHparaOptz.py` (lines 18-138, 187-196) and
`gpgradpy/src/base/GpHpara.py` (lines 28-31, 56-103). -/

open Np

noncomputable section

namespace GP

/-- `optz_log_hp_theta`, `optz_log_hp_kernel`, `optz_log_hp_var`: GaussianProcess.py:41-43. -/
structure LogOpts where
  theta : Bool
  kernel : Bool
  var : Bool

/-- `HparaOptzInfo`: optz/GpHparaOptz.py:18-31. The index of a scalar hyperparameter is a number; it is 0 (the code: an
empty array) and never read if the hyperparameter is not optimised. -/
structure HpInfo where
  nHp : ℕ
  hasTheta : Bool
  idxTheta : List ℕ
  hasKernel : Bool
  idxKernel : ℕ
  hasVarK : Bool
  idxVarK : ℕ
  hasVarFval : Bool
  idxVarFval : ℕ
  hasVarFgrad : Bool
  idxVarFgrad : ℕ
  /-- `bvec_log_optz`, of size `nHp` -/
  logOptz : List Bool

/-- The integer value of a bool. -/
def b2n (b : Bool) : ℕ := if b then 1 else 0

/-- `bvec[idx] = 1` for an integer index. -/
def setTrue (l : List Bool) (i : ℕ) : Py (List Bool) := if i < l.length then .ok (l.set i true) else .error .index

/-- `if cond: bvec[idx] = 1`. -/
def setTrueIf (b : Bool) (l : List Bool) (i : ℕ) : Py (List Bool) := if b then setTrue l i else .ok l

/-- One scalar hyperparameter of `set_hp_optz_info` (lines 93-129): returns the counter, the index and the log mask. -/
def addScalar (has log ok : Bool) (cnt : ℕ) (bvec : List Bool) : Py (ℕ × ℕ × List Bool) :=
  if has then do
    pyAssert (ok = true)
    let b ← setTrueIf log bvec cnt
    pure (cnt + 1, cnt, b)
  else .ok (cnt, 0, bvec)

/-- The theta part of `set_hp_optz_info` (lines 82-91): returns the counter, the indices and the log mask. -/
def addTheta (has log : Bool) (dim cnt : ℕ) (bvec : List Bool) : Py (ℕ × List ℕ × List Bool) :=
  if has then do
    let idx := List.range' cnt dim                                                              -- line 84
    let b ← if log then idx.foldlM setTrue bvec else pure bvec                                  -- line 88
    pure (cnt + dim, idx, b)
  else .ok (cnt, [], bvec)

/-- `set_hp_optz_info`: optz/GpHparaOptz.py:44-138. -/
def setHpOptzInfo (lo : LogOpts) (dim : ℕ) (kernHasHp knownFval knownFgrad : Bool)
    (hasTheta hasKernel hasVarK hasVarFval hasVarFgrad : Bool) : Py HpInfo := do
  let nHp := b2n hasTheta * dim + b2n hasKernel + b2n hasVarK + b2n hasVarFval + b2n hasVarFgrad  -- line 77
  let (cnt, idxTheta, bvec) ← addTheta hasTheta lo.theta dim 0 (List.replicate nHp false)
  let (cnt, idxKernel, bvec) ← addScalar hasKernel lo.kernel kernHasHp cnt bvec
  let (cnt, idxVarK, bvec) ← addScalar hasVarK lo.var true cnt bvec
  let (cnt, idxVarFval, bvec) ← addScalar hasVarFval lo.var (!knownFval) cnt bvec
  let (_, idxVarFgrad, bvec) ← addScalar hasVarFgrad lo.var (!knownFgrad) cnt bvec
  pure {
    nHp := nHp
    hasTheta := hasTheta, idxTheta := idxTheta, hasKernel := hasKernel, idxKernel := idxKernel
    hasVarK := hasVarK, idxVarK := idxVarK, hasVarFval := hasVarFval, idxVarFval := idxVarFval
    hasVarFgrad := hasVarFgrad, idxVarFgrad := idxVarFgrad, logOptz := bvec }

/-- `setup_hp_idx4optz`: optz/GpHparaOptz.py:187-196, with `b_optz_var_fval` and `b_optz_var_fgrad` as `set_data` sets them
(GaussianProcess.py:306-321). `optKernel` is `self.b_optz_hp_kernel`. -/
def setupHpIdx (g : Gp) (lo : LogOpts) (optKernel : Bool) : Py HpInfo :=
  setHpOptzInfo lo g.dim (kernelHasHp g.kernel) g.knownFval g.knownFgrad true (optKernel && kernelHasHp g.kernel) g.noisy
    (!g.knownFval) (g.useGrad && !g.knownFgrad)

/-- `hp_vec_mod[bvec] = 10**hp_vec_mod[bvec]`: base/GpHpara.py:71-73. The boolean index must have the size of the vector. -/
def powMasked (v : Arr1) (m : List Bool) : Py Arr1 :=
  if m.length = v.n then .ok ⟨v.n, fun i => if m.getD i false then (10 : ℝ) ^ v.get i else v.get i⟩ else .error .index

/-- `vec[idx]` for an array of indices. -/
def takeIdx (v : Arr1) (idx : List ℕ) : Py Arr1 :=
  if ∀ i ∈ idx, i < v.n then .ok ⟨idx.length, fun k => if k < idx.length then v.get (idx.getD k 0) else 0⟩ else .error .index

/-- `theta` in `hp_vec2dataclass`: base/GpHpara.py:75-78. -/
def takeTheta (info : HpInfo) (v : Arr1) : Py (Option Arr1) :=
  if info.hasTheta then do
    let t ← takeIdx v info.idxTheta
    pure (some t)
  else .ok none

/-- A scalar in `hp_vec2dataclass`: base/GpHpara.py:80-101. (The kernel parameter is an array with one entry in the code.) -/
def takeScalar (has ok : Bool) (v : Arr1) (i : ℕ) : Py (Option ℝ) :=
  if has then do
    pyAssert (ok = true)
    let t ← v.at' i
    pure (some t)
  else .ok none

/-- `hp_vec2dataclass`: base/GpHpara.py:56-103. -/
def hpVec2Dataclass (g : Gp) (info : HpInfo) (vec : Arr1) : Py HpVals := do
  let v ← powMasked vec info.logOptz
  let theta ← takeTheta info v
  let kernel ← takeScalar info.hasKernel true v info.idxKernel
  let varK ← takeScalar info.hasVarK g.noisy v info.idxVarK
  let varFval ← takeScalar info.hasVarFval (!g.knownFval) v info.idxVarFval
  let varFgrad ← takeScalar info.hasVarFgrad (g.useGrad && !g.knownFgrad) v info.idxVarFgrad
  pure { beta := none, theta := theta, kernel := kernel, varK := varK, varFval := varFval, varFgrad := varFgrad }

end GP
