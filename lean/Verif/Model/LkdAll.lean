import Verif.Model.Lkd
import Verif.Model.HpGrad
import Mathlib.Data.List.MinMax

/-! Model of `gpgradpy/src/optz/CalcLkd.py` lines 268-346, of the condition number gradients of
`gpgradpy/src/optz/GpHparaCon.py` (lines 135-261) and of the optimiser callbacks of `gpgradpy/src/optz/OptzLkd.py`
(lines 14-114). -/

open Np Matrix

noncomputable section

namespace GP

/-- `np.linalg.eig`: eigenvalues and, in the columns, eigenvectors. An arbitrary function; what is known about it is stated
as a hypothesis of the theorems (`Spec.EigOk`). -/
abbrev EigFun := ∀ n : ℕ, Mat n n → Vec n × Mat n n

/-- `np.argmax`: raises on an empty vector. -/
def argMax {n : ℕ} (v : Vec n) : Py (Fin n) := match (List.finRange n).argmax v with
  | some i => .ok i
  | none => .error .shape

/-- `np.argmin`. -/
def argMin {n : ℕ} (v : Vec n) : Py (Fin n) := match (List.finRange n).argmin v with
  | some i => .ok i
  | none => .error .shape

/-- `calc_cond_L2_w_grad`: optz/GpHparaCon.py:161-235. (`np.linalg.cond` of a singular matrix is `inf` in numpy; see `cond2`.) -/
def condL2WGrad (eig : EigFun) (precon : Bool) {n m : ℕ} (K : Mat n n) (dK : Option (Fin m → Mat n n)) : Py (ℝ × Option (Vec m)) :=
  let cond := cond2 K                                                                           -- line 165
  match dK with
  | none => .ok (cond, none)
  | some dK =>
    if precon then .ok (cond, none)                                                             -- lines 170-172
    else do
      let e := eig n K                                                                          -- line 179
      let imax ← argMax e.1
      let vmax : Vec n := fun i => e.2 i imax                                                   -- line 182
      let imin ← argMin e.1
      let vmin : Vec n := fun i => e.2 i imin                                                   -- line 186
      let eigMin := max (e.1 imin) (1 / 10 ^ 16)                                                -- line 188
      let D : Mat n n := vecMulVec vmax vmax - cond • vecMulVec vmin vmin                       -- line 190
      pure (cond, some fun k => (∑ i, ∑ j, D i j * dK k i j) / eigMin)                          -- lines 193-194

/-- `calc_cond_fronorm_w_grad`: optz/GpHparaCon.py:237-261. `chofac` is `None` if the factorisation failed. -/
def condFroWGrad (precon : Bool) {n m : ℕ} (K : Mat n n) (chofac : Option (ChoFac n)) (dK : Option (Fin m → Mat n n)) :
    Py (ℝ × Option (Vec m)) := do
  pyAssert (∃ h : 0 < n, 1 < K ⟨0, h⟩ ⟨0, h⟩)                                                   -- line 238
  let F ← need chofac
  let Kinv : Mat n n := choSolve F 1                                                            -- line 241
  let nK := froNorm K
  let nKinv := froNorm Kinv
  let cond := nK * nKinv                                                                        -- line 246
  match dK with
  | none => pure (cond, none)
  | some dK =>
    pyAssert (precon = false)                                                                   -- line 251
    let K3 := choSolve F (choSolve F Kinv)                                                      -- lines 253-255
    let frac := nKinv / nK
    let D : Mat n n := frac • K - (1 / frac) • K3                                               -- line 258
    pure (cond, some fun k => ∑ i, ∑ j, D i j * dK k i j)                                       -- line 259

/-- `calc_cond_w_grad` with the default norm: optz/GpHparaCon.py:135-159. -/
def condWGrad (eig : EigFun) (o : CondOpts) {n m : ℕ} (K : Mat n n) (chofac : Option (ChoFac n))
    (dK : Option (Fin m → Mat n n)) : Py (ℝ × Option (Vec m)) :=
  if o.fro then condFroWGrad o.precon K chofac dK else condL2WGrad eig o.precon K dK

/-- A matrix as an array. -/
def fromMat {n m : ℕ} (M : Mat n m) : Arr2 := ⟨n, m, fun i j => if h : i < n ∧ j < m then M ⟨i, h.1⟩ ⟨j, h.2⟩ else 0⟩

/-- The slabs of a 3-d array as matrices. -/
def toSlabs (m n : ℕ) (A : Arr3) : Fin m → Mat n n := fun k => of fun i j => A.get k i j

/-- Attributes of `self` read by the likelihood of a hyperparameter vector, besides those in `Gp`. -/
structure LkdEnv where
  lkd : LkdOpts
  /-- `self.hp_info_optz_lkd` -/
  info : HpInfo
  /-- `self.b_use_cond_cstr` -/
  useCstr : Bool
  eig : EigFun

/-- The data vector and the augmented basis matrix: optz/CalcLkd.py:55 and 210, eval/GpMeanFun.py:97-98. -/
def lkdData (g : Gp) : Py (Vec g.nData × Mat g.nData nBetaCoeff) := do
  let dvec := makeDataVec g.fval g.grad
  let V ← calcAugVand g.dim nBetaCoeff g.useGrad g.x g.bvec
  if dvec.n = g.nData ∧ V.r = g.nData ∧ V.c = nBetaCoeff then pure (toVec g.nData dvec, toMat g.nData nBetaCoeff V)
  else .error .shape

/-- The gradient function called: optz/CalcLkd.py:304 and 326. -/
def kcovGradArr (g : Gp) (env : LkdEnv) (hp : HpVals) (Kern : Mat g.nData g.nData) (R : Arr3) : Py Arr3 :=
  if g.noisy then calcKcovGradHp g env.info hp (fromMat Kern) R else calcKernGradHp g env.info hp R none

/-- `if calc_grad: ... else: None`: optz/CalcLkd.py:303-306 and 325-328. -/
def kcovGradIf (g : Gp) (env : LkdEnv) (hp : HpVals) (Kern : Mat g.nData g.nData) (R : Arr3) (calcGrad : Bool) :
    Py (Option (Fin env.info.nHp → Mat g.nData g.nData)) :=
  if calcGrad then do
    let A ← kcovGradArr g env hp Kern R
    pure (some (toSlabs env.info.nHp g.nData A))
  else .ok none

/-- The matrix that is factorised: optz/CalcLkd.py:299-300 and 322-323. -/
def lkdCov (g : Gp) (hp : HpVals) (R : Arr3) (calcCond : Bool) : Py (CovOut g.nData) :=
  if g.noisy then calcAllK g R hp none true calcCond none false else calcKernWChofac g R hp none true calcCond

/-- The likelihood functions called: optz/CalcLkd.py:314-315 and 337-339. -/
def lkdBody (g : Gp) (env : LkdEnv) (y : Vec g.nData) (V : Mat g.nData nBetaCoeff) (F : ChoFac g.nData)
    (dK : Option (Fin env.info.nHp → Mat g.nData g.nData)) : Py (LkdInfo nBetaCoeff env.info.nHp) :=
  if g.noisy then lkdWNoise y V F dK true env.lkd.useAdj else lkdWoNoise env.lkd g.fval y V F dK true env.lkd.useAdj

/-- Setting the condition number at the end of `calc_lkd_all`: optz/CalcLkd.py:317-320 and 341-344. -/
def setCond (env : LkdEnv) (o : CondOpts) {n b m : ℕ} (li : LkdInfo b m) (K : Mat n n) (chofac : Option (ChoFac n))
    (dK : Option (Fin m → Mat n n)) (condK : Option ℝ) (calcCond calcGrad : Bool) : Py (LkdInfo b m) :=
  if calcCond && calcGrad then do
    let c ← condWGrad env.eig o K chofac dK
    pure { li with cond := some c.1, condGrad := c.2 }
  else .ok { li with cond := condK }

/-- `calc_lkd_all`: optz/CalcLkd.py:270-346 (its argument `calc_lkd` is never read). Returns `lkd_info` and `b_chofac_good`. -/
def calcLkdAll (g : Gp) (env : LkdEnv) (hp : HpVals) (calcCond calcGrad : Bool) :
    Py (LkdInfo nBetaCoeff env.info.nHp × Bool) := do
  let R ← calcRtensor g.x g.x                                                                   -- line 294
  let out ← lkdCov g hp R calcCond
  let dK ← kcovGradIf g env hp out.Kern R calcGrad
  match out.chofac with
  | none => do
    let c ← condL2WGrad env.eig g.o.precon out.Kcov dK                                          -- lines 310, 332
    let li : LkdInfo nBetaCoeff env.info.nHp := { cond := some c.1, condGrad := c.2 }
    if g.noisy then
      let li ← setCond env g.o li out.Kcov none dK out.condK calcCond calcGrad
      pure (li, false)
    else pure (li, false)
  | some F => do
    let d ← lkdData g
    let li ← lkdBody g env d.1 d.2 F dK
    let li ← setCond env g.o li out.Kcov (some F) dK out.condK calcCond calcGrad
    pure (li, true)

/-- The four values that `calc_store_likelihood` stores. -/
structure LkdRes (m : ℕ) where
  lkd : ℝ
  grad : Option (Vec m)
  cond : Option ℝ
  condGrad : Option (Vec m)

/-- `10**log_hp * np.log(10)` at the entries optimised through their logarithm: optz/OptzLkd.py:65-69. -/
def logFactor (info : HpInfo) (vec : Arr1) (k : ℕ) : ℝ :=
  if info.logOptz.getD k false then (10 : ℝ) ^ vec.get k * Real.log 10 else 1

/-- `if b: grad[bvec] *= transformation`; raises if the gradient is `None`. -/
def scaleGradIf (b : Bool) (info : HpInfo) (vec : Arr1) (g : Option (Vec info.nHp)) : Py (Option (Vec info.nHp)) :=
  if b then do
    let g ← need g
    pure (some fun k => g k * logFactor info vec k)
  else .ok g

/-- The likelihood of a hyperparameter vector: the body of the `if` of `calc_store_likelihood`, optz/OptzLkd.py:49-78. -/
def computeLkd (g : Gp) (env : LkdEnv) (vec : Arr1) (alwaysCond calcGrad : Bool) : Py (LkdRes env.info.nHp) := do
  let hp ← hpVec2Dataclass g env.info vec                                                       -- line 49
  let r ← calcLkdAll g env hp (env.useCstr || alwaysCond) calcGrad                              -- lines 50-54
  if r.2 then do
    let l ← need r.1.lnLkd
    let lg ← scaleGradIf calcGrad env.info vec r.1.lnLkdGrad                                    -- line 69
    let cg ← scaleGradIf (calcGrad && env.useCstr) env.info vec r.1.condGrad                    -- line 72
    pure { lkd := l, grad := lg, cond := r.1.cond, condGrad := cg }
  else do
    let c ← need r.1.cond                                                                       -- line 75
    let cg ← need r.1.condGrad                                                                  -- line 76
    pure { lkd := -c, grad := some fun k => -cg k, cond := some c, condGrad := some cg }

/-- A numpy array of floats; `none` is NaN. -/
structure NanArr where
  shape : List ℕ
  get : ℕ → Option ℝ

/-- The attributes `_last_hp_vec` (initially `None`, base/GpHpara.py:26), `_lkd_val`, `_lkd_grad`, `_cond_val`, `_cond_grad`. -/
structure OptzState (m : ℕ) where
  last : Option NanArr
  res : LkdRes m

/-- `np.array_equal(hp_vec, self._last_hp_vec)` for a 1-d vector. -/
def arrayEq (v : Arr1) : Option NanArr → Prop
  | none => False
  | some w => w.shape = [v.n] ∧ ∀ i < v.n, w.get i = some (v.get i)

open Classical in
/-- `calc_store_likelihood`: optz/OptzLkd.py:16-86. -/
def calcStoreLkd (g : Gp) (env : LkdEnv) (st : OptzState env.info.nHp) (vec : Arr1) (alwaysCond calcGrad : Bool) :
    Py (LkdRes env.info.nHp × OptzState env.info.nHp) :=
  if arrayEq vec st.last then .ok (st.res, st)                                                  -- line 47
  else do
    let r ← computeLkd g env vec alwaysCond calcGrad
    pure (r, { st with res := r })                                                              -- lines 80-84

/-- `return_optz_val`: optz/OptzLkd.py:90-94. -/
def returnOptzVal (g : Gp) (env : LkdEnv) (st : OptzState env.info.nHp) (vec : Arr1) : Py (ℝ × OptzState env.info.nHp) := do
  let r ← calcStoreLkd g env st vec false true
  pure (-r.1.lkd, r.2)

/-- `return_optz_grad`: optz/OptzLkd.py:96-100. -/
def returnOptzGrad (g : Gp) (env : LkdEnv) (st : OptzState env.info.nHp) (vec : Arr1) :
    Py (Vec env.info.nHp × OptzState env.info.nHp) := do
  let r ← calcStoreLkd g env st vec false true
  let gr ← need r.1.grad
  pure (fun k => -gr k, r.2)

/-- `return_cond_val`: optz/OptzLkd.py:104-108. -/
def returnCondVal (g : Gp) (env : LkdEnv) (st : OptzState env.info.nHp) (vec : Arr1) : Py (Option ℝ × OptzState env.info.nHp) := do
  let r ← calcStoreLkd g env st vec false true
  pure (r.1.cond, r.2)

/-- `return_cond_grad`: optz/OptzLkd.py:110-114. -/
def returnCondGrad (g : Gp) (env : LkdEnv) (st : OptzState env.info.nHp) (vec : Arr1) :
    Py (Option (Vec env.info.nHp) × OptzState env.info.nHp) := do
  let r ← calcStoreLkd g env st vec false true
  pure (r.1.condGrad, r.2)

end GP
