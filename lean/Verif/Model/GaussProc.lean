import Verif.Model.WellCond
import Verif.Model.HpOptz
import Verif.Model.EvalScl
import Verif.Model.ParaDef

/-! Model of `gpgradpy/src/GaussianProcess.py`: the object, `set_wellcond_mtd`, `set_data`, the getters; and of
`get_init_hp_vals` (optz/GpHparaOptz.py:198-218) and `set_custom_hp` (base/GpHpara.py:105-116). -/

open Np

noncomputable section

namespace GP

/-- A numpy array of any number of dimensions, by its shape and its entries. -/
structure Nd (α : Type) where
  shape : List ℕ
  get : List ℕ → α

/-- `a.ndim` -/
def Nd.ndim {α : Type} (a : Nd α) : ℕ := a.shape.length
/-- `a.size` -/
def Nd.size {α : Type} (a : Nd α) : ℕ := a.shape.prod
/-- The multi-index of entry `k` in row-major order. -/
def unravel : List ℕ → ℕ → List ℕ
  | [], _ => []
  | _ :: s, k => k / s.prod :: unravel s (k % s.prod)
/-- Entry `k` of `np.atleast_1d(a).ravel()`, which has `a.size` entries. -/
def Nd.flat {α : Type} (a : Nd α) (k : ℕ) : α := a.get (unravel a.shape k)
/-- A one-dimensional array. -/
def Nd.of1 {α : Type} (n : ℕ) (f : ℕ → α) : Nd α := ⟨[n], fun i => f (i.getD 0 0)⟩
/-- A two-dimensional array. -/
def Nd.of2 {α : Type} (r c : ℕ) (f : ℕ → ℕ → α) : Nd α := ⟨[r, c], fun i => f (i.getD 0 0) (i.getD 1 0)⟩
/-- `np.atleast_1d(a).ravel()` -/
def Nd.ravel (a : Nd ℝ) : Arr1 := ⟨a.size, a.flat⟩
/-- A two-dimensional array as such. -/
def Nd.mat (a : Nd ℝ) : Arr2 := ⟨a.shape.getD 0 0, a.shape.getD 1 0, fun i j => a.get [i, j]⟩
open Classical in
/-- `np.any(np.isnan(a))`. -/
def Nd.hasNaN (a : Nd Fl) : Bool := decide (∃ k < a.size, a.flat k = none)
/-- The numbers of an array without NaN. -/
def Nd.nums (a : Nd Fl) : Nd ℝ := ⟨a.shape, fun i => (a.get i).getD 0⟩

/-! ### Options and attributes -/

/-- The arguments of the constructor and the options of the class that the modelled methods read and never change:
GaussianProcess.py:41-135. -/
structure GpStatic where
  dim : ℕ
  useGrad : Bool
  kernel : KType
  etaMtd : EtaMtd := .kbaseEta
  condMaxTarget : ℝ := 10 ^ 10
  condMax : ℝ := 10 ^ 10
  condMaxAbs : ℝ := 10 ^ 16
  etaDflt : ℝ := 1 / 10 ^ 8
  /-- `cond_norm == 'fro'` -/
  fro : Bool := false
  distMin : ℝ := 1
  distMax : ℝ := 1
  vminVary : ℝ := 1
  log : LogOpts := ⟨true, true, true⟩
  optKernel : Bool := true
  constN : ℕ := 1
  thetaInit : ℝ := 1 / 100
  varKInit : ℝ := 1
  varFvalInit : ℝ := 0
  varFgradInit : ℝ := 0

/-- The attributes that the modelled methods change. Before the first `set_data` the counters, flags and nuggets are not
attributes of the object (here they have some value); the stored data are `None`. -/
structure GpObj where
  st : GpStatic
  /-- `self.wellcond_mtd` -/
  mtd : WcMtd
  /-- `self.cond_eta_is_const` -/
  etaConst : Bool
  /-- `self.b_use_cond_cstr` -/
  useCstr : Bool
  /-- `self.b_use_data_scl` -/
  useScl : Bool
  nEval : ℕ := 0
  nGrad : ℕ := 0
  nData : ℕ := 0
  knownFval : Bool := false
  knownFgrad : Bool := false
  hasGradInfo : Bool := false
  xIn : Option Arr2 := none
  fvalIn : Option Arr1 := none
  stdFvalIn : Option Arr1 := none
  gradIn : Option Arr2 := none
  stdGradIn : Option Arr2 := none
  bvec : Option (List Bool) := none
  optzVarFval : Bool := false
  fvalZero : Bool := false
  optzVarFgrad : Bool := false
  fgradZero : Bool := false
  noisy : Bool := false
  etaKbase : ℝ := 0
  /-- `self._eta_Kgrad`; NaN without gradients -/
  etaKgrad : Fl := none
  /-- `self._etaK` -/
  etaK : ℝ := 0
  vminInit : Fl := none
  vminReq : Fl := none
  /-- `self.hp_info_optz_lkd` -/
  info : Option HpInfo := none
  /-- `self.DataScl` -/
  scl : Option Scl := none
  /-- `self.Rtensor_init` -/
  rInit : Option Arr3 := none

/-- A method that changes the object and returns or raises. -/
abbrev GCall := GpObj → GpObj × Py Unit

/-- Sequential composition; an exception stops the execution, changes made so far remain. -/
def GCall.andThen (a b : GCall) : GCall := fun s =>
  match a s with
  | (t, .ok ()) => b t
  | (t, .error e) => (t, .error e)

/-- A computation followed by an assignment of its result. -/
def gcompute {α : Type} (f : GpObj → Py α) (put : GpObj → α → GpObj) : GCall := fun s =>
  match f s with
  | .ok a => (put s a, .ok ())
  | .error e => (s, .error e)

/-- Assignments. -/
def gset (f : GpObj → GpObj) : GCall := fun s => (f s, .ok ())

/-! ### `set_wellcond_mtd` -/

/-- The entries of `wellcond_mtd_avail`: GaussianProcess.py:107-112. -/
def WcMtd.parse (s : String) : Option WcMtd :=
  if s = "base" then some .base
  else if s = "precon" then some .precon
  else if s = "rescale_origin" then some .rescaleOrigin
  else if s = "rescale_eta_vary" then some .rescaleEtaVary
  else if s = "dflt_vmin" then some .dfltVmin
  else if s = "dflt_vmax" then some .dfltVmax
  else none

/-- The body of `set_wellcond_mtd` after the assertion: GaussianProcess.py:197-217 (`m` is not `None`, because `None` is not in
the list of available methods). -/
def applyWellcond (m : WcMtd) (o : GpObj) : GpObj :=
  let etaConst := if m = .rescaleEtaVary then false else o.etaConst                             -- lines 199-200
  let m := if o.st.useGrad then m else .base                                                    -- lines 202-203
  { o with
    etaConst := etaConst
    mtd := m                                                                                    -- line 205
    useCstr := m != .precon                                                                     -- lines 207-212
    useScl := m.rescales || m.dfltV }                                                           -- lines 214-217

/-- `set_wellcond_mtd`: GaussianProcess.py:192-217; the argument is a string or `None`. -/
def setWellcond (m : Option String) : GCall := fun o =>
  match m.bind WcMtd.parse with
  | some m => (applyWellcond m o, .ok ())
  | none => (o, .error .assertion)

/-- `GaussianProcess.__init__`: GaussianProcess.py:138-190 (types of the arguments are right; the kernel name is parsed by
`parseKernel` and a wrong `mean_fun_type` raises). `cond_eta_is_const` is the class attribute, `True`. -/
def newGp (st : GpStatic) (m : Option String) : Py GpObj :=
  match setWellcond m { st := st, mtd := .base, etaConst := true, useCstr := true, useScl := false } with
  | (o, .ok ()) => .ok o
  | (_, .error e) => .error e

/-! ### `set_data` -/

/-- The arguments of `set_data`. The values, points and gradients are numbers, standard deviations may contain NaN. -/
structure DataIn where
  x : Nd ℝ
  fval : Nd ℝ
  stdFval : Option (Nd Fl) := none
  grad : Option (Nd ℝ) := none
  stdGrad : Option (Nd Fl) := none
  bvec : Option (List Bool) := none

/-- The number of gradients: GaussianProcess.py:246-258. -/
def countGrads (useGrad : Bool) (d : DataIn) : Py ℕ :=
  if useGrad then
    match d.bvec with
    | none => .ok d.fval.size
    | some b => do
      pyAssert (b.length = d.fval.size)                                                         -- line 252
      match d.grad with
      | none => .error .attribute                                                               -- line 254: `None.shape`
      | some G =>
        match G.shape with
        | [] => .error .index
        | r :: _ => do
          pyAssert (r = nTrue b)
          pure (nTrue b)
  else do
    pyAssert (d.bvec = none)                                                                    -- line 257
    pure 0

/-- The standard deviations if the noise level is known: `None` or any NaN means that it is not. -/
def knownStd : Option (Nd Fl) → Option (Nd Fl)
  | none => none
  | some s => if s.hasNaN then none else some s

/-- GaussianProcess.py:269-274. -/
def checkStdFval (d : DataIn) : GCall := fun o =>
  match knownStd d.stdFval with
  | none => ({ o with knownFval := false }, .ok ())
  | some s => ({ o with knownFval := true }, pyAssert (d.fval.size = s.size))

/-- GaussianProcess.py:276-292. -/
def checkGrad (d : DataIn) : GCall := fun o =>
  match d.grad with
  | none =>
    if o.st.useGrad then (o, .error .assertion)
    else ({ o with hasGradInfo := false, knownFgrad := false }, .ok ())
  | some G =>
    if o.st.useGrad then
      let o := { o with hasGradInfo := true }
      if G.ndim = 2 ∧ G.shape = [o.nGrad, o.st.dim] then                                        -- lines 283-285
        match knownStd d.stdGrad with
        | none => ({ o with knownFgrad := false }, .ok ())
        | some S => ({ o with knownFgrad := true }, pyAssert (S.ndim = 2 ∧ G.shape = S.shape))  -- lines 291-292
      else (o, .error .assertion)
    else (o, .error .assertion)

/-- GaussianProcess.py:296-302. -/
def storeIn (d : DataIn) (o : GpObj) : GpObj :=
  { o with
    xIn := some d.x.mat
    fvalIn := some d.fval.ravel
    stdFvalIn := if o.knownFval then (knownStd d.stdFval).map fun s => s.nums.ravel else none
    gradIn := d.grad.map fun G => G.mat
    stdGradIn := if o.knownFgrad then (knownStd d.stdGrad).map fun s => s.nums.mat else none
    bvec := d.bvec }

/-- `np.max(a)` raises for an empty array. -/
def ndMax (a : Nd ℝ) : Py ℝ :=
  match listMax ((List.range a.size).map a.flat) with
  | some v => .ok v
  | none => .error .shape

/-- The threshold for noise-free data, `1e-10`. -/
def zeroStd : ℝ := 1 / 10 ^ 10

open Classical in
/-- `True if (np.max(std) < 1e-10) else False`. -/
def isZeroStd (s : Option (Nd Fl)) : Py Bool :=
  match s with
  | none => .error .typeError
  | some s => do
    let v ← ndMax s.nums
    pure (decide (v < zeroStd))

/-- GaussianProcess.py:306-311. -/
def classifyFval (d : DataIn) : GCall := fun o =>
  if o.knownFval then
    let o := { o with optzVarFval := false }
    match isZeroStd (knownStd d.stdFval) with
    | .ok b => ({ o with fvalZero := b }, .ok ())
    | .error e => (o, .error e)
  else ({ o with optzVarFval := true, fvalZero := false }, .ok ())

/-- GaussianProcess.py:313-321. -/
def classifyFgrad (d : DataIn) : GCall := fun o =>
  if o.st.useGrad then
    if o.knownFgrad then
      let o := { o with optzVarFgrad := false }
      match isZeroStd (knownStd d.stdGrad) with
      | .ok b => ({ o with fgradZero := b }, .ok ())
      | .error e => (o, .error e)
    else ({ o with optzVarFgrad := true, fgradZero := false }, .ok ())
  else ({ o with optzVarFgrad := false, fgradZero := true }, .ok ())

/-- What the nugget calculation reads. -/
def GpObj.nugOpts (o : GpObj) : NugOpts :=
  { dim := o.st.dim, useGrad := o.st.useGrad, kernel := o.st.kernel, mtd := o.mtd, etaMtd := o.st.etaMtd
    condMaxTarget := o.st.condMaxTarget, etaDflt := o.st.etaDflt }

/-- GaussianProcess.py:331-332. With gradients `_eta_Kgrad` is never NaN. -/
def nuggetCall : GCall :=
  gcompute (fun o => do
    let e ← calcNugget o.nugOpts o.nEval
    if o.st.useGrad then do
      let k ← need e.2
      pure (e.1, e.2, k)
    else pure (e.1, e.2, e.1)) fun o e => { o with etaKbase := e.1, etaKgrad := e.2.1, etaK := e.2.2 }

/-- `setup_hp_idx4optz`: optz/GpHparaOptz.py:187-196. -/
def hpIdxCall : GCall :=
  gcompute (fun o => setHpOptzInfo o.st.log o.st.dim (kernelHasHp o.st.kernel) o.knownFval o.knownFgrad true
    (o.st.optKernel && kernelHasHp o.st.kernel) o.noisy o.optzVarFval o.optzVarFgrad) fun o i => { o with info := some i }

/-- Whether an array whose last axis has length `shape.getLast` can be multiplied by a row of length `n`. -/
def rowFits (shape : List ℕ) (n : ℕ) : Prop := ∀ m, shape.getLast? = some m → (bdim m n).isSome

open Classical in
/-- The standard deviations of the gradients as passed to `set_obj_data`. An array with NaN is scaled as well, which raises if its
last axis does not fit; the result is never read (`get_scl_eval_data` gives `None`) and is not stored here. -/
def stdGradScl (s : Scl) (d : DataIn) : Py (Option Arr2) :=
  match d.stdGrad with
  | none => .ok none
  | some S =>
    if S.hasNaN then (if rowFits S.shape s.xScale.n then .ok none else .error .shape)
    else .ok (some S.nums.mat)

/-- The method and the distance: GaussianProcess.py:344-358. -/
def scaleArgs (o : GpObj) (nEval : ℕ) : Py (XMtd × ℝ) :=
  match o.mtd with
  | .rescaleOrigin => .ok (.vmin, calcVreq nEval o.st.dim)
  | .rescaleEtaVary => .ok (.vmin, o.st.vminVary)
  | .dfltVmin => .ok (.vmin, o.st.distMin)
  | .dfltVmax => .ok (.vmax, o.st.distMax)
  | _ => .error .raised

/-- `Rescaling(x_eval, x_scl_method = ..., dist_set = ...)` and `set_obj_data`: GaussianProcess.py:360-361. An exception of the
constructor leaves `self.DataScl` as it was. (`std_fval` with NaN is not stored, as for the gradients. The order of the checks of
`std_grad` and of the other shapes is not modelled, any of them raises.) -/
def sclCall (d : DataIn) (m : XMtd) (dist : ℝ) : GCall := fun o =>
  match newScl d.x.mat none true m (some dist) with
  | (_, .error e) => (o, .error e)
  | (s, .ok ()) =>
    match stdGradScl s d with
    | .error e => ({ o with scl := some s }, .error e)
    | .ok sg =>
      match setObjData ⟨d.fval.ravel, (knownStd d.stdFval).map (fun s => s.nums.ravel), d.grad.map (fun G => G.mat), sg⟩ true .dfltMax s with
      | (s', r) => ({ o with scl := some s' }, r)

/-- GaussianProcess.py:342-363. -/
def scaleCall (d : DataIn) : GCall := fun o =>
  if o.useScl then
    match scaleArgs o d.fval.size with
    | .error e => (o, .error e)
    | .ok a =>
      sclCall d a.1 a.2 (if o.mtd = .rescaleOrigin then { o with vminReq := some a.2 } else o)
  else gcompute (fun _ => calcRtensor d.x.mat d.x.mat) (fun o R => { o with rInit := some R }) o -- line 363

/-- `set_data`: GaussianProcess.py:219-363. -/
def setData (d : DataIn) : GCall := fun o =>
  match countGrads o.st.useGrad d with
  | .error e => (o, .error e)
  | .ok ng =>
    ((gset fun o => { o with nEval := d.fval.size, nGrad := ng, nData := d.fval.size + ng * o.st.dim }).andThen  -- lines 260-262
    ((gcompute (fun _ => pyAssert (d.x.ndim = 2)) (fun o _ => o)).andThen                                       -- line 266
    ((checkStdFval d).andThen
    ((checkGrad d).andThen
    ((gset (storeIn d)).andThen
    ((classifyFval d).andThen
    ((classifyFgrad d).andThen
    ((gset fun o => { o with noisy := !(o.fvalZero && o.fgradZero) }).andThen                                   -- lines 323-326
    (nuggetCall.andThen
    ((gcompute (fun _ => calcDistMin d.x.mat) (fun o v => { o with vminInit := v })).andThen                    -- line 338
    (hpIdxCall.andThen
    (scaleCall d))))))))))) ) o

/-! ### The object as the likelihood and evaluation code sees it -/

/-- The attributes read by `calc_all_K_w_chofac` and the nugget code. -/
def GpObj.condOpts (o : GpObj) : CondOpts :=
  { precon := o.mtd == .precon, etaConst := o.etaConst, etaK := o.etaK, condMaxTarget := o.st.condMaxTarget
    condMax := o.st.condMax, condMaxAbs := o.st.condMaxAbs, fro := o.st.fro }

/-- The attributes read by the likelihood and evaluation code, for points `x` and values `f`. -/
def GpObj.gp (o : GpObj) (x : Arr2) (f : Arr1) : Gp :=
  { dim := o.st.dim, useGrad := o.st.useGrad, kernel := o.st.kernel, nEval := o.nEval, nGrad := o.nGrad, nData := o.nData
    bvec := o.bvec, o := o.condOpts, knownFval := o.knownFval, knownFgrad := o.knownFgrad, fvalZero := o.fvalZero
    fgradZero := o.fgradZero, noisy := o.noisy, x := x, fval := f, stdFval := o.stdFvalIn, grad := o.gradIn
    stdGrad := o.stdGradIn }

/-- The object in the original coordinates (`get_init_eval_data`: GaussianProcess.py:420-421). -/
def GpObj.view0 (o : GpObj) : Py Gp := do
  let x ← need o.xIn
  let f ← need o.fvalIn
  pure (o.gp x f)

/-- The object through `get_scl_x_w_dist` and `get_scl_eval_data`: GaussianProcess.py:399-433. -/
def GpObj.view (o : GpObj) : Py Gp := do
  let g ← o.view0
  if o.useScl then
    match o.scl with
    | some s => sclView g s
    | none => .error .attribute
  else pure g

/-! ### Initial and custom hyperparameters -/

/-- `np.mean(v)` -/
def arrMean (v : Arr1) : ℝ := (∑ a ∈ Finset.range v.n, v.get a) / v.n

/-- `get_init_hp_vals`: optz/GpHparaOptz.py:198-218. `g` is the object through the getters. (With no data the mean would be NaN;
`set_data` rejects that.) -/
def getInitHp (st : GpStatic) (g : Gp) : HpVals :=
  { beta := some ⟨nBetaCoeff, fun k => if k = 0 then arrMean g.fval else 0⟩
    theta := some ⟨st.dim, fun _ => st.thetaInit⟩
    kernel := hpKernelDefault st.kernel
    varK := some st.varKInit
    varFval := if g.knownFval then none else some st.varFvalInit
    varFgrad := if st.useGrad = false ∨ g.knownFgrad = true then none else some st.varFgradInit }

end GP
