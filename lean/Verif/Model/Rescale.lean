import Verif.Model.CommonFun

/-! Model of `gpgradpy/src/base/Rescaling.py`. The object is a record; a call returns the new object together with its
outcome, since an exception can leave a partly updated object behind. Floats are reals: division by a scale of 0 (which gives
`inf` in numpy) is outside of the model and excluded by the theorems. Arrays are values: the aliasing of `x_shift` with a row
of `x_init` and of the stored arrays with those of the caller is not modelled. -/

open Np

noncomputable section

namespace Np
/-- `v[None, :]`. -/
def Arr1.row (v : Arr1) : Arr2 := ⟨1, v.n, fun _ j => v.get j⟩
/-- Elementwise binary operation of 1-d arrays with broadcasting. -/
def Arr1.bop (f : ℝ → ℝ → ℝ) (a b : Arr1) : Py Arr1 :=
  match bdim a.n b.n with
  | some n => .ok ⟨n, fun i => f (a.get (bidx a.n n i)) (b.get (bidx b.n n i))⟩
  | none => .error .shape
/-- A 3-d array combined with a row vector (broadcast over the first two axes). -/
def Arr3.bopRow (f : ℝ → ℝ → ℝ) (A : Arr3) (v : Arr1) : Py Arr3 :=
  match bdim A.c v.n with
  | some c => .ok ⟨A.d, A.r, c, fun i j k => f (A.get i j (bidx A.c c k)) (v.get (bidx v.n c k))⟩
  | none => .error .shape
/-- `np.dot(A, v)` of a 2-d and a 1-d array. -/
def Arr2.dot (A : Arr2) (v : Arr1) : Py Arr1 :=
  if A.c = v.n then .ok ⟨A.r, fun i => ∑ d ∈ Finset.range A.c, A.get i d * v.get d⟩ else .error .shape
/-- Python indexing: negative indices count from the end. -/
def pyIdx (i : ℤ) (n : ℕ) : Py ℕ :=
  if 0 ≤ i ∧ i < n then .ok i.toNat else if i < 0 ∧ -(n : ℤ) ≤ i then .ok (i + n).toNat else .error .index
/-- `None if a is None else f(a)`. -/
def optPy {α β : Type} (f : α → Py β) : Option α → Py (Option β)
  | none => .ok none
  | some a => do let b ← f a; pure (some b)
end Np

namespace GP

/-- The string argument `x_scl_method`: `'set_vmin'`, `'set_vmax'`, `None` or anything else. -/
inductive XMtd where | vmin | vmax | none | other
  deriving DecidableEq
/-- The string argument `obj_scl_method`: `'dflt_max'`, `None` or anything else. -/
inductive ObjMtd where | dfltMax | none | other
  deriving DecidableEq
/-- The string argument `nlc_scl_method`: `'obj_scl'`, `None`, `'dflt_max'` (the default argument) or anything else. -/
inductive NlcMtd where | objScl | none | dfltMax | other
  deriving DecidableEq

/-- Values, standard deviations, gradients and Hessians, each possibly `None`: the arguments of `obj_init_2_scl`. Hessians
have the shape `(1, dim, dim)` of `eval_model`. -/
structure Obj6 where
  mu : Option Arr1 := none
  sig : Option Arr1 := none
  dmu : Option Arr2 := none
  dsig : Option Arr2 := none
  d2mu : Option Arr3 := none
  d2sig : Option Arr3 := none

/-- Objective data: `obj_init, std_obj_init, grad_init, std_grad_init` (or their scaled versions). -/
structure ObjData where
  val : Arr1
  std : Option Arr1
  grad : Option Arr2
  stdGrad : Option Arr2

/-- Nonlinear-constraint data. -/
structure NlcData where
  val : Arr2
  std : Option Arr2
  grad : Option Arr3
  stdGrad : Option Arr3

/-- An object of the class `Rescaling`: base/Rescaling.py:357-448. The flags `_obj_data_set`, `_nlc_data_set`, `_boxcon_set`,
`_lincon_set` say that the corresponding initial data are stored. Scaling parameters that have not been set (NaN in the code)
are 0 here; they are only read after they are set or after a call that raised. -/
structure Scl where
  xInit : Arr2
  idxBest : ℤ
  useShift : Bool
  xMtd : XMtd
  distSet : Option ℝ
  xShift : Arr1
  xScale : Arr1
  xScl : Arr2
  /-- `Rtensor_scl` -/
  R : Arr3
  obj : Option ObjData := none
  useObjShift : Bool := true
  objMtd : ObjMtd := .none
  objShift : ℝ := 0
  objScale : ℝ := 0
  objScl : Option ObjData := none
  box : Option (Arr1 × Arr1) := none
  boxScl : Option (Arr1 × Arr1) := none
  lin : Option (Arr2 × Arr1 × Arr1) := none
  linScl : Option (Arr2 × Arr1 × Arr1) := none
  nlc : Option NlcData := none
  nlcN : ℕ := 0
  useNlcShift : Bool := true
  nlcMtd : NlcMtd := .none
  nlcShift : Arr1 := ⟨0, fun _ => 0⟩
  nlcScale : ℝ := 0
  nlcScl : Option NlcData := none

/-- A method call: the object afterwards and the outcome. -/
abbrev Call := Scl → Scl × Py Unit

/-- `a; b`: `b` runs only if `a` did not raise. -/
def Call.andThen (a b : Call) : Call := fun s =>
  match a s with
  | (s', .ok ()) => b s'
  | (s', .error e) => (s', .error e)

/-- A step that computes a value and stores it; if the computation raises, the object keeps its previous state. -/
def compute {α : Type} (f : Scl → Py α) (put : Scl → α → Scl) : Call := fun s =>
  match f s with
  | .ok a => (put s a, .ok ())
  | .error e => (s, .error e)

/-- `if flag: a`. -/
def Call.when (c : Scl → Bool) (a : Call) : Call := fun s => if c s then a s else (s, .ok ())

/-! ### Points -/

/-- `x_init_2_scl` for a 1-d argument: base/Rescaling.py:23-24. -/
def xInit2Scl1 (s : Scl) (x : Arr1) : Py Arr1 := do
  let y ← x.bop (· - ·) s.xShift
  y.bop (· * ·) s.xScale

/-- `x_init_2_scl` for a 2-d argument: base/Rescaling.py:25-26. -/
def xInit2Scl (s : Scl) (x : Arr2) : Py Arr2 := do
  let y ← x.bop (· - ·) s.xShift.row
  y.bop (· * ·) s.xScale.row

/-- `x_scl_2_init` for a 1-d argument: base/Rescaling.py:31-32. -/
def xScl2Init1 (s : Scl) (x : Arr1) : Py Arr1 := do
  let y ← x.bop (· / ·) s.xScale
  y.bop (· + ·) s.xShift

/-- `x_scl_2_init` for a 2-d argument: base/Rescaling.py:33-34. -/
def xScl2Init (s : Scl) (x : Arr2) : Py Arr2 := do
  let y ← x.bop (· / ·) s.xScale.row
  y.bop (· + ·) s.xShift.row

/-- `np.mean(self.xvec_scale)`. -/
def meanScale (s : Scl) : ℝ := (∑ d ∈ Finset.range s.xScale.n, s.xScale.get d) / s.xScale.n
/-- `dist_init_2_scl`: base/Rescaling.py:38-39. -/
def distInit2Scl (s : Scl) (r : ℝ) : ℝ := r * meanScale s
/-- `dist_scl_2_init`: base/Rescaling.py:41-42. -/
def distScl2Init (s : Scl) (r : ℝ) : ℝ := r / meanScale s

/-- `tol_min_dist_x`: base/Rescaling.py:361. -/
def tolMinDistX : ℝ := (10 : ℝ) ^ (-14 : ℤ)
/-- `tol_min_range_obj`: base/Rescaling.py:360. -/
def tolMinRangeObj : ℝ := (10 : ℝ) ^ (-20 : ℤ)
/-- `vmin_dflt`, `vmax_dflt`: base/Rescaling.py:384-385. -/
def vDflt : ℝ := 1
/-- `rangeobj_max_dflt`: base/Rescaling.py:386. -/
def rangeObjMaxDflt : ℝ := 100

/-- A distance that must not be NaN (it is NaN for a single point only, and that case is treated before). -/
def needDist (d : Py (Option ℝ)) : Py ℝ := do
  match ← d with
  | some v => pure v
  | none => .error .typeError

/-- `_calc_x2_isoscaling`: base/Rescaling.py:117-125. -/
def isoScaling (X : Arr2) (setDist : ℝ) (vmin : Bool) : Py ℝ :=
  if vmin then do
    let d ← needDist (calcDistMin X)
    pure (setDist / max tolMinDistX d)
  else do
    let d ← needDist (calcDistMax X)
    pure (setDist / d)

/-- The shift: base/Rescaling.py:80-88. With an explicit `x_shift_in` of the right size the second assertion reads the
attribute `.dim`, which numpy arrays do not have. -/
def calcShift (s : Scl) (xShiftIn : Option Arr1) : Py Arr1 :=
  match xShiftIn with
  | none => if s.useShift then do
      let i ← pyIdx s.idxBest s.xInit.r
      pure ⟨s.xInit.c, s.xInit.get i⟩                                                           -- line 82
    else pure ⟨s.xInit.c, fun _ => 0⟩
  | some v => do
      pyAssert (v.n = s.xInit.c)                                                                -- line 86
      .error .attribute                                                                         -- line 87

open Classical in
/-- The relative scale: base/Rescaling.py:90-94. -/
def calcScaleIn (s : Scl) (xScaleIn : Option Arr1) : Py Arr1 :=
  match xScaleIn with
  | none => pure ⟨s.xInit.c, fun _ => 1⟩
  | some v => do
      pyAssert (v.n = s.xInit.c)
      pyAssert (∀ d < v.n, 0 < v.get d)
      pure v

/-- The factor applied to the relative scale: base/Rescaling.py:98-112. `X` is the data with the relative scale. -/
def calcCoeff (s : Scl) (X : Arr2) : Py ℝ :=
  if s.xInit.r = 1 ∨ s.xMtd = .none then pure 1                                                 -- line 101
  else match s.xMtd with
    | .vmin => isoScaling X (s.distSet.getD vDflt) true
    | .vmax => isoScaling X (s.distSet.getD vDflt) false
    | _ => .error .raised

/-- `_calc_x_shift_n_scale`: base/Rescaling.py:72-115. -/
def calcXShiftScale (s : Scl) (xShiftIn xScaleIn : Option Arr1) : Py (Arr1 × Arr1) := do
  let shift ← calcShift s xShiftIn
  let scaleIn ← calcScaleIn s xScaleIn
  let X1 ← s.xInit.bop (· - ·) shift.row                                                        -- line 99
  let X ← X1.bop (· * ·) scaleIn.row
  let c ← calcCoeff s X
  pure (shift, ⟨scaleIn.n, fun d => scaleIn.get d * c⟩)                                         -- line 114

/-- `_calc_n_set_scl_x`: base/Rescaling.py:127-130. -/
def setSclX : Call :=
  (compute (fun s => xInit2Scl s s.xInit) fun s a => { s with xScl := a }).andThen
    (compute (fun s => calcRtensor s.xScl s.xScl) fun s a => { s with R := a })

/-! ### Objective -/

/-- `1 / v[None, :]` times a number, possibly squared: base/Rescaling.py:143-145. -/
def invScale (v : Arr1) (c : ℝ) (k : ℕ) : Arr1 := ⟨v.n, fun d => (1 / v.get d) ^ k * c⟩
/-- `v[None, :]**k / c`: base/Rescaling.py:170-171. -/
def fwdScale (v : Arr1) (c : ℝ) (k : ℕ) : Arr1 := ⟨v.n, fun d => v.get d ^ k / c⟩

/-- `obj_init_2_scl`: base/Rescaling.py:134-158. -/
def objInit2Scl (s : Scl) (a : Obj6) : Py Obj6 := do
  pyAssert (s.obj.isSome = true)                                                                -- line 142
  let sg := invScale s.xScale s.objScale 1
  let sh := invScale s.xScale s.objScale 2
  let dmu ← optPy (fun (A : Arr2) => A.bop (· * ·) sg.row) a.dmu
  let dsig ← optPy (fun (A : Arr2) => A.bop (· * ·) sg.row) a.dsig
  let d2mu ← optPy (fun (A : Arr3) => A.bopRow (· * ·) sh) a.d2mu
  let d2sig ← optPy (fun (A : Arr3) => A.bopRow (· * ·) sh) a.d2sig
  pure { mu := a.mu.map fun v => v.map fun y => (y - s.objShift) * s.objScale
         sig := a.sig.map fun v => v.map fun y => y * s.objScale
         dmu := dmu, dsig := dsig, d2mu := d2mu, d2sig := d2sig }

/-- `obj_scl_2_init`: base/Rescaling.py:160-183. -/
def objScl2Init (s : Scl) (a : Obj6) : Py Obj6 := do
  pyAssert (s.obj.isSome = true)                                                                -- line 168
  let sg := fwdScale s.xScale s.objScale 1
  let sh := fwdScale s.xScale s.objScale 2
  let dmu ← optPy (fun (A : Arr2) => A.bop (· * ·) sg.row) a.dmu
  let dsig ← optPy (fun (A : Arr2) => A.bop (· * ·) sg.row) a.dsig
  let d2mu ← optPy (fun (A : Arr3) => A.bopRow (· * ·) sh) a.d2mu
  let d2sig ← optPy (fun (A : Arr3) => A.bopRow (· * ·) sh) a.d2sig
  pure { mu := a.mu.map fun v => v.map fun y => y / s.objScale + s.objShift
         sig := a.sig.map fun v => v.map fun y => y / s.objScale
         dmu := dmu, dsig := dsig, d2mu := d2mu, d2sig := d2sig }

/-- The stored objective data as arguments of `obj_init_2_scl`. -/
def ObjData.args (o : ObjData) : Obj6 := { mu := some o.val, sig := o.std, dmu := o.grad, dsig := o.stdGrad }

/-- The computation in `_calc_n_set_scl_obj`: base/Rescaling.py:216-221. -/
def sclObj (s : Scl) : Py ObjData :=
  match s.obj with
  | none => .error .assertion
  | some o => do
      let r ← objInit2Scl s o.args
      match r.mu with
      | some v => pure ⟨v, r.sig, r.dmu, r.dsig⟩
      | none => .error .typeError

/-- `_calc_n_set_scl_obj`: base/Rescaling.py:216-221. -/
def setSclObj : Call := compute sclObj fun s a => { s with objScl := some a }

/-- `set_obj_scaling`: base/Rescaling.py:185-197. -/
def setObjScaling (shift scale : Option ℝ) : Call := fun s =>
  if s.obj.isSome then
    setSclObj { s with objShift := shift.getD s.objShift, objScale := scale.getD s.objScale }
  else (s, .error .assertion)

/-- `np.max(v) - np.min(v)`; raises for an empty array. -/
def arrRange (v : Arr1) : Py ℝ :=
  match listMax ((List.range v.n).map v.get), listMin ((List.range v.n).map v.get) with
  | some hi, some lo => .ok (hi - lo)
  | _, _ => .error .shape

/-- The shift of the objective: base/Rescaling.py:201-204. -/
def objShiftOf (s : Scl) (v : Arr1) : Py ℝ := if s.useObjShift then (do let i ← pyIdx s.idxBest v.n; pure (v.get i)) else pure 0

/-- The scale of the objective: base/Rescaling.py:206-212. -/
def objScaleOf (s : Scl) (v : Arr1) : Py ℝ :=
  if v.n = 1 ∨ s.objMtd = .none then pure 1
  else match s.objMtd with
    | .dfltMax => do let r ← arrRange v; pure (rangeObjMaxDflt / max tolMinRangeObj r)          -- lines 209-210
    | _ => .error .raised

/-- `_calc_obj_scaling`: base/Rescaling.py:199-214. -/
def calcObjScaling (s : Scl) (v : Arr1) : Py (ℝ × ℝ) := do
  let shift ← objShiftOf s v
  let scale ← objScaleOf s v
  pure (shift, scale)

/-- `set_obj_data`: base/Rescaling.py:459-478. -/
def setObjData (o : ObjData) (useShift : Bool := true) (mtd : ObjMtd := .dfltMax) : Call := fun s =>
  if mtd = .other then (s, .error .assertion)                                                   -- line 462
  else if s.xInit.r ≠ o.val.n then (s, .error .assertion)                                       -- line 463
  else
    let s1 := { s with obj := some o, objMtd := mtd, useObjShift := useShift }
    match calcObjScaling s1 o.val with
    | .ok (shift, scale) => setObjScaling (some shift) (some scale) s1
    | .error e => (s1, .error e)

/-! ### Box and linear constraints -/

/-- `boxcon_init_2_scl`: base/Rescaling.py:225-232. -/
def boxInit2Scl (s : Scl) (b : Arr1 × Arr1) : Py (Arr1 × Arr1) := do
  let l ← b.1.bop (· - ·) s.xShift
  let lb ← s.xScale.bop (· * ·) l
  let u ← b.2.bop (· - ·) s.xShift
  let ub ← s.xScale.bop (· * ·) u
  pure (lb, ub)

/-- The attribute is `None`: only after a call that raised. -/
def needSet {α : Type} : Option α → Py α
  | some a => .ok a
  | none => .error .assertion

/-- `_calc_n_set_scl_boxcon`: base/Rescaling.py:234-237. -/
def setSclBox : Call := compute (fun s => do let b ← needSet s.box; boxInit2Scl s b) fun s a => { s with boxScl := some a }

/-- `lincon_init_2_scl`: base/Rescaling.py:239-247. -/
def linInit2Scl (s : Scl) (c : Arr2 × Arr1 × Arr1) : Py (Arr2 × Arr1 × Arr1) := do
  let A ← c.1.bop (· * ·) (invScale s.xScale 1 1).row
  let d ← c.1.dot s.xShift
  let lb ← c.2.1.bop (· - ·) d
  let ub ← c.2.2.bop (· - ·) d
  pure (A, lb, ub)

/-- `_calc_n_set_scl_lincon`: base/Rescaling.py:249-252. -/
def setSclLin : Call := compute (fun s => do let b ← needSet s.lin; linInit2Scl s b) fun s a => { s with linScl := some a }

/-- `set_boxcon`: base/Rescaling.py:520-529. -/
def setBoxcon (lb ub : Arr1) : Call := fun s => setSclBox { s with box := some (lb, ub) }

/-- `set_lincon`: base/Rescaling.py:539-549. -/
def setLincon (A : Arr2) (lb ub : Arr1) : Call := fun s => setSclLin { s with lin := some (A, lb, ub) }

/-! ### Nonlinear constraints -/

/-- `nlc_init_2_scl(...)[:4]`: base/Rescaling.py:256-282; the Hessians are not used. A missing standard deviation raises
(`None * float`). -/
def nlcInit2Scl (s : Scl) (a : NlcData) : Py NlcData := do
  pyAssert (s.nlc.isSome = true)
  let y ← a.val.bop (· - ·) s.nlcShift.row
  match a.std with
  | none => .error .typeError                                                                   -- line 269
  | some t => do
    let sg := invScale s.xScale s.nlcScale 1
    let g ← optPy (fun (A : Arr3) => A.bopRow (· * ·) sg) a.grad
    let h ← optPy (fun (A : Arr3) => A.bopRow (· * ·) sg) a.stdGrad
    pure ⟨y.map fun v => v * s.nlcScale, some (t.map fun v => v * s.nlcScale), g, h⟩

/-- `_calc_n_set_scl_nlc`: base/Rescaling.py:350-355. -/
def setSclNlc : Call := compute (fun s => do let d ← needSet s.nlc; nlcInit2Scl s d) fun s a => { s with nlcScl := some a }

/-- `set_nlc_scaling`: base/Rescaling.py:313-329. -/
def setNlcScaling (shift : Option Arr1) (scale : Option ℝ) : Call := fun s =>
  if s.nlc.isSome then
    setSclNlc { s with nlcShift := shift.getD s.nlcShift, nlcScale := scale.getD s.nlcScale }
  else (s, .error .assertion)

/-- The shift of the constraints: base/Rescaling.py:333-336. -/
def nlcShiftOf (s : Scl) (v : Arr2) : Py Arr1 :=
  if s.useNlcShift then (do let i ← pyIdx s.idxBest v.r; pure ⟨v.c, v.get i⟩) else pure ⟨s.nlcN, fun _ => 0⟩

/-- The scale of the constraints: base/Rescaling.py:338-346. -/
def nlcScaleOf (s : Scl) : Py ℝ :=
  if s.xInit.r = 1 ∨ s.nlcMtd = .none then pure 1
  else match s.nlcMtd with
    | .objScl => do pyAssert (s.obj.isSome = true); pure s.objScale
    | _ => .error .raised

/-- `_calc_nlc_scaling`: base/Rescaling.py:331-348. -/
def calcNlcScaling (s : Scl) (v : Arr2) : Py (Arr1 × ℝ) := do
  let shift ← nlcShiftOf s v
  let scale ← nlcScaleOf s
  pure (shift, scale)

/-- `set_nlc_data`: base/Rescaling.py:488-508. The method `'dflt_max'`, its own default, is not in
`nlc_scl_method_avail = ['obj_scl', None]`. -/
def setNlcData (d : NlcData) (useShift : Bool := false) (mtd : NlcMtd := .dfltMax) : Call := fun s =>
  let s0 := { s with nlcN := d.val.c }                                                          -- line 490
  if d.val.r ≠ s.xInit.r then (s0, .error .assertion)                                           -- line 492
  else if mtd ≠ .objScl ∧ mtd ≠ .none then (s0, .error .assertion)                              -- line 493
  else
    let s1 := { s0 with nlc := some d, nlcMtd := mtd, useNlcShift := useShift }
    match calcNlcScaling s1 d.val with
    | .ok (shift, scale) => setNlcScaling (some shift) (some scale) s1
    | .error e => (s1, .error e)

/-! ### Changing the scaling of the points -/

/-- `self._calc_n_set_scl_nlc_data()`, `self._calc_n_set_scl_nonlincon()`: base/Rescaling.py:60, 70. The class has no methods
of these names. -/
def noSuchMethod : Call := fun s => (s, .error .attribute)

/-- `set_xscale_data`: base/Rescaling.py:44-70. -/
def setXscale (xShiftIn xScaleIn : Option Arr1) : Call :=
  (compute (fun s => calcXShiftScale s xShiftIn xScaleIn) fun s a => { s with xShift := a.1, xScale := a.2 }).andThen
  (setSclX.andThen
  ((Call.when (fun s => s.obj.isSome) setSclObj).andThen
  ((Call.when (fun s => s.nlc.isSome) noSuchMethod).andThen
  ((Call.when (fun s => s.box.isSome) setSclBox).andThen
  ((Call.when (fun s => s.lin.isSome) setSclLin).andThen
  (Call.when (fun s => s.nlc.isSome) noSuchMethod))))))

/-- `Rescaling.__init__`: base/Rescaling.py:418-442; the object before the call of `set_xscale_data` and the call. -/
def newScl (x : Arr2) (idx : Option ℤ) (useShift : Bool) (mtd : XMtd) (distSet : Option ℝ) : Scl × Py Unit :=
  let s : Scl := { xInit := x, idxBest := idx.getD ((x.r : ℤ) - 1), useShift := useShift, xMtd := mtd, distSet := distSet
                   xShift := ⟨0, fun _ => 0⟩, xScale := ⟨0, fun _ => 0⟩, xScl := ⟨0, 0, fun _ _ => 0⟩
                   R := ⟨0, 0, 0, fun _ _ _ => 0⟩ }
  if mtd = .other then (s, .error .assertion)                                                   -- line 421
  else setXscale none none s

/-- The public methods that change the object. -/
inductive SclOp where
  | xscale (shift scale : Option Arr1)
  | objData (o : ObjData) (useShift : Bool) (mtd : ObjMtd)
  | objScaling (shift scale : Option ℝ)
  | boxcon (lb ub : Arr1)
  | lincon (A : Arr2) (lb ub : Arr1)
  | nlcData (d : NlcData) (useShift : Bool) (mtd : NlcMtd)
  | nlcScaling (shift : Option Arr1) (scale : Option ℝ)

/-- One public method call. -/
def SclOp.run : SclOp → Call
  | .xscale a b => setXscale a b
  | .objData o u m => setObjData o u m
  | .objScaling a b => setObjScaling a b
  | .boxcon l u => setBoxcon l u
  | .lincon A l u => setLincon A l u
  | .nlcData d u m => setNlcData d u m
  | .nlcScaling a b => setNlcScaling a b

end GP
