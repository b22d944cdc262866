import Verif.Model.ParaDef
import Verif.Model.HpOptz
import Mathlib.Data.List.Sort
import Mathlib.Data.List.MinMax
import Mathlib.Analysis.SpecialFunctions.Log.Base

/-! Model of the bounds, the starting points and the selection of the best run in the optimisation of the hyperparameters:
`get_hp_bounds` (optz/GpHparaCon.py:16-133), `select_hp_optz_x0` and `get_hp_x0_lhs_median` (optz/GpHparaX0.py:16-183), and the loop
and selection of `optz_hp_max_lkd` (optz/OptzLkd.py:185-333). The sampling method, the likelihood at the starting points and the
numerical optimiser are arbitrary functions. -/

open Np

noncomputable section

namespace GP

/-! ### Floats -/

/-- `np.max((a, b))`, `np.maximum(a, b)`: NaN if one of them is. -/
def fmax (a b : Fl) : Fl := do return max (← a) (← b)
/-- `np.min((a, b))`, `np.minimum(a, b)`: NaN if one of them is. -/
def fmin (a b : Fl) : Fl := do return min (← a) (← b)

open Classical in
/-- `np.log10`. Simplification: the logarithm of zero, which is minus infinity, is represented as NaN here; the only place where
the code can take it is treated in `logClamp`. -/
def flog10 (a : Fl) : Fl := do
  let x ← a
  if 0 < x then some (Real.logb 10 x) else none

open Classical in
/-- `np.median`: NaN for the empty sequence or if one entry is NaN. -/
def median (l : List Fl) : Fl :=
  if l = [] ∨ none ∈ l then none
  else
    let s := (l.filterMap id).mergeSort fun a b => decide (a ≤ b)
    if s.length % 2 = 1 then some (s.getD (s.length / 2) 0)
    else some ((s.getD (s.length / 2 - 1) 0 + s.getD (s.length / 2) 0) / 2)

/-- The rows `a:b` of a vector of the history. -/
def window (v : FVec) (a b : ℕ) : List Fl := (List.range' a (min b v.n - a)).map v.get
/-- The rows `a:b` of one column of a matrix of the history. -/
def windowCol (A : FMat) (a b d : ℕ) : List Fl := (List.range' a (min b A.r - a)).map fun k => A.get k d
/-- All entries of the rows `a:b` of a matrix of the history. -/
def windowAll (A : FMat) (a b : ℕ) : List Fl := (List.range A.c).flatMap fun d => windowCol A a b d

/-! ### Scattering values into the optimiser's vector -/

/-- One value for each hyperparameter. -/
structure SlotVals where
  theta : ℕ → Fl
  kernel : Fl
  varK : Fl
  varFval : Fl
  varFgrad : Fl

/-- `para[idx] = val` for a scalar index. -/
def putOne (has : Bool) (i : ℕ) (x : Fl) (v : FVec) : Py FVec :=
  if has then if i < v.n then .ok ⟨v.n, Function.update v.get i x⟩ else .error .index else .ok v

/-- `para[idx_theta] = val` for a vector (or a scalar, broadcast). -/
def putTheta (has : Bool) (idx : List ℕ) (x : ℕ → Fl) (v : FVec) : Py FVec :=
  if has then
    if ∀ i ∈ idx, i < v.n then .ok ⟨v.n, fun p => if p ∈ idx then x (idx.idxOf p) else v.get p⟩ else .error .index
  else .ok v

/-- `np.full(n_hp, np.nan)` followed by the assignments under `if has_theta:`, ..., `if has_var_fgrad:`, for one of the arrays:
optz/GpHparaCon.py:63-119, optz/GpHparaX0.py:78-146. -/
def fillHp (info : HpInfo) (s : SlotVals) : Py FVec := do
  let v ← putTheta info.hasTheta info.idxTheta s.theta ⟨info.nHp, fun _ => none⟩
  let v ← putOne info.hasKernel info.idxKernel s.kernel v
  let v ← putOne info.hasVarK info.idxVarK s.varK v
  let v ← putOne info.hasVarFval info.idxVarFval s.varFval v
  putOne info.hasVarFgrad info.idxVarFgrad s.varFgrad v

/-- `para[bvec] = np.log10(para[bvec])`. -/
def logMasked (v : FVec) (m : List Bool) : Py FVec :=
  if m.length = v.n then .ok ⟨v.n, fun p => if m.getD p false then flog10 (v.get p) else v.get p⟩ else .error .index

/-! ### `get_hp_bounds` -/

/-- The options read by the methods of this file: GaussianProcess.py:46-75, 89-96. -/
structure X0Opts where
  thetaRange : ℝ × ℝ
  varKRange : ℝ × ℝ
  varFvalRange : ℝ × ℝ
  varFgradRange : ℝ × ℝ
  /-- `self.hp_kernel_range`, set by the kernel -/
  kernelRange : Option (ℝ × ℝ)
  /-- `self.hp_median_n_idx` -/
  medianN : ℕ
  /-- `self.hp_const_n_eval` -/
  constN : ℕ
  /-- `self.hp_lhs_bound_factor` -/
  lhsFactor : ℝ
  /-- `self.hp_box_bound_factor` -/
  boxFactor : ℝ

open Classical in
/-- `np.max((np.log10(x), lo))`; the logarithm of zero is minus infinity. -/
def logClamp (x : Fl) (lo : ℝ) : Fl := do
  let y ← x
  if y = 0 then some lo else fmax (flog10 (some y)) (some lo)

/-- `calc_hp_range` after its first line, with the logarithms of the range and the old value raised to the lower limit:
optz/GpHparaCon.py:42-54. -/
def calcHpRange (frac lo hi : ℝ) (old : Fl) : Fl × Fl :=
  let old := fmin old (some hi)                                                                 -- line 45
  let len := frac * (hi - lo)                                                                   -- line 47
  ((fmax (some lo) (old.map (· - len))).map fun v => (10 : ℝ) ^ v,                              -- lines 48, 52
   (fmin (some hi) (old.map (· + len))).map fun v => (10 : ℝ) ^ v)                              -- lines 49, 52

/-- The bounds of a scalar hyperparameter: the range, or `calc_hp_range` with the median of its past values. -/
def scalarRange (old : Bool) (frac : ℝ) (r : ℝ × ℝ) (vals : List Fl) : Fl × Fl :=
  if old then calcHpRange frac (Real.logb 10 r.1) (Real.logb 10 r.2) (logClamp (median vals) (Real.logb 10 r.1))
  else (some r.1, some r.2)

/-- The bounds of `theta`: optz/GpHparaCon.py:67-73. -/
def thetaRangeOld (old : Bool) (frac : ℝ) (r : ℝ × ℝ) (vals : List Fl) : Fl × Fl :=
  if old then calcHpRange frac (Real.logb 10 r.1) (Real.logb 10 r.2) (fmax (median (vals.map flog10)) (some (Real.logb 10 r.1)))
  else (some r.1, some r.2)

/-- `i_optz > (self.hp_const_n_eval + 1)`. -/
def late (o : X0Opts) (i : Option ℕ) : Bool := match i with | some i => decide (o.constN + 1 < i) | none => false

/-- The value of each bound before the logarithms are taken: `side` selects the lower or the upper bound. -/
def boundVals (o : X0Opts) (h : Surr) (old : Bool) (i : Option ℕ) (frac : ℝ) (side : Fl × Fl → Fl) : SlotVals :=
  let b := i.getD 0
  let a := b - o.medianN                                                                        -- line 60
  { theta := fun _ => side (thetaRangeOld old frac o.thetaRange (windowAll (h.two .theta) a b))     -- lines 67-76
    kernel := side (o.kernelRange.map Prod.fst, o.kernelRange.map Prod.snd)                     -- lines 79-80
    varK := side (scalarRange (old && late o i) frac o.varKRange (window (h.one .varK) a b))    -- lines 82-91
    varFval := side (scalarRange (old && late o i) frac o.varFvalRange (window (h.one .varFval) a b))  -- lines 93-102
    varFgrad := side (scalarRange old frac o.varFgradRange (window (h.one .varFgrad) a b)) }    -- lines 104-113

/-- No entry is NaN. -/
def noNaN (v : FVec) : Prop := ∀ p < v.n, v.get p ≠ none

/-- The entry check `if cstr_w_old_hp: assert 0 < range_frac < 1, ...; i_optz - ...` (`None` cannot be subtracted from):
optz/GpHparaCon.py:56-61. -/
def checkOld (old : Bool) (i : Option ℕ) (frac : ℝ) : Py Unit :=
  if old then do
    pyAssert (0 < frac ∧ frac < 1)
    match i with
    | none => .error .typeError
    | some _ => pure ()
  else pure ()

open Classical in
/-- `get_hp_bounds`: optz/GpHparaCon.py:16-133 (the two vectors; `Bounds` holds the same). -/
def getHpBounds (o : X0Opts) (h : Surr) (info : HpInfo) (cstr : Bool) (i : Option ℕ) (frac : ℝ) : Py (FVec × FVec) := do
  let old := cstr && decide (i ≠ some 0)                                                        -- lines 53-54
  checkOld old i frac
  let lo ← fillHp info (boundVals o h old i frac Prod.fst)
  let hi ← fillHp info (boundVals o h old i frac Prod.snd)
  pyAssert (noNaN lo)                                                                           -- line 121
  pyAssert (noNaN hi)                                                                           -- line 122
  let lo ← logMasked lo info.logOptz                                                            -- line 131
  let hi ← logMasked hi info.logOptz                                                            -- line 132
  pure (lo, hi)

/-! ### `get_hp_x0_lhs_median` -/

/-- `np.max((para_med, range[0]))`, `np.min((para_med, range[1]))`. -/
def clampF (r : ℝ × ℝ) (m : Fl) : Fl := fmin (fmax m (some r.1)) (some r.2)

/-- `np.max((para_med / factor, range[0]))`. -/
def medLb (r : ℝ × ℝ) (factor : ℝ) (m : Fl) : Fl := fmax (m.map (· / factor)) (some r.1)
/-- `np.min((para_med * factor, range[1]))`. -/
def medUb (r : ℝ × ℝ) (factor : ℝ) (m : Fl) : Fl := fmin (m.map (· * factor)) (some r.2)

/-- The medians, clamped to the ranges (`para_med_all`): optz/GpHparaX0.py:87-146. -/
def medVals (o : X0Opts) (h : Surr) (i : ℕ) : SlotVals :=
  let a := i - o.medianN                                                                        -- line 71
  let kr := o.kernelRange.getD (0, 0)
  { theta := fun d => clampF o.thetaRange (median (windowCol (h.two .theta) a i d))             -- lines 88-90
    kernel := if o.kernelRange.isSome then clampF kr (median (window (h.one .kernel) a i)) else none  -- lines 101-103
    varK := clampF o.varKRange (median (window (h.one .varK) a i))                              -- lines 114-116
    varFval := clampF o.varFvalRange (fmax (some o.varFvalRange.1) (median (window (h.one .varFval) a i)))  -- lines 127-129
    varFgrad := clampF o.varFgradRange (fmax (some o.varFgradRange.1) (median (window (h.one .varFgrad) a i))) }  -- lines 140-142

/-- One of the four vectors of bounds before the logarithms are taken. -/
def medBounds (o : X0Opts) (h : Surr) (i : ℕ) (side : ℝ × ℝ → ℝ → Fl → Fl) (factor : ℝ) : SlotVals :=
  let m := medVals o h i
  { theta := fun d => side o.thetaRange factor (m.theta d)
    kernel := match o.kernelRange with | some r => side r factor m.kernel | none => none
    varK := side o.varKRange factor m.varK
    varFval := side o.varFvalRange factor m.varFval
    varFgrad := side o.varFgradRange factor m.varFgrad }

/-- `np.any(a > b)`: false for NaN. -/
def anyGt (a b : FVec) : Prop := ∃ p < a.n, ∃ x y, a.get p = some x ∧ b.get p = some y ∧ y < x

/-- `np.linspace(lb, ub, n_x0+2)[1:-1,None]`: optz/GpHparaX0.py:175. -/
def linspaceInner (lb ub : Fl) (n : ℕ) : FMat :=
  ⟨n, 1, fun k _ => do return (← lb) + (k + 1) * (((← ub) - (← lb)) / (n + 1))⟩

/-- What `get_hp_x0_lhs_median` returns: the starting points (rows) and the box. -/
structure StartPts where
  x0 : FMat
  lb : FVec
  ub : FVec

/-- The number of rows: `lhs lb ub n` are the points of `LHS(xlimits=..., random_state=1)(n)`. -/
abbrev Sampler := FVec → FVec → ℕ → FMat

open Classical in
/-- `get_hp_x0_lhs_median`: optz/GpHparaX0.py:67-183. -/
def getHpX0 (o : X0Opts) (h : Surr) (lhs : Sampler) (i : ℕ) (info : HpInfo) (n : ℕ) : Py StartPts := do
  let lhsLb ← fillHp info (medBounds o h i medLb o.lhsFactor)
  let lhsUb ← fillHp info (medBounds o h i medUb o.lhsFactor)
  let boxLb ← fillHp info (medBounds o h i medLb o.boxFactor)
  let boxUb ← fillHp info (medBounds o h i medUb o.boxFactor)
  let lhsLb ← logMasked lhsLb info.logOptz                                                      -- lines 153-157
  let lhsUb ← logMasked lhsUb info.logOptz
  let boxLb ← logMasked boxLb info.logOptz
  let boxUb ← logMasked boxUb info.logOptz
  if anyGt lhsLb lhsUb then .error .raised                                                      -- lines 159-162
  else if anyGt boxLb boxUb then .error .raised                                                 -- lines 164-167
  else if lhsLb.n = 1 then pure ⟨linspaceInner (lhsLb.get 0) (lhsUb.get 0) n, boxLb, boxUb⟩     -- lines 171-173
  else pure ⟨lhs lhsLb lhsUb n, boxLb, boxUb⟩                                                   -- lines 175-177

/-! ### `np.nanargmin` and `np.nanargmax` -/

open Classical in
/-- `np.nanargmin`: the first index of the least entry that is not NaN; `ValueError` if there is none. -/
def nanArgmin (l : List Fl) : Py ℕ :=
  match ((List.range l.length).filter fun i => (l.getD i none).isSome).argmin fun i => (l.getD i none).getD 0 with
  | some i => .ok i
  | none => .error .raised

/-- `np.nanargmax`. -/
def nanArgmax (l : List Fl) : Py ℕ := nanArgmin (l.map fun v => v.map fun x => -x)

/-! ### `select_hp_optz_x0` -/

/-- `self.lkd_optz_start_mtd`. -/
inductive StartMtd
  | lhs (n : ℕ)
  | hpBest (n : ℕ)
  | other

/-- The likelihood and the condition number at one starting point: `b_chofac_good`, `ln_lkd`, `cond`. -/
abbrev Evaluator := FVec → Py (Bool × Fl × Fl)

/-- A row of a matrix. -/
def FMat.row (A : FMat) (k : ℕ) : FVec := ⟨A.c, fun d => A.get k d⟩

/-- The loop over the starting points: optz/GpHparaX0.py:41-47. -/
def evalRows (ev : Evaluator) (A : FMat) : Py (List (Fl × Fl)) :=
  (List.range A.r).mapM fun k => do
    let r ← ev (A.row k)
    pure (if r.1 then (r.2.1, r.2.2) else (none, none))

open Classical in
/-- `cond_all > (1.2*self.cond_max)`. -/
def tooBig (condMax : ℝ) (c : Fl) : Bool := match c with | some c => decide (1.2 * condMax < c) | none => false

/-- The choice of the starting point: optz/GpHparaX0.py:49-62. -/
def pickStart (calcCond : Bool) (condMax : ℝ) (rows : List (Fl × Fl)) : Py ℕ :=
  if calcCond then
    let bad := rows.map fun r => tooBig condMax r.2
    if bad.count true = bad.length then do                                                      -- line 53
      let j ← nanArgmin (rows.map Prod.snd)                                                     -- line 54
      nanArgmax (rows.mapIdx fun k r => if tooBig condMax r.2 && k != j then none else r.1)     -- lines 55-60
    else nanArgmax (rows.map fun r => if tooBig condMax r.2 then none else r.1)
  else nanArgmax (rows.map Prod.fst)

/-- `select_hp_optz_x0`: optz/GpHparaX0.py:16-65. `calcCond` is false for the preconditioned method. -/
def selectX0 (o : X0Opts) (h : Surr) (lhs : Sampler) (ev : Evaluator) (mtd : StartMtd) (calcCond : Bool) (condMax : ℝ) (i : ℕ)
    (info : HpInfo) : Py StartPts :=
  match mtd with
  | .lhs n => getHpX0 o h lhs i info n
  | .hpBest n => do
    let s ← getHpX0 o h lhs i info n
    let rows ← evalRows ev s.x0
    let k ← pickStart calcCond condMax rows
    pure { s with x0 := ⟨1, s.x0.c, fun _ d => s.x0.get k d⟩ }                                  -- line 61
  | .other => .error .raised                                                                    -- line 27

/-! ### `optz_hp_max_lkd` -/

/-- The outcome of one run of the optimiser: `res.x`, `res.fun`, and the condition number at `res.x`. -/
structure Run where
  sol : FVec
  obj : Fl
  cond : Fl

open Classical in
/-- `all_con_good[i]`: optz/OptzLkd.py:278-283. -/
def conGood (useCstr : Bool) (condMax : ℝ) (r : Run) : Bool :=
  if useCstr then match r.cond with | some c => decide (c < 1.01 * condMax) | none => false else true

/-- The selection of the best run: optz/OptzLkd.py:295-306. -/
def pickBest (useCstr : Bool) (condMax : ℝ) (runs : List Run) : Py Run := do
  let sel := if runs.any (conGood useCstr condMax) then runs.filter (conGood useCstr condMax) else runs
  let i ← nanArgmin (sel.map Run.obj)
  match sel[i]? with
  | some r => pure r
  | none => .error .index

/-- The loop over the starting points and the selection, with `opt` the optimiser: optz/OptzLkd.py:243-306. -/
def optzMaxLkd (useCstr : Bool) (condMax : ℝ) (opt : FVec → Py Run) (x0 : FMat) : Py FVec := do
  let runs ← (List.range x0.r).mapM fun k => opt (x0.row k)
  let r ← pickBest useCstr condMax runs
  pure r.sol

end GP
