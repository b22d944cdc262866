import Verif.Model.GaussProc
import Verif.Model.HpX0
import Verif.Model.RescaleHp
import Verif.Model.EvalModel
import Verif.Model.LkdAll

/-! Model of the hyperparameter protocol: `set_hpara` (GaussianProcess.py:365-395), `optz_hp` and `optz_closed_form_hp`
(optz/GpHparaOptz.py:140-185, 220-230), `set_custom_hp` (base/GpHpara.py:105-116). The numerical optimiser, the sampler, the
eigenvalue routine and the clock are arbitrary. -/

open Np

noncomputable section

namespace GP

open Classical in
/-- A vector of floats without NaN as a vector of numbers. -/
def FVec.nums (v : FVec) : Option Arr1 := if ∀ p < v.n, v.get p ≠ none then some ⟨v.n, fun p => (v.get p).getD 0⟩ else none

/-- The numbers of a vector that may be `None`; the outer `none` means that there is a NaN. -/
def optNums : Option FVec → Option (Option Arr1)
  | none => some none
  | some v => v.nums.map some

/-- The number of a float that may be `None`; the outer `none` means NaN. -/
def optNum : Option Fl → Option (Option ℝ)
  | none => some none
  | some none => none
  | some (some x) => some (some x)

/-- Hyperparameters as the likelihood and evaluation code reads them, if there is no NaN. A NaN kernel parameter stands for `None`:
kernels without parameter ignore it, and one with a parameter gets NaN only from a row of the history that was never written, where
`theta` is NaN as well. -/
def HpF.nums (h : HpF) : Option HpVals := do
  let beta ← optNums h.beta
  let theta ← optNums h.theta
  let varK ← optNum h.varK
  let vf ← optNum h.varFval
  let vg ← optNum h.varFgrad
  pure { beta := beta, theta := theta, kernel := h.kernel.join, varK := varK, varFval := vf, varFgrad := vg }

/-- Numbers as floats. -/
def HpF.ofVals (h : HpVals) : HpF :=
  { beta := h.beta.map FVec.ofArr, theta := h.theta.map FVec.ofArr, kernel := h.kernel.map some, varK := h.varK.map some
    varFval := h.varFval.map some, varFgrad := h.varFgrad.map some }

/-- The whole object: what `set_data` and `set_wellcond_mtd` change, the history and the current hyperparameters, and what
`setup_eval_model` stores. -/
structure Session where
  obj : GpObj
  name : String := ""
  /-- `self._save_data` -/
  save : Bool := false
  h : Option Surr := none
  /-- `self.hp_vals` -/
  hp : Option HpF := none
  /-- `self._hp_vals_model_setup` -/
  setupHp : Option HpF := none
  /-- what the last successful `setup_eval_model` stored -/
  ev : Option (Σ n, EvalState n) := none

/-- The attributes of the object read by the methods of `GpParaDef`. -/
def Session.surr (s : Session) : SurrObj :=
  { dim := s.obj.st.dim, nBeta := nBetaCoeff, useGrad := s.obj.st.useGrad, condMax := s.obj.st.condMax, name := s.name
    save := s.save, h := s.h, hpVals := s.hp, knownFval := s.obj.knownFval, knownFgrad := s.obj.knownFgrad
    data := s.obj.fvalIn.map fun f => ⟨f, some s.obj.etaKbase, s.obj.etaKgrad, s.obj.vminInit⟩
    vminReq := s.obj.vminReq, useScl := s.obj.useScl, xScale := s.obj.scl.map fun c => c.xScale }

/-- The attributes that those methods change. -/
def Session.put (s : Session) (o : SurrObj) : Session :=
  { s with save := o.save, h := o.h, hp := o.hpVals, obj := { s.obj with knownFval := o.knownFval, knownFgrad := o.knownFgrad } }

/-- Options of the optimisation: GaussianProcess.py:35-69, 117-118. -/
structure OptzCfg where
  x0 : X0Opts
  start : StartMtd
  lkd : LkdOpts
  /-- `self.cond_vreq_max_iter` -/
  maxIter : ℕ := 3
  /-- `self.cond_vreq_iter_tol` -/
  tol : ℝ := 1 / 10

/-- What a call of `optz_hp` depends on besides the object: the sampler, the optimiser (number of the call, starting point), the
eigenvalue routine, the information on the optimisation, the clock, and the condition number in the rescaling method. -/
structure Oracle where
  lhs : Sampler
  opt : ℕ → FVec → Py Run
  eig : EigFun
  info : OptzInfo
  time : Fl × Fl × Fl
  cond : Fl

/-- The environment of the likelihood. -/
def GpObj.env (o : GpObj) (c : OptzCfg) (q : Oracle) (info : HpInfo) : LkdEnv :=
  { lkd := c.lkd, info := info, useCstr := o.useCstr, eig := q.eig }

/-- The object as `hp_vec2dataclass` sees it: it asserts the flags `b_optz_var_fval` and `b_optz_var_fgrad`. -/
def GpObj.decGp (o : GpObj) (g : Gp) : Gp := { g with knownFval := !o.optzVarFval, knownFgrad := !o.optzVarFgrad }

/-- A vector from the optimiser or the sampler; NaN entries are not modelled (the model raises). -/
def numsOr (v : FVec) : Py Arr1 :=
  match v.nums with
  | some a => .ok a
  | none => .error .raised

/-- The likelihood at a starting point: optz/GpHparaX0.py:40-46. -/
def evalStart (o : GpObj) (g : Gp) (env : LkdEnv) (calcCond : Bool) : Evaluator := fun v => do
  let a ← numsOr v
  let hp ← hpVec2Dataclass (o.decGp g) env.info a
  let r ← calcLkdAll g env hp calcCond false
  pure (r.2, r.1.lnLkd, r.1.cond)

/-- The condition number of the covariance matrix at the best solution: optz/OptzLkd.py:324-332. -/
def finalCond (g : Gp) (hp : HpVals) : Py (Option ℝ) := do
  let R ← calcRtensor g.x g.x
  let out ← if g.noisy then calcAllK g R hp none false true none false else calcKernWChofac g R hp none false true
  pure out.condK

/-- `optz_hp_max_lkd` (only the solution) for a matrix of starting points: optz/OptzLkd.py:186-333. -/
def runOptz (o : GpObj) (q : Oracle) (k : ℕ) (x : FMat) : Py Arr1 := do
  let v ← optzMaxLkd o.useCstr o.st.condMax (q.opt k) x
  numsOr v

/-- The starting point of a later call of the optimiser in the rescaling method: one row. -/
def oneRow (x : Arr1) : FMat := ⟨1, x.n, fun _ d => some (x.get d)⟩

/-- The optimiser in the rescaling method: all starting points first, then single ones. -/
def rescaleOpt (o : GpObj) (q : Oracle) (x0 : FMat) (k : ℕ) (x : Arr1) : Py Arr1 :=
  if k = 0 then runOptz o q 0 x0 else runOptz o q k (oneRow x)

/-- The options of the rescaling method. -/
def GpObj.rescaleOpts (o : GpObj) (c : OptzCfg) (info : HpInfo) : RescaleOpts :=
  { log := o.st.log.theta, dim := o.st.dim, idxTheta := info.idxTheta, maxIter := c.maxIter, tol := c.tol }

/-- The choice between the methods and their results: optz/GpHparaOptz.py:171-178. The rescaling method returns the condition number
at the solution before the final change of the scale; it is arbitrary here. -/
def optzVec (c : OptzCfg) (q : Oracle) (o : GpObj) (g : Gp) (info : HpInfo) (x0 : FMat) : GpObj × Py (Arr1 × Fl) :=
  if o.mtd.rescales && decide (1 < c.maxIter) then
    match o.scl with
    | none => (o, .error .attribute)
    | some s =>
      match optzRescale (o.rescaleOpts c info) (rescaleOpt o q x0) ⟨0, fun _ => 0⟩ s with
      | (s', .ok v) => ({ o with scl := some s' }, .ok (v, q.cond))
      | (s', .error e) => ({ o with scl := some s' }, .error e)
  else (o, do
    let v ← runOptz o q 0 x0
    let hp ← hpVec2Dataclass (o.decGp g) info v
    let k ← finalCond g hp
    pure (v, k))

/-- `optz_closed_form_hp`: optz/GpHparaOptz.py:220-230. -/
def closedForm (g : Gp) (env : LkdEnv) (hp : HpVals) : Py HpVals := do
  let r ← calcLkdAll g env hp false false
  let hp := { hp with beta := r.1.beta.map fun b => ⟨nBetaCoeff, fun k => if h : k < nBetaCoeff then b ⟨k, h⟩ else 0⟩ }
  pure (if g.noisy then hp else { hp with varK := r.1.varK })

/-- The hyperparameters of a solution: optz/GpHparaOptz.py:182-185. -/
def decodeSol (c : OptzCfg) (q : Oracle) (o : GpObj) (info : HpInfo) (v : Arr1) : Py HpVals := do
  let g ← o.view
  let hp ← hpVec2Dataclass (o.decGp g) info v
  closedForm g (o.env c q info) hp

/-- `store_new_para_surr` on the whole object. -/
def Session.store (i : ℤ) (a : StoreArgs) (s : Session) : Session × Py Unit :=
  match storeSurr i a s.surr with
  | (o, r) => (s.put o, r)

/-- The initial hyperparameters and the condition number: optz/GpHparaOptz.py:153-157. -/
def initArgs (st : GpStatic) (g : Gp) : Py StoreArgs := do
  let hp := getInitHp st g
  let R ← calcRtensor g.x g.x
  let out ← calcAllK g R hp none false true none false
  pure { hp := HpF.ofVals hp, info := none, cond := out.condK, timeOptz := some 0, timeChofac := some 0, timePick := some 0 }

/-- The end of the slice `idx_min:idx_max` of arrays with `n` rows, `idx_max = i_optz`: a negative end counts from the end of the
arrays. optz/GpHparaX0.py:72. -/
def histStop (n : ℕ) (i : ℤ) : ℕ := if 0 ≤ i then i.toNat else (n + i).toNat

/-- At most how many rows there are in the slice `idx_min:idx_max`, `idx_min = max(0, i_optz - self.hp_median_n_idx)`: for a negative
iteration the slice starts with the first row. optz/GpHparaX0.py:71. -/
def histCount (n medianN : ℕ) (i : ℤ) : ℕ := if 0 ≤ i then medianN else n

/-- The starting points: optz/GpHparaOptz.py:163, optz/GpHparaX0.py:16-65. (The arrays of the history have the same number of rows.) -/
def startPts (c : OptzCfg) (q : Oracle) (i : ℤ) (s : Session) (g : Gp) (info : HpInfo) : Py StartPts :=
  match s.h with
  | none => .error .attribute
  | some h =>
    let n := (h.two .theta).r
    selectX0 { c.x0 with constN := s.obj.st.constN, kernelRange := hpKernelRange s.obj.st.kernel, medianN := histCount n c.x0.medianN i } h
      q.lhs (evalStart s.obj g (s.obj.env c q info) (s.obj.mtd != .precon)) c.start (s.obj.mtd != .precon) s.obj.st.condMax (histStop n i)
      info

/-- The second part of `optz_hp`, after the numerical optimisation: optz/GpHparaOptz.py:180-189. -/
def finishOptz (c : OptzCfg) (q : Oracle) (i : ℤ) (info : HpInfo) (v : Arr1) (cond : Fl) (s : Session) : Session × Py Unit :=
  match decodeSol c q s.obj info v with
  | .error e => (s, .error e)
  | .ok hp => s.store i { hp := HpF.ofVals hp, info := some q.info, cond := cond
                          timeOptz := q.time.1, timeChofac := q.time.2.1, timePick := q.time.2.2 }

/-- `optz_hp` when there are more than `hp_const_n_eval` points: optz/GpHparaOptz.py:158-189. -/
def optzNum (c : OptzCfg) (q : Oracle) (i : ℤ) (g : Gp) (s : Session) : Session × Py Unit :=
  match s.obj.info with
  | none => (s, .error .attribute)
  | some info =>
    match startPts c q i s g info with
    | .error e => (s, .error e)
    | .ok p =>
      match optzVec c q s.obj g info p.x0 with
      | (o, .error e) => ({ s with obj := o }, .error e)
      | (o, .ok r) => finishOptz c q i info r.1 r.2 { s with obj := o }

/-- `optz_hp`: optz/GpHparaOptz.py:140-189. -/
def optzHp (c : OptzCfg) (q : Oracle) (i : ℤ) (s : Session) : Session × Py Unit :=
  match s.obj.view with
  | .error e => (s, .error e)
  | .ok g =>
    if s.obj.nEval ≤ s.obj.st.constN then                                                       -- line 152
      match initArgs s.obj.st g with
      | .error e => (s, .error e)
      | .ok a => s.store i a
    else optzNum c q i g s

/-- `setup_eval_model` after its first statement: eval/GpEvalModel.py:27-57. NaN in the hyperparameters is not modelled (the model
raises). -/
def Session.setupWith (calcCond : Bool) (h : HpF) (s : Session) : Session × Py Unit :=
  match h.nums with
  | none => (s, .error .raised)
  | some hp =>
    match s.obj.view with
    | .error e => (s, .error e)
    | .ok g =>
      match setupEvalModel g hp calcCond with
      | .error e => (s, .error e)
      | .ok e => ({ s with ev := some ⟨g.nData, e⟩ }, .ok ())

/-- `setup_eval_model` on the whole object: eval/GpEvalModel.py:17-57. The copy of the hyperparameters is made first (line 25), so it
is there even if the rest raises. -/
def Session.setup (calcCond : Bool) (s : Session) : Session × Py Unit :=
  match s.hp with
  | none => (s, .error .attribute)
  | some h => Session.setupWith calcCond h { s with setupHp := some h }

/-- Sequential composition. -/
def Session.andSetup (calcCond : Bool) (r : Session × Py Unit) : Session × Py Unit :=
  match r with
  | (s, .error e) => (s, .error e)
  | (s, .ok ()) => s.setup calcCond

/-- The part of `set_hpara` before `setup_eval_model`: GaussianProcess.py:382-394. `self.hp_vals` is not an attribute before it is assigned. -/
def selectHp (c : OptzCfg) (q : Oracle) (m : String) (i : ℤ) (hp : Option HpF) (s : Session) : Session × Py Unit :=
  if m = "stored" then
    if 0 ≤ i then
      match setHpFromIdx i s.surr with
      | (o, r) => (s.put o, r)
    else (s, .error .assertion)
  else if m = "optz" then
    optzHp c q i s
  else if m = "current" then
    if 0 < i then
      if s.hp.isSome then (s, .ok ()) else (s, .error .attribute)
    else (s, .error .assertion)
  else if m = "set" then
    match hp with
    | some h => ({ s with hp := some h }, .ok ())
    | none => (s, .error .assertion)
  else (s, .error .raised)

/-- `set_hpara`: GaussianProcess.py:365-397. -/
def setHpara (c : OptzCfg) (q : Oracle) (m : String) (i : ℤ) (hp : Option HpF) (calcCond : Bool) (s : Session) : Session × Py Unit :=
  Session.andSetup calcCond (selectHp c q m i hp s)

open Classical in
/-- `set_custom_hp`: base/GpHpara.py:105-116. A NaN `varK` is not positive. -/
def setCustomHp (h : HpF) (s : Session) : Session × Py Unit :=
  match h.varK with
  | none => ({ s with hp := some h }, .ok ())
  | some (some v) => if 0 < v then ({ s with hp := some h }, .ok ()) else (s, .error .assertion)
  | some none => (s, .error .assertion)

/-- `init_optz_surr` on the whole object. -/
def Session.init (n : ℕ) (s : Session) : Session := s.put (initSurr n s.surr)

/-- `set_data` and `set_wellcond_mtd` on the whole object. -/
def Session.lift (f : GCall) (s : Session) : Session × Py Unit :=
  match f s.obj with
  | (o, r) => ({ s with obj := o }, r)

/-- A new object of the class: GaussianProcess.py:136-190. `self.hp_vals` and the arrays of the history do not exist yet. -/
def newSession (st : GpStatic) (m : Option String) : Py Session := do
  let o ← newGp st m
  pure { obj := o }

end GP
