import Verif.Model.OptzHp

/-! Model of `optz_hp_max_lkd` (optz/OptzLkd.py:186-333) with the minimiser as an arbitrary terminating program that calls the four
callbacks of the object: the runs from the different starting points share the cache of the object. -/

open Np

noncomputable section

namespace GP

/-- The result of `scipy.optimize.minimize`: `res.x`, `res.fun`, `res.success`, `res.nit`. -/
structure MinRes where
  x : FVec
  fn : Fl
  success : Bool
  nit : ℝ

/-- `scipy.optimize.minimize` started at some point: it returns, or it calls one of the callbacks (`fun`, `jac` and those of
`NonlinearConstraint`, GaussianProcess.py:211-212, optz/OptzLkd.py:265-270) and goes on in a way that depends on the answer. It
terminates; a callback that raises ends it; the arguments of the callbacks contain no NaN. -/
inductive Mini (m : ℕ) where
  | done (r : MinRes)
  | val (x : Arr1) (k : ℝ → Mini m)
  | grad (x : Arr1) (k : Vec m → Mini m)
  | cond (x : Arr1) (k : Option ℝ → Mini m)
  | condGrad (x : Arr1) (k : Option (Vec m) → Mini m)

/-- A run of the minimiser on the callbacks of the object. -/
def Mini.exec (g : Gp) (env : LkdEnv) : Mini env.info.nHp → OptzState env.info.nHp → Py (MinRes × OptzState env.info.nHp)
  | .done r, st => .ok (r, st)
  | .val x k, st => do let a ← returnOptzVal g env st x; (k a.1).exec g env a.2
  | .grad x k, st => do let a ← returnOptzGrad g env st x; (k a.1).exec g env a.2
  | .cond x k, st => do let a ← returnCondVal g env st x; (k a.1).exec g env a.2
  | .condGrad x k, st => do let a ← returnCondGrad g env st x; (k a.1).exec g env a.2

/-- The counters: optz/OptzLkd.py:240-242. -/
structure InitStats where
  choFail : ℕ := 0
  cond2big : ℕ := 0
  maxInit : Fl := none

open Classical in
/-- `np.max((a, b))`: NaN if one of them is. -/
def npMax2 (a b : Fl) : Fl := match a, b with | some x, some y => some (max x y) | _, _ => none

open Classical in
/-- The statistics of a starting point: optz/OptzLkd.py:255-259. (`np.isnan` of the likelihood, which is a number in the model;
`np.max` raises if the condition number is `None`.) -/
def InitStats.add (condMax : ℝ) (s : InitStats) (lkd : Fl) (cond : Option ℝ) : Py InitStats := do
  let c ← need cond
  pure { choFail := s.choFail + if lkd.isNone then 1 else 0
         cond2big := s.cond2big + if condMax < c then 1 else 0
         maxInit := npMax2 s.maxInit (some c) }

/-- What the loop has stored. -/
structure LoopState (m : ℕ) where
  st : OptzState m
  stats : InitStats := {}
  /-- the rows of `optz_sol_all`, `optz_obj_all`, `optz_cond_all`, and of `all_optz_success`, `all_total_fun_iter` -/
  runs : List (Run × MinRes) := []

/-- The statistics before a run: optz/OptzLkd.py:255-259. -/
def initRun (g : Gp) (env : LkdEnv) (condMax : ℝ) (x : Arr1) (s : LoopState env.info.nHp) : Py (LoopState env.info.nHp) :=
  if env.useCstr then do
    let r ← calcStoreLkd g env s.st x false true
    let t ← s.stats.add condMax (some r.1.lkd) r.1.cond
    pure { s with st := r.2, stats := t }
  else .ok s

/-- The condition number at the solution: optz/OptzLkd.py:278-280. -/
def endCond (g : Gp) (env : LkdEnv) (r : MinRes) (st : OptzState env.info.nHp) : Py (Fl × OptzState env.info.nHp) :=
  if env.useCstr then do
    let a ← numsOr r.x
    returnCondVal g env st a
  else .ok (none, st)

/-- The body of the loop for one starting point: optz/OptzLkd.py:249-283. The assignment of the solution to the row of
`optz_sol_all` is not checked: the minimiser returns as many numbers as it gets. -/
def loopBody (g : Gp) (env : LkdEnv) (min : Arr1 → Mini env.info.nHp) (condMax : ℝ) (s : LoopState env.info.nHp) (row : FVec) :
    Py (LoopState env.info.nHp) := do
  let x ← numsOr row
  let s ← initRun g env condMax x s
  let st := { s.st with last := some ⟨[1, x.n], fun _ => none⟩ }                                -- line 263
  let r ← (min x).exec g env st                                                                 -- lines 265-270
  let c ← endCond g env r.1 r.2
  pure { s with st := c.2, runs := s.runs ++ [(⟨r.1.x, r.1.fn, c.1⟩, r.1)] }

/-- `np.mean` of booleans. -/
def meanBool (l : List Bool) : Fl := some ((l.count true : ℝ) / l.length)

/-- `surr_optz_info`: optz/OptzLkd.py:310-322. There is at least one run. -/
def loopInfo (useCstr : Bool) (condMax : ℝ) (s : InitStats) (runs : List (Run × MinRes)) : OptzInfo :=
  { success := some (meanBool (runs.map (·.2.success)))
    iterMean := some (some ((runs.map (·.2.nit)).sum / runs.length))
    iterMax := some (runs.map (·.2.nit)).max?
    conGood := some (meanBool (runs.map fun r => conGood useCstr condMax r.1))
    choFail := some s.choFail, cond2big := some s.cond2big, maxInitCond := s.maxInit }

/-- `optz_hp_max_lkd` up to the final condition number (`finalCond`): optz/OptzLkd.py:221-322. -/
def optzLoop (g : Gp) (env : LkdEnv) (min : Arr1 → Mini env.info.nHp) (condMax : ℝ) (st : OptzState env.info.nHp) (x0 : FMat) :
    Py (FVec × OptzInfo × OptzState env.info.nHp) := do
  let s ← ((List.range x0.r).map x0.row).foldlM (loopBody g env min condMax) { st := st }
  let b ← pickBest env.useCstr condMax (s.runs.map (·.1))                                       -- lines 295-306
  pure (b.sol, loopInfo env.useCstr condMax s.stats s.runs, s.st)

end GP
