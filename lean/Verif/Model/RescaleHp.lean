import Verif.Model.WellCond
import Verif.Model.Rescale
import Verif.Model.HpOptz

/-! Model of the rescaling of the data with the optimised length scales: `rescaling_data_w_theta_sol`
(base/GpWellCond.py:42-76) and `optz_hp_max_lkd_mtd_rescale` (optz/OptzLkd.py:116-183). The numerical optimiser is an
arbitrary function. -/

open Np

noncomputable section

namespace GP

/-- `10**hp_theta if self.optz_log_hp_theta else hp_theta`: base/GpWellCond.py:50-55. -/
def thetaLin (log : Bool) (v : ℝ) : ℝ := if log then (10 : ℝ) ^ v else v
/-- `hp_theta if self.optz_log_hp_theta else np.log10(hp_theta)`: base/GpWellCond.py:50-55. -/
def thetaLog (log : Bool) (v : ℝ) : ℝ := if log then v else Real.logb 10 v
/-- `np.log10(th) if self.optz_log_hp_theta else th`: base/GpWellCond.py:74. -/
def thetaEnc (log : Bool) (t : ℝ) : ℝ := if log then Real.logb 10 t else t

/-- The triple returned by `rescaling_data_w_theta_sol`. -/
structure RescaleOut where
  theta : Arr1
  dist : ℝ
  scale : Arr1

/-- `rescaling_data_w_theta_sol`: base/GpWellCond.py:42-76. -/
def rescaleTheta (log : Bool) (dim : ℕ) (X : Arr2) (scale1 theta : Arr1) : Py RescaleOut := do
  pyAssert (1 < X.r)                                                                            -- line 48
  let th := theta.map (thetaLin log)
  let lg := theta.map (thetaLog log)
  let vreq := calcVreq X.r dim                                                                  -- line 57
  let star := (10 : ℝ) ^ ((∑ d ∈ Finset.range lg.n, lg.get d) / lg.n)                           -- line 59
  let scale2 := th.map fun t => Real.sqrt (t / star)                                            -- line 61
  let X2 ← X.bop (· * ·) scale2.row                                                             -- line 62
  let dmin ← needDist (calcDistMin X2)
  let corr := vreq / max dmin ((10 : ℝ) ^ (-15 : ℤ))                                            -- lines 65-66
  let sn ← scale1.bop (· * ·) scale2                                                            -- line 67
  if theta.n = dim then                                                                         -- `np.dot` with `np.ones(self.dim)`
    pure { theta := ⟨dim, fun _ => thetaEnc log (star / corr ^ 2)⟩                              -- lines 72-74
           dist := ∑ d ∈ Finset.range lg.n, lg.get d * lg.get d - (∑ d ∈ Finset.range lg.n, lg.get d * 1) ^ 2 / dim  -- line 71
           scale := sn.map (· * corr) }
  else .error .shape

/-- `v[idx] = w` for a vector of indices. -/
def putIdx (v : Arr1) (idx : List ℕ) (w : Arr1) : Py Arr1 :=
  if ∀ i ∈ idx, i < v.n then
    if w.n = idx.length then .ok ⟨v.n, fun i => if i ∈ idx then w.get (idx.idxOf i) else v.get i⟩ else .error .shape
  else .error .index

/-- The options read by `optz_hp_max_lkd_mtd_rescale`. -/
structure RescaleOpts where
  /-- `self.optz_log_hp_theta` -/
  log : Bool
  dim : ℕ
  /-- `self.hp_info_optz_lkd.idx_theta` -/
  idxTheta : List ℕ
  /-- `self.cond_vreq_max_iter` -/
  maxIter : ℕ
  /-- `self.cond_vreq_iter_tol` -/
  tol : ℝ

/-- The `while` loop: optz/OptzLkd.py:147-167. The first argument is the number of rows left in the arrays; `its` are the rows
filled so far. `self.DataScl` is not changed by the loop. `opt` is the optimiser: number of the call, starting point. -/
def rescaleLoop (o : RescaleOpts) (opt : ℕ → Arr1 → Py Arr1) (s : Scl) :
    ℕ → Arr1 → Arr1 → List RescaleOut → Py (Arr1 × List RescaleOut)
  | 0, _, _, _ => .error .index                                                                 -- `theta_all[cnt,:]`
  | k + 1, theta, best, its => do
    let r ← rescaleTheta o.log o.dim s.xScl s.xScale theta                                      -- lines 148-151
    let its := its ++ [r]
    if k = 0 ∨ r.dist < o.tol then pure (best, its)                                             -- line 157
    else do
      let x0 ← putIdx best o.idxTheta r.theta                                                   -- lines 160-161
      let best ← opt its.length x0                                                              -- line 163
      rescaleLoop o opt s k r.theta best its

open Classical in
/-- The computation of `optz_hp_max_lkd_mtd_rescale` for more than one point, before `self.DataScl` is changed: the final
scale and the final hyperparameters: optz/OptzLkd.py:139-176. (`np.nanargmin` gives the first minimum.) -/
def rescaleHp (o : RescaleOpts) (opt : ℕ → Arr1 → Py Arr1) (s : Scl) (best : Arr1) : Py (Arr1 × Arr1) := do
  let theta ← takeIdx best o.idxTheta                                                           -- line 145
  let r ← rescaleLoop o opt s o.maxIter theta best []
  match r.2.argmin fun i => i.dist with                                                         -- line 169
  | none => .error .shape
  | some i => do
    let hp ← putIdx r.1 o.idxTheta i.theta                                                      -- lines 175-176
    pure (i.scale, hp)

/-- `optz_hp_max_lkd_mtd_rescale`: optz/OptzLkd.py:116-183 (only the hyperparameters it returns). The vector is copied and
overwritten after `set_xscale_data`; the copy cannot fail differently, so it is computed before. -/
def optzRescale (o : RescaleOpts) (opt : ℕ → Arr1 → Py Arr1) (x0 : Arr1) (s : Scl) : Scl × Py Arr1 :=
  match opt 0 x0 with
  | .error e => (s, .error e)
  | .ok best =>
    if 1 < s.xInit.r then
      match rescaleHp o opt s best with
      | .error e => (s, .error e)
      | .ok r =>
        match setXscale none (some r.1) s with                                                  -- line 173
        | (s', .ok ()) => (s', .ok r.2)
        | (s', .error e) => (s', .error e)
    else (s, .ok best)                                                                          -- line 178

end GP
