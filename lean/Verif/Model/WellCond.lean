import Verif.Model.Kernel
import Mathlib.Analysis.SpecialFunctions.Sqrt
import Mathlib.Analysis.SpecialFunctions.Log.Base
import Mathlib.Analysis.SpecialFunctions.ExpDeriv

/-! Model of `gpgradpy/src/base/GpWellCond.py` (nugget part). -/

open Np

noncomputable section

namespace GP

/-- `self.wellcond_mtd`, one of `wellcond_mtd_avail`: GaussianProcess.py:107-112. -/
inductive WcMtd | base | precon | rescaleOrigin | rescaleEtaVary | dfltVmin | dfltVmax
  deriving DecidableEq

/-- `'rescale' in self.wellcond_mtd`. -/
def WcMtd.rescales : WcMtd → Bool
  | .rescaleOrigin | .rescaleEtaVary => true
  | _ => false

/-- `'dflt_v' in self.wellcond_mtd`. -/
def WcMtd.dfltV : WcMtd → Bool
  | .dfltVmin | .dfltVmax => true
  | _ => false

/-- `self.cond_eta_set_mtd`: the three methods that `calc_nugget` knows and any other string. -/
inductive EtaMtd | kbaseEta | kbaseEtaWDim | dfltEta | other
  deriving DecidableEq

/-- The attributes read by the nugget calculation. -/
structure NugOpts where
  dim : ℕ
  useGrad : Bool
  kernel : KType
  mtd : WcMtd
  etaMtd : EtaMtd
  condMaxTarget : ℝ
  etaDflt : ℝ

/-- `calc_mtd_rescale_origin_vreq`: base/GpWellCond.py:26-40. -/
def calcVreq (nEval dim : ℕ) : ℝ :=
  if nEval = 1 then 1
  else
    let distStar := 2 * Real.sqrt dim                                                           -- line 35
    let sqrtTerm := Real.sqrt (4 + 2 * Real.exp 2 * Real.log ((nEval - 1) * (1 + distStar) / 2)) -- line 36
    min ((2 + sqrtTerm) / Real.exp 1) distStar                                                  -- lines 37-38

/-- `calc_nugget_Kbase`: base/GpWellCond.py:109-114. -/
def calcNuggetKbase (nEval : ℕ) (condMax : ℝ) : ℝ := nEval / (condMax - 1)

/-- `calc_nugget_Kfull_vreq`: base/GpWellCond.py:78-99 (`vmin` is never passed by a caller). -/
def calcNuggetKfullVreq (o : NugOpts) (nEval : ℕ) : Py ℝ :=
  let vmin := calcVreq nEval o.dim                                                              -- line 81
  let condMax := o.condMaxTarget
  if nEval = 1 then .ok (nEval / (condMax - 1))                                                 -- line 87
  else do
    pyAssert (Real.sqrt 2 ≤ vmin)                                                               -- line 89
    let vFrac := 2 * Real.sqrt o.dim / vmin                                                     -- line 91
    let uEigmax := 1 + ((nEval : ℝ) - 1) * vFrac * Real.exp (1 / vFrac - 1)                     -- line 92
    let etaKgrad := uEigmax / (condMax - 1)
    let etaKbase := calcNuggetKbase nEval condMax
    pyAssert ((0.99 : ℝ) ≤ vFrac)                                                               -- line 96
    pyAssert ((0.99 : ℝ) * etaKbase ≤ etaKgrad)                                                 -- line 97
    pure etaKgrad

/-- Upper bound on the off-diagonal row sums: base/GpWellCond.py:127-132. -/
def preconUb (k : KType) (nEval dim : ℕ) : ℝ :=
  match k with
  | .sqExp | .ratQuad =>
    0.5 * (nEval - 1) * (1 + Real.sqrt (1 + 4 * dim)) * Real.exp (-(1 + 2 * dim - Real.sqrt (1 + 4 * dim)) / (4 * dim))
  | .matern =>
    let alpha := (Real.sqrt (3 * dim) - 1 + Real.sqrt (15 * dim + 2 * Real.sqrt (3 * dim) + 1)) /
      (2 * (3 * dim + Real.sqrt (3 * dim)))
    ((nEval : ℝ) - 1) * (1 + (dim + Real.sqrt (3 * dim)) * alpha + dim * (1 + Real.sqrt (3 * dim)) * alpha ^ 2) *
      Real.exp (-Real.sqrt (3 * dim) * alpha)

/-- `calc_nugget`: base/GpWellCond.py:116-154. `none` is NaN. An unknown `cond_eta_set_mtd` is
an explicit `raise Exception`; an unknown kernel type cannot occur. -/
def calcNugget (o : NugOpts) (nEval : ℕ) : Py (ℝ × Option ℝ) :=
  if o.etaMtd = .dfltEta then .ok (o.etaDflt, some o.etaDflt)                                   -- line 119
  else
    let etaKbase := calcNuggetKbase nEval o.condMaxTarget                                       -- line 121
    if o.useGrad then
      if nEval = 1 then .ok (etaKbase, some etaKbase)                                           -- line 125
      else if o.mtd = .precon then
        .ok (etaKbase, some ((1 + preconUb o.kernel nEval o.dim) / (o.condMaxTarget - 1)))      -- lines 127-137
      else if o.mtd.rescales then do
        let e ← calcNuggetKfullVreq o nEval                                                     -- line 140
        pure (etaKbase, some e)
      else match o.etaMtd with                                                                  -- lines 142-149
        | .kbaseEta => .ok (etaKbase, some etaKbase)
        | .kbaseEtaWDim => .ok (etaKbase, some (etaKbase * (o.dim + 1)))
        | _ => .error .raised
    else .ok (etaKbase, none)                                                                   -- line 151

end GP
