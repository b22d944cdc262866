import Verif.Model.PlotData
import Verif.Model.EvalModel
import Verif.Model.LkdAll

/-! Model of the computations of `plt/plt_surr_1d.py`: the likelihood for a list of length scales, its local maxima, and the surrogates for
three of them. -/

open Np

noncomputable section

namespace GP

/-- `GP.make_hp_class(None, np.atleast_1d(theta_vec[i]))`: plt/plt_surr_1d.py:93. -/
def sweepHp (t : ℝ) : HpVals := { theta := some ⟨1, fun _ => t⟩ }

/-- The loop of `calc_lkd`: plt/plt_surr_1d.py:84-99. Returns `ln_lkd_all`, `hp_mu_vec`, `varK_vec`. `lkd_info.hp_beta[0]` raises if there is no
likelihood; `None` stored in an array of floats becomes NaN. -/
def sweepRaw (g : Gp) (env : LkdEnv) (theta : Arr1) : Py (FVec × Arr1 × FVec) :=
  forRange 0 theta.n (⟨theta.n, fun _ => some 0⟩, ⟨theta.n, fun _ => 0⟩, ⟨theta.n, fun _ => some 0⟩) fun i s => do
    let r ← calcLkdAll g env (sweepHp (theta.get i)) true false                                   -- line 95
    let b ← need r.1.beta                                                                         -- line 97
    pure (⟨theta.n, Function.update s.1.get i r.1.lnLkd⟩, ⟨theta.n, Function.update s.2.1.get i (b ⟨0, Nat.one_pos⟩)⟩,
      ⟨theta.n, Function.update s.2.2.get i r.1.varK⟩)

/-- `ln_lkd_scl`: plt/plt_surr_1d.py:101. `np.min` of an empty array raises, of an array with NaN it is NaN. -/
def sweepScl (v : FVec) : Py FVec :=
  if v.n = 0 then .error .raised
  else
    let l := (List.range v.n).map v.get
    if l.any Option.isNone then .ok ⟨v.n, fun _ => none⟩
    else .ok ⟨v.n, fun i => sclEntry (v.get i) (nanMinL l) (nanMaxL l)⟩

open Classical in
/-- `a > b` in floats. -/
def flGt (a b : Fl) : Bool := decide (∃ x y, a = some x ∧ b = some y ∧ y < x)

/-- `vec_idx_lkd_max` before it is overwritten: plt/plt_surr_1d.py:140-149 (`grad_pos` and `grad_neg` are compared position by position). -/
def localMaxima (s : FVec) : List ℕ :=
  let l := (List.range s.n).filter fun i =>
    (decide (i + 1 < s.n) && flGt (s.get i) (s.get (i + 1))) && (decide (0 < i) && flGt (s.get i) (s.get (i - 1)))
  if l = [] then [s.n / 2] else l

/-- `np.argmax`: the first NaN if there is one. -/
def argmaxFl (l : List Fl) : Py ℕ :=
  match l.findIdx? Option.isNone with
  | some i => .ok i
  | none => nanArgmax l

/-- The positions whose surrogates are plotted: plt/plt_surr_1d.py:151-156. Index 62 raises at its first use if there are fewer values. -/
def sweepPicks (useGrad : Bool) (s : FVec) : Py (List ℕ) :=
  if useGrad then do
    let k ← argmaxFl ((List.range s.n).map s.get)
    pure [0, k, s.n - 1]
  else if s.n ≤ 62 then .error .index
  else pure [0, 62, s.n - 1]

/-- The hyperparameters for position `k`: plt/plt_surr_1d.py:201. A NaN for the variance (only with noisy data) is treated as missing. -/
def pickHp (theta beta : Arr1) (varK : FVec) (k : ℕ) : HpVals :=
  { beta := some ⟨1, fun _ => beta.get k⟩, theta := some ⟨1, fun _ => theta.get k⟩, varK := varK.get k }

/-- The surrogate for position `k`: plt/plt_surr_1d.py:201-206. -/
def pickSurr (g : Gp) (theta beta : Arr1) (varK : FVec) (X : Arr2) (k : ℕ) : Py (EvalOut X.r g.dim) := do
  let st ← setupEvalModel g (pickHp theta beta varK k) false
  evalModel g st (pickHp theta beta varK k) X true false

/-- The computations of the script: the scaled likelihood, the plotted positions and their surrogates. -/
def surr1d (g : Gp) (env : LkdEnv) (theta : Arr1) (X : Arr2) : Py (FVec × List ℕ × List (EvalOut X.r g.dim)) := do
  let r ← sweepRaw g env theta
  let s ← sweepScl r.1
  let p ← sweepPicks g.useGrad s
  let o ← p.mapM (pickSurr g theta r.2.1 r.2.2 X)
  pure (s, p, o)

end GP
