import Verif.Model.Results
import Verif.Model.HpX0

/-! Model of the preparation of the plotted data: `calc_scl_data` and the search on the grid of `plt/plt_cond.py`, the scaling of
`plt/SurrPlt.py: plot_acq`. -/

open Np

noncomputable section

namespace GP

/-- `np.nanmin` of the entries; NaN if there is no number. -/
def nanMinL (l : List Fl) : Fl := l.foldl nanMin2 none

/-- `np.nanmax` of the entries; NaN if there is no number. -/
def nanMaxL (l : List Fl) : Fl := l.foldl nanMax2 none

/-- The entries of a matrix, row by row. -/
def FMat.entries (A : FMat) : List Fl := (List.range A.r).flatMap fun i => (List.range A.c).map fun j => A.get i j

open Classical in
/-- `(v - lo) / (hi - lo)` in floats; `0/0` is NaN. (`hi = lo` only occurs with `v = lo`.) -/
def sclEntry (v lo hi : Fl) : Fl :=
  match v, lo, hi with
  | some v, some a, some b => if b - a = 0 then none else some ((v - a) / (b - a))
  | _, _, _ => none

/-- `calc_scl_data`: plt/plt_cond.py:209-215. An array without entries raises (`np.nanmin`). -/
def calcSclData (A : FMat) : Py FMat :=
  if A.r = 0 ∨ A.c = 0 then .error .raised
  else .ok ⟨A.r, A.c, fun i j => sclEntry (A.get i j) (nanMinL A.entries) (nanMaxL A.entries)⟩

/-- The scaling of one column of acquisition values: plt/SurrPlt.py:89-95. `np.min` and `np.max` of a column with NaN are NaN. -/
def acqScl (v : FVec) : Py FVec :=
  if v.n = 0 then .error .raised
  else
    let l := (List.range v.n).map v.get
    if l.any Option.isNone then .ok ⟨v.n, fun _ => none⟩
    else .ok ⟨v.n, fun i =>
      match v.get i, nanMinL l, nanMaxL l with
      | some x, some a, some b => some ((x - a) / max 1e-8 (b - a))
      | _, _, _ => none⟩

/-- The likelihoods on the grid: plt/plt_cond.py:182-193. `ev` is the likelihood for a pair of length scales, NaN if there is none;
it may raise. -/
def gridLkd (n : ℕ) (theta : ℕ → ℝ) (ev : ℝ → ℝ → Py Fl) : Py FMat :=
  forRange 0 n ⟨n, n, fun _ _ => none⟩ fun i A =>
    forRange 0 n A fun j A => do
      let v ← ev (theta i) (theta j)
      pure ⟨A.r, A.c, fun p q => if p = i ∧ q = j then v else A.get p q⟩

/-- `idx_max_col`, `idx_max_row` and `loc_max_lkd`: plt/plt_cond.py:199-206. -/
def gridMax (n : ℕ) (gamma : ℕ → ℝ) (A : FMat) : Py (Option (ℝ × ℝ)) :=
  if (A.entries.filter Option.isNone).length = n ^ 2 then pure none
  else do
    let i ← nanArgmax ((List.range A.r).map fun i => nanMaxL ((List.range A.c).map (A.get i)))
    let j ← nanArgmax ((List.range A.c).map (A.get i))
    pure (some (gamma j, gamma i))

open Classical in
/-- The contour that `plot_lkd` adds to the map of likelihoods: plt/plt_cond.py:258, 265-267. Returned are the table and the level passed to `ax.contour`, or
nothing if it is not called; `lc` are the base-10 logarithms of the condition numbers (numbers for every pair), `scl` the scaled likelihoods. `np.max` of an
empty table raises. -/
def limitContour (condMax : ℝ) (scl : FMat) (lc : Arr2) : Py (Option (FMat × ℝ)) :=
  if lc.r = 0 ∨ lc.c = 0 then .error .raised
  else pure (if ∃ i < lc.r, ∃ j < lc.c, Real.logb 10 condMax < lc.get i j then some (scl, Real.logb 10 condMax) else none)

end GP
