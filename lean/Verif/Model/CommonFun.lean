import Verif.Np
import Mathlib.Analysis.SpecialFunctions.Pow.Real

/-! Model of `gpgradpy/src/base/CommonFun.py` (the functions the library itself uses;
`test_grad_calc` is in `Model/GradCheck`). -/

open Np

namespace GP

/-- `X[:, np.array([d])]`: column `d` as an `n x 1` array (base/CommonFun.py:82). -/
def colArr (X : Arr2) (d : ℕ) : Arr2 := ⟨X.r, 1, fun i _ => X.get i d⟩

/-- `calc_Rtensor(X, Y)` with the default exponent: base/CommonFun.py:56-84. -/
def calcRtensor (X Y : Arr2) : Py Arr3 := do
  pyAssert (X.c = Y.c)                                            -- line 77
  forRange 0 X.c (Arr3.zeros X.c X.r Y.r) fun d R => do           -- lines 79-81
    let V ← (colArr X d).sub (colArr Y d).T                       -- line 82
    R.setSlice d 0 X.r 0 Y.r V

/-- Minimum of a list of floats (`np.nanmin` of the non-NaN entries; `none` when empty). -/
noncomputable def listMin : List ℝ → Option ℝ
  | [] => none
  | x :: xs => some (xs.foldl min x)

/-- Maximum of a list of floats. -/
noncomputable def listMax : List ℝ → Option ℝ
  | [] => none
  | x :: xs => some (xs.foldl max x)

/-- Euclidean distance of rows `a`, `b` (`cdist(..., 'euclidean')`). -/
noncomputable def rowDist (X : Arr2) (a b : ℕ) : ℝ :=
  Real.sqrt (∑ d ∈ Finset.range X.c, (X.get a d - X.get b d) ^ 2)

/-- All index pairs `(a, b)` of an `n x n` matrix in row-major order. -/
def allPairs (n : ℕ) : List (ℕ × ℕ) := (List.range n).flatMap fun a => (List.range n).map fun b => (a, b)

/-- `calc_dist_min`: base/CommonFun.py:15-34. `none` is NaN. The diagonal is overwritten by NaN and
ignored by `nanmin` (line 33-34). For zero rows `np.nanmin` of an empty array raises. -/
noncomputable def calcDistMin (X : Arr2) : Py (Option ℝ) :=
  if X.r = 1 then .ok none
  else match listMin (((allPairs X.r).filter fun p => p.1 ≠ p.2).map fun p => rowDist X p.1 p.2) with
    | some v => .ok (some v)
    | none => .error .shape

/-- `calc_dist_max`: base/CommonFun.py:36-54. -/
noncomputable def calcDistMax (X : Arr2) : Py (Option ℝ) :=
  if X.r = 1 then .ok none
  else match listMax ((allPairs X.r).map fun p => rowDist X p.1 p.2) with
    | some v => .ok (some v)
    | none => .error .shape

/-- `fgrad.reshape(fgrad.size, order='f')`: base/CommonFun.py:170; column-major flattening. -/
def flattenF (G : Arr2) : Arr1 := ⟨G.r * G.c, fun k => G.get (k % G.r) (k / G.r)⟩

/-- `np.hstack((a, b))` of 1-d arrays. -/
def hstack (a b : Arr1) : Arr1 := ⟨a.n + b.n, fun k => if k < a.n then a.get k else b.get (k - a.n)⟩

/-- `make_data_vec`: base/CommonFun.py:151-173. -/
def makeDataVec (fval : Arr1) (fgrad : Option Arr2) : Arr1 :=
  match fgrad with
  | none => fval
  | some G => hstack fval (flattenF G)

end GP
