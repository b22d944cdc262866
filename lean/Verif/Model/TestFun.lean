import Verif.Np
import Mathlib.Analysis.SpecialFunctions.Trigonometric.Basic

/-! Model of the functions of interest of the scripts: `plt/plt_cond.py:54-83`, `plt/plt_nugget_1d.py:47-76` (the same code),
`plt/plt_surr_1d.py:57-65` and `plt/plt_acq.py:25-33` (the same code). -/

open Np

noncomputable section

namespace GP

/-- `xy[:,d]`; out of range raises. -/
def colOf (X : Arr2) (d : ℕ) : Py Arr1 := if d < X.c then .ok ⟨X.r, fun p => X.get p d⟩ else .error .index

/-- `xy[:,-k]` for `k ≥ 1`; out of range raises. -/
def colFromEnd (X : Arr2) (k : ℕ) : Py Arr1 := if k ≤ X.c then colOf X (X.c - k) else .error .index

/-- `calc_obj` (Rosenbrock): plt/plt_cond.py:54-63, plt/plt_nugget_1d.py:47-56. -/
def rosenObj (xy : Arr2) (a : ℝ := 10) : Py Arr1 :=
  forRange 0 (xy.c - 1) ⟨xy.r, fun _ => 0⟩ fun d obj => do
    let xp ← colOf xy (d + 1)
    let xd ← colOf xy d
    pure ⟨obj.n, fun p => obj.get p + (a * (xp.get p - xd.get p ^ 2) ^ 2 + (1 - xd.get p) ^ 2)⟩

/-- `grad[:,d] = v`. -/
def putCol (A : Arr2) (d : ℕ) (v : ℕ → ℝ) : Arr2 := ⟨A.r, A.c, fun p q => if q = d then v p else A.get p q⟩

/-- `calc_grad` (Rosenbrock): plt/plt_cond.py:65-83, plt/plt_nugget_1d.py:58-76. -/
def rosenGrad (xy : Arr2) (a : ℝ := 10) : Py Arr2 := do
  let grad := Arr2.zeros xy.r xy.c                                                       -- line 70
  let x1 ← colOf xy 0                                                                    -- line 72
  let x2 ← colOf xy 1                                                                    -- line 73
  let grad := putCol grad 0 fun p => -2 * (1 - x1.get p) - 4 * a * x1.get p * (x2.get p - x1.get p ^ 2)  -- line 74
  let l1 ← colFromEnd xy 1
  let l2 ← colFromEnd xy 2
  let grad := putCol grad (xy.c - 1) fun p => 2 * a * (l1.get p - l2.get p ^ 2)          -- line 76
  forRange 1 (xy.c - 1) grad fun d G => do                                               -- lines 78-83
    let xdn1 ← colOf xy (d - 1)
    let xd ← colOf xy d
    let xdp1 ← colOf xy (d + 1)
    pure (putCol G d fun p => G.get p d + (-2 * (1 - xd.get p) - 4 * a * xd.get p * (xdp1.get p - xd.get p ^ 2)
      + 2 * a * (xd.get p - xdn1.get p ^ 2)))

/-- `calc_obj` (one variable): plt/plt_surr_1d.py:57-59, plt/plt_acq.py:25-27. -/
def sineObj (x : Arr2) : Py Arr1 := do
  let v ← colOf x 0
  pure ⟨v.n, fun p => Real.sin (v.get p) + Real.sin (10 * v.get p / 3)⟩

/-- `calc_grad` (one variable): plt/plt_surr_1d.py:61-65, plt/plt_acq.py:29-33. -/
def sineGrad (x : Arr2) : Py Arr2 := do
  let v ← colOf x 0
  pure ⟨v.n, 1, fun p _ => Real.cos (v.get p) + (10 / 3) * Real.cos (10 * v.get p / 3)⟩

end GP
