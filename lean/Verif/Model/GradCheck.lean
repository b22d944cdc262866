import Verif.Model.CommonFun

/-! Model of `CommonFun.test_grad_calc` (`gpgradpy/src/base/CommonFun.py:86-149`). The two function handles are arbitrary
functions that may raise; they are assumed to give the same answer when they are called twice at the same point and not to change
their argument. Printing (lines 143-147) is left out. Division by `eps = 0`, NaN or infinite in numpy, is 0 here. -/

open Np

namespace GP

/-- What a gradient handle returns after `np.atleast_1d`: base/CommonFun.py:114. -/
inductive GradVal where
  | vec (g : Arr1)
  | mat (G : Arr2)

/-- `x0_i = 1 * x0; x0_i[i] += s`: base/CommonFun.py:120-121, 125-126. -/
def stepAt (x0 : Arr1) (i : ℕ) (s : ℝ) : Arr1 := ⟨x0.n, fun j => if j = i then x0.get j + s else x0.get j⟩

/-- The difference of two 1-d arrays, with broadcasting: base/CommonFun.py:129, 132. -/
def sub1 (a b : Arr1) : Py Arr1 :=
  match bdim a.n b.n with
  | some n => .ok ⟨n, fun k => a.get (bidx a.n n k) - b.get (bidx b.n n k)⟩
  | none => .error .shape

/-- `fd_grad[:, i] = v`, with broadcasting of a single entry: base/CommonFun.py:129, 132. -/
def setCol (A : Arr2) (i : ℕ) (v : Arr1) : Py Arr2 :=
  if i < A.c then
    if v.n = A.r ∨ v.n = 1 then .ok ⟨A.r, A.c, fun p q => if q = i then v.get (bidx v.n A.r p) else A.get p q⟩
    else .error .shape
  else .error .index

/-- The finite differences: base/CommonFun.py:116-132. -/
noncomputable def fdGrad (x0 : Arr1) (f : Arr1 → Py Arr1) (fx0 : Arr1) (eps : ℝ) (cent : Bool) : Py Arr2 :=
  forRange 0 x0.n (Arr2.zeros fx0.n x0.n) fun i A => do                                  -- lines 117-119
    let fp ← f (stepAt x0 i eps)                                                         -- lines 120-122
    if cent then
      let fm ← f (stepAt x0 i (-eps))                                                    -- lines 125-127
      let d ← sub1 fp fm
      setCol A i (d.map fun v => v / (2 * eps))                                          -- line 129
    else
      let d ← sub1 fp fx0
      setCol A i (d.map fun v => v / eps)                                                -- line 132

/-- `test_grad_calc`: base/CommonFun.py:86-149. -/
noncomputable def testGradCalc (x0 : Arr1) (f : Arr1 → Py Arr1) (g : Arr1 → Py GradVal) (eps : ℝ) (cent : Bool) :
    Py (GradVal × GradVal) := do
  let fx0 ← f x0                                                                         -- line 113
  let gx0 ← g x0                                                                         -- line 114
  let A ← fdGrad x0 f fx0 eps cent
  match gx0 with
  | .vec v =>
    pyAssert (fx0.n = 1)                                                                 -- line 135
    let fd : Arr1 := ⟨A.c, fun j => A.get 0 j⟩                                           -- line 136
    let _ ← sub1 v fd                                                                    -- line 138
    pure (.vec fd, .vec v)
  | .mat G =>
    let _ ← G.sub A                                                                      -- line 138
    pure (.mat A, .mat G)

end GP
