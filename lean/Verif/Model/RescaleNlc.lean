import Verif.Model.Rescale

/-! Model of the conversions of nonlinear constraints and of the getters in `gpgradpy/src/base/Rescaling.py`. -/

open Np

noncomputable section

namespace Np
/-- A 4-d array. -/
structure Arr4 where
  n : ℕ
  d : ℕ
  r : ℕ
  c : ℕ
  get : ℕ → ℕ → ℕ → ℕ → ℝ
/-- A 4-d array combined with a row vector (broadcast over the first three axes). -/
def Arr4.bopRow (f : ℝ → ℝ → ℝ) (A : Arr4) (v : Arr1) : Py Arr4 :=
  match bdim A.c v.n with
  | some c => .ok ⟨A.n, A.d, A.r, c, fun h i j k => f (A.get h i j (bidx A.c c k)) (v.get (bidx v.n c k))⟩
  | none => .error .shape
end Np

namespace GP

/-- Values, standard deviations, gradients and Hessians of several functions at several points, each possibly `None`: the
arguments of `nlc_init_2_scl` and `nlc_scl_2_init`, base/Rescaling.py:256-258, 284-286. The axes are point, function,
coordinate(s). The code asserts `ndim == 2` of the values and `ndim == 3` of the gradients of the mean; arrays of other ranks
are not modelled. -/
structure Nlc6 where
  mu : Option Arr2 := none
  sig : Option Arr2 := none
  dmu : Option Arr3 := none
  dsig : Option Arr3 := none
  d2mu : Option Arr4 := none
  d2sig : Option Arr4 := none

/-- `nlc_init_2_scl`: base/Rescaling.py:256-282. The values and the standard deviations are used without a test for `None`. -/
def nlcInit2Scl6 (s : Scl) (a : Nlc6) : Py Nlc6 := do
  pyAssert (s.nlc.isSome = true)                                                                -- line 260
  match a.mu with
  | none => .error .attribute                                                                   -- line 261, `None.ndim`
  | some v => do
    let y ← v.bop (· - ·) s.nlcShift.row                                                        -- line 269
    match a.sig with
    | none => .error .typeError                                                                 -- line 270, `None * float`
    | some t => do
      let sg := invScale s.xScale s.nlcScale 1                                                  -- lines 266, 273
      let g ← optPy (fun (A : Arr3) => A.bopRow (· * ·) sg) a.dmu
      let h ← optPy (fun (A : Arr3) => A.bopRow (· * ·) sg) a.dsig
      let sh := invScale s.xScale s.nlcScale 2                                                  -- line 278
      let H ← optPy (fun (A : Arr4) => A.bopRow (· * ·) sh) a.d2mu
      let K ← optPy (fun (A : Arr4) => A.bopRow (· * ·) sh) a.d2sig
      pure { mu := some (y.map fun u => u * s.nlcScale), sig := some (t.map fun u => u * s.nlcScale)
             dmu := g, dsig := h, d2mu := H, d2sig := K }

/-- `nlc_scl_2_init`: base/Rescaling.py:284-311. -/
def nlcScl2Init6 (s : Scl) (a : Nlc6) : Py Nlc6 := do
  pyAssert (s.nlc.isSome = true)                                                                -- line 292
  match a.mu with
  | none => .error .attribute                                                                   -- line 293, `None.ndim`
  | some v => do
    let sg := fwdScale s.xScale s.nlcScale 1                                                    -- line 295
    let sh := fwdScale s.xScale s.nlcScale 2                                                    -- line 296
    let y ← (v.map fun u => u / s.nlcScale).bop (· + ·) s.nlcShift.row                          -- line 298
    let g ← optPy (fun (A : Arr3) => A.bopRow (· * ·) sg) a.dmu                                 -- lines 301-305
    let h ← optPy (fun (A : Arr3) => A.bopRow (· * ·) sg) a.dsig
    let H ← optPy (fun (A : Arr4) => A.bopRow (· * ·) sh) a.d2mu
    let K ← optPy (fun (A : Arr4) => A.bopRow (· * ·) sh) a.d2sig
    pure { mu := some y, sig := a.sig.map fun t => t.map fun u => u / s.nlcScale
           dmu := g, dsig := h, d2mu := H, d2sig := K }

/-- The stored data as arguments of `nlc_init_2_scl`: base/Rescaling.py:354-355. -/
def NlcData.args (d : NlcData) : Nlc6 := { mu := some d.val, sig := d.std, dmu := d.grad, dsig := d.stdGrad }

/-! ### Getters -/

/-- `get_init_x`: base/Rescaling.py:450-451. -/
def getInitX (s : Scl) : Py Arr2 := pure s.xInit
/-- `get_scl_x`: base/Rescaling.py:453-454. -/
def getSclX (s : Scl) : Py Arr2 := pure s.xScl
/-- `get_scl_x_w_dist`: base/Rescaling.py:456-457. -/
def getSclXDist (s : Scl) : Py (Arr2 × Arr3) := pure (s.xScl, s.R)
/-- The assertion at the start of a getter, and what it returns. The flag is set but the attribute with scaled data is not
only after a setter raised: then the constraint getters raise AttributeError, while those of the objective and the nonlinear
constraints return the class attributes `None`, which is not modelled (an error here). -/
def getIf {α β : Type} (flag : Option α) (r : Option β) : Py β := do
  pyAssert (flag.isSome = true)
  match r with
  | some b => pure b
  | none => .error .attribute
/-- `get_init_obj_data`: base/Rescaling.py:480-482. -/
def getInitObj (s : Scl) : Py ObjData := getIf s.obj s.obj
/-- `get_scl_obj_data`: base/Rescaling.py:484-486. -/
def getSclObj (s : Scl) : Py ObjData := getIf s.obj s.objScl
/-- `get_init_nlc_data`: base/Rescaling.py:510-512. -/
def getInitNlc (s : Scl) : Py NlcData := getIf s.nlc s.nlc
/-- `get_scl_nlc_data`: base/Rescaling.py:514-516. -/
def getSclNlc (s : Scl) : Py NlcData := getIf s.nlc s.nlcScl
/-- `get_init_boxcon`: base/Rescaling.py:531-533. -/
def getInitBox (s : Scl) : Py (Arr1 × Arr1) := getIf s.box s.box
/-- `get_scl_boxcon`: base/Rescaling.py:535-537. -/
def getSclBox (s : Scl) : Py (Arr1 × Arr1) := getIf s.box s.boxScl
/-- `get_init_lincon`: base/Rescaling.py:551-553. -/
def getInitLin (s : Scl) : Py (Arr2 × Arr1 × Arr1) := getIf s.lin s.lin
/-- `get_scl_lincon`: base/Rescaling.py:555-557. -/
def getSclLin (s : Scl) : Py (Arr2 × Arr1 × Arr1) := getIf s.lin s.linScl

end GP
