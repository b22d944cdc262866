import Verif.Model.ParaDef

/-! Model of the convergence histories of `gpgradpy/results/PltOptzResults.py`. Loading of files is in `Model/LoadData`, plotting is left out. -/

open Np

noncomputable section

namespace GP

/-- `np.nanmin((a, b))`: results/PltOptzResults.py:98. NaN only if both are (numpy warns). -/
def nanMin2 : Fl → Fl → Fl
  | some x, some y => some (min x y)
  | some x, none => some x
  | none, b => b

/-- `np.nanmax((a, b))`: results/PltOptzResults.py:101. -/
def nanMax2 : Fl → Fl → Fl
  | some x, some y => some (max x y)
  | some x, none => some x
  | none, b => b

open Classical in
/-- `best_at_all_iter`: results/PltOptzResults.py:73-105. `iter_vec[np.logical_not(idx_has_nan)]` is the list of the positions of the
numbers. -/
def bestAtAllIter (data : FVec) (method : String) : Py FVec :=
  if data.n = 0 then .error .index                                                       -- line 80
  else
    let best : FVec := ⟨data.n, fun i => if i = 0 then data.get 0 else none⟩             -- lines 79-80
    let nums := (List.range data.n).filter fun i => (data.get i).isSome                  -- line 90
    if nums.length = 0 then .ok best                                                     -- lines 86-87
    else
      let nMax := if ∃ i < data.n, data.get i = none then min data.n (nums.foldl max 0 + 1) else data.n  -- lines 85-93
      if method = "min" then                                                             -- lines 96-98
        forRange 1 nMax best fun i b => .ok ⟨b.n, Function.update b.get i (nanMin2 (b.get (i - 1)) (data.get i))⟩
      else if method = "max" then                                                        -- lines 99-101
        forRange 1 nMax best fun i b => .ok ⟨b.n, Function.update b.get i (nanMax2 (b.get (i - 1)) (data.get i))⟩
      else .error .raised                                                                -- line 103

end GP
