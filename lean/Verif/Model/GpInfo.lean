import Verif.Model.HpX0

/-! Model of the text tables of `GpInfo` (base/GpInfo.py). A table is what is handed to `tabulate`: the headers and the
array of numbers; the formatting of the numbers and the printing are not modelled. -/

open Np

noncomputable section

namespace GP

/-- The arguments `data` and `headers` of `tabulate`. -/
structure Table where
  rows : ℕ
  cols : ℕ
  cell : ℕ → ℕ → Fl
  headers : List String

/-- What the tables read: the history and `dim`, `n_beta_coeff`, `b_optz_var_fval`, `b_optz_var_fgrad`. -/
structure InfoObj where
  dim : ℕ
  nBeta : ℕ
  /-- absent before `init_optz_surr` -/
  h : Option Surr
  /-- `None` before `set_data`: GaussianProcess.py:120-121 -/
  optzVarFval : Option Bool
  optzVarFgrad : Option Bool

/-- `5 + self.b_optz_var_fval + …`: adding `None` raises. -/
def needFlag : Option Bool → Py Bool
  | some b => .ok b
  | none => .error .typeError

/-- The arrays of the history are attributes only after `init_optz_surr`. -/
def needHist (o : InfoObj) : Py Surr :=
  match o.h with
  | some h => .ok h
  | none => .error .attribute

/-- `data[:,j] = v`: a vector of another length than 1 or the number of rows raises. -/
def Table.setCol (t : Table) (j : ℕ) (v : FVec) : Py Table :=
  if j < t.cols then
    if v.n = t.rows ∨ v.n = 1 then
      .ok { t with cell := fun i c => if c = j then v.get (bidx v.n t.rows i) else t.cell i c }
    else .error .shape
  else .error .index

/-- `headers[j] += s`. -/
def Table.addHeader (t : Table) (j : ℕ) (s : String) : Py Table :=
  if j < t.headers.length then .ok { t with headers := t.headers.set j (t.headers.getD j "" ++ s) } else .error .index

/-- `headers[j] = s`. -/
def Table.setHeader (t : Table) (j : ℕ) (s : String) : Py Table :=
  if j < t.headers.length then .ok { t with headers := t.headers.set j s } else .error .index

/-- `np.min(row)` of a non-empty row: NaN if one entry is. -/
def rowMin (l : List Fl) : Fl := match l with | [] => none | x :: l => l.foldl fmin x
/-- `np.max(row)` of a non-empty row: NaN if one entry is. -/
def rowMax (l : List Fl) : Fl := match l with | [] => none | x :: l => l.foldl fmax x
/-- The entries of a row of a matrix. -/
def rowEntries (A : FMat) (i : ℕ) : List Fl := (List.range A.c).map (A.get i)

/-- The float that a Boolean becomes in an array of floats. -/
def boolFl (b : Bool) : Fl := some (if b then 1 else 0)

/-- `info_surr_summary`: base/GpInfo.py:123-187. -/
def infoSummary (o : InfoObj) : Py Table := do
  let h ← needHist o
  let n := (h.one .varK).n
  let bf ← needFlag o.optzVarFval
  let bg ← needFlag o.optzVarFgrad
  let nData := 5 + bf.toNat + bg.toNat + min 3 o.dim
  let t : Table := ⟨n, nData, fun _ _ => some 0, List.replicate nData ""⟩
  let t ← t.setCol 0 ⟨n, fun i => some (i : ℝ)⟩
  let t ← t.setCol 1 (h.one .kernel)
  let t ← (if 1 ≤ o.nBeta then
      (if 0 < (h.two .beta).c then t.setCol 2 ⟨(h.two .beta).r, fun i => (h.two .beta).get i 0⟩ else .error .index)
    else t.setCol 2 ⟨1, fun _ => none⟩ : Py Table)
  let t ← t.setCol 3 (h.one .varK)
  let t ← t.setCol 4 (h.one .varKVarF)
  let idx := 5
  let t := { t with headers := [" ", "Kernel", "Mu", "varK", "varK / var_f"] ++ t.headers.drop 5 }
  let (t, idx) ← (if bf then do
      let t ← t.setCol idx (h.one .varFval)
      let t ← t.addHeader idx "hp var fun"
      pure (t, idx + 1)
    else pure (t, idx) : Py (Table × ℕ))
  let (t, idx) ← (if bg then do
      let t ← t.setCol idx (h.one .varFgrad)
      let t ← t.addHeader idx "hp var grad"
      pure (t, idx + 1)
    else pure (t, idx) : Py (Table × ℕ))
  if o.dim ≤ 3 then
    forRange 0 o.dim t fun i t => do
      if i < (h.two .theta).c then
        let t ← t.setCol (idx + i) ⟨(h.two .theta).r, fun k => (h.two .theta).get k i⟩
        t.addHeader (idx + i) ("theta " ++ toString i)
      else .error .index
  else do
    let t ← t.setCol idx ⟨(h.two .theta).r, fun k => rowMin (rowEntries (h.two .theta) k)⟩
    let t ← t.setCol (idx + 1) ⟨(h.two .theta).r, fun k => rowMax (rowEntries (h.two .theta) k)⟩
    let t ← t.setCol (idx + 2) ⟨(h.two .theta).r, fun k => median (rowEntries (h.two .theta) k)⟩
    pure { t with headers := t.headers.take idx ++ ["theta min", "theta max", "theta median"] ++ t.headers.drop (idx + 3) }

/-- `info_surr_theta`: base/GpInfo.py:189-214. -/
def infoTheta (o : InfoObj) : Py Table := do
  let h ← needHist o
  let A := h.two .theta
  let t : Table := ⟨A.r, o.dim + 1, fun _ _ => some 0, List.replicate (o.dim + 1) " "⟩
  let t ← t.setCol 0 ⟨A.r, fun i => some (i : ℝ)⟩
  let t ← (if A.c = o.dim ∨ A.c = 1 then
      pure { t with cell := fun i c => if c = 0 then t.cell i c else A.get i (bidx A.c o.dim (c - 1)) }
    else .error .shape : Py Table)
  forRange 0 o.dim t fun i t => t.setHeader (i + 1) ("th" ++ toString i)

/-- `info_surr_optz`: base/GpInfo.py:216-230. Vectors of different lengths do not make an array. -/
def infoOptz (o : InfoObj) : Py Table := do
  let h ← needHist o
  let n := (h.one .cond).n
  let vs : List FVec := [⟨n, fun i => some (i : ℝ)⟩, h.one .timeOptz,
    ⟨(h.one .success).n, fun i => ((h.one .success).get i).map (100 * ·)⟩, h.one .iterMean, h.one .iterMax,
    ⟨(h.one .conGood).n, fun i => ((h.one .conGood).get i).map (100 * ·)⟩, h.one .cond,
    ⟨h.atMax.n, fun i => boolFl (h.atMax.get i)⟩]
  if ∀ v ∈ vs, v.n = n then
    pure ⟨n, 8, fun i c => (vs.getD c ⟨0, fun _ => none⟩).get i,
      [" ", "Time", "Success (%)", "Mean i", "Max i", "Con good %", "Cond", "At cond max?"]⟩
  else .error .raised

/-- `info_surr_all_data`: base/GpInfo.py:39-45. -/
def infoAll (o : InfoObj) : Py (List Table) := do
  let a ← infoSummary o
  let b ← infoTheta o
  let c ← infoOptz o
  pure [a, b, c]

/-- `get_txt_info_surr`: base/GpInfo.py:20-37. `info_surr_options` (lines 47-121) only formats options of the class, all of which
exist, and is left out. `print2screen` only prints; `save2file` calls `self.save_txt_data`, which no class defines. -/
def txtInfo (saveDataTxt : Bool) (save2file : Option Bool) (o : InfoObj) : Py (List Table) := do
  let save := save2file.getD saveDataTxt
  let d ← infoAll o
  if save then .error .attribute else pure d

end GP
